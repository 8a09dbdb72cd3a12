import Verif.Model.Recursion.Circuit
/-!
# The circuit of the example `examples/bitcoin.rs`

`one` is the constant `CS::ONE`. The functions are generic over the field, of which two assertions are
made: `F::CAPACITY >= 249` (`examples/bitcoin.rs:210`) holds for both fields, whose capacity is 254.
Bytes whose values are computed from single bits are natural numbers here; none of the sums exceeds 255.
The type `U256` of the crate `uint` has operators that panic on overflow; it is modelled by natural numbers
with explicit checks.
-/
namespace Halo
namespace Example
open Circuit Recursion
open Circuit.Sha256 (foldProg index)
variable {F : Type} [Field F] [FieldApi F]

/-- `examples/bitcoin.rs:19-41` `bytes_to_bits`, for given values of the bits -/
def allocBits (value : ℕ → Except SynthesisError Bool) (len : ℕ) : Prog F (List Boolean) :=
  mapProg (fun i => do return .is (← AllocatedBit.alloc (value i))) (List.range (len * 8))

/-- The value of a bit in `bytes_to_bits` (`examples/bitcoin.rs:32-33`); all indices are in bounds in the only
call, which is for 32 bytes. -/
def bitOfBytes (data : Option (List ℕ)) (i : ℕ) : Except SynthesisError Bool :=
  orMissing (data.map fun bytes => (bytes.getD (i / 8) 0).testBit (i % 8))

/-- `examples/bitcoin.rs:57-65` `lc_from_bits` -/
def lcFromBits (one : Var) (bits : List Boolean) : LC F :=
  (bits.foldl (fun (acc : LC F × Coeff F) bit =>
    (acc.1.addLC (bit.lc one acc.2), acc.2.double)) (LC.zero, .one)).1

/-- `examples/bitcoin.rs:43-55` `enforce_equality`; the two combinations are built in one loop there. -/
def enforceEquality (one : Var) (a b : List Boolean) : Prog F Unit :=
  if a.length ≠ b.length then .panic else
    .enforce ((lcFromBits one a).subLC (lcFromBits one b))

/-- `examples/bitcoin.rs:67-91` `bits_to_num` -/
def bitsToNum (one : Var) (bits : List Boolean) : Prog F (AllocatedNum F) := do
  let value : Option F := bits.reverse.foldl (fun acc b => match acc, b.getValue with
    | some acc, some bit => some (acc + acc + ofBool bit)
    | _, _ => none) (some 0)
  let num ← AllocatedNum.alloc (orMissing value)
  .enforce ((lcFromBits one bits).subLC num.lc)
  return num

/-- `examples/bitcoin.rs:93-99` `CompactBits`; `mantissa` has three bytes -/
structure CompactBits where
  mantissa : Option (List ℕ)
  size : Option ℕ
  mantissaBits : List Boolean
  mantissaSignBit : Boolean
  sizeBits : List Boolean

/-- The sum of the bits, each shifted by its position (`examples/bitcoin.rs:119-126`, `138-147`) -/
def sumBits (bits : List Boolean) : Option ℕ :=
  bits.zipIdx.foldl (fun acc b => match acc, b.1.getValue with
    | some acc, some bit => some (acc + if bit then 1 <<< b.2 else 0)
    | _, _ => none) (some 0)

/-- The values of the mantissa's bytes, if all are known (`examples/bitcoin.rs:115-135`) -/
def mantissaBytes (bits : List Boolean) : Option (List ℕ) :=
  (Sha256.chunks 8 bits).foldl (fun acc byte => match acc, sumBits byte with
    | some acc, some byte => some (acc ++ [byte])
    | _, _ => none) (some [])

/-- `examples/bitcoin.rs:102-163` `from_header` -/
def CompactBits.fromHeader (bits : List Boolean) : Prog F CompactBits := do
  let nbitsStart := 4 + 32 + 32 + 4
  let mantissaBits ← slice bits (8 * nbitsStart) (8 * nbitsStart + 23)
  let mantissaSignBit ← index bits (8 * nbitsStart + 23)
  let sizeBits ← slice bits (8 * nbitsStart + 24) (8 * nbitsStart + 32)
  let mantissa := mantissaBytes mantissaBits
  let size := sumBits sizeBits
  if ∃ s ∈ size, s < 4 then .panic else
  return { mantissa, size, mantissaBits, mantissaSignBit, sizeBits }

/-- `examples/bitcoin.rs:174-183`: the bytes of the target; `none` if an index is out of bounds -/
def targetBytes (mantissa : List ℕ) (size : ℕ) : Option (List ℕ) :=
  if size - 1 < 32 then
    some ((((List.replicate 32 0).set (size - 3) (mantissa.getD 0 0)).set (size - 2)
      (mantissa.getD 1 0)).set (size - 1) (mantissa.getD 2 0))
  else none

/-- The number with these bytes, least significant first -/
def bytesValue : List ℕ → ℕ
  | [] => 0
  | b :: bs => b + 256 * bytesValue bs

/-- `examples/bitcoin.rs:280-289`: "build target value with double-and-add" -/
def doubleAndAdd (target : List ℕ) : F :=
  target.reverse.foldl (fun acc byte => (List.range 8).foldl (fun acc i =>
    let acc := acc + acc
    if byte.testBit i then acc + 1 else acc) acc) 0

/-- `examples/bitcoin.rs:218-261`: square, then conditionally multiply by 256 -/
def powStep (one : Var) (base : AllocatedNum F) (powSize : AllocatedNum F) (bit : Boolean) :
    Prog F (AllocatedNum F) := do
  let sq ← powSize.mul powSize
  let sqM256 ← sq.mul base
  let next ← AllocatedNum.alloc (match bit.getValue, sq.value, sqM256.value with
    | some b, some sq, some sqM256 => .ok (if b then sqM256 else sq)
    | _, _, _ => .error .assignmentMissing)
  let (a, b, c, _) ← .doMultiply (match bit.getValue, sq.value, sqM256.value, next.value with
    | some b, some sq, some sqM256, some next => .ok (ofBool b, sqM256 - sq, next - sq)
    | _, _, _, _ => .error .assignmentMissing)
  .enforce ((bit.lc one .one).subVar a)
  .enforce ((sqM256.lc.subLC sq.lc).subVar b)
  .enforce ((next.lc.subLC sq.lc).subVar c)
  return next

/-- `examples/bitcoin.rs:174-183` -/
def CompactBits.targetVal (c : CompactBits) : Prog F (Option (List ℕ)) :=
  match c.mantissa, c.size with
  | some mantissa, some size => do return some (← orPanic (targetBytes mantissa size))
  | _, _ => return none

/-- `examples/bitcoin.rs:184-318`: the constraints of `unpack`, for given values of the bits of the target, the
first power and the two last gates -/
def CompactBits.constrain (one : Var) (c : CompactBits) (bit : ℕ → Except SynthesisError Bool) (first : F)
    (product power : Except SynthesisError (F × F × F)) : Prog F (List Boolean) := do
  let target ← allocBits bit 32
  let baseVal : F := FieldApi.fromU64 256
  let base ← AllocatedNum.alloc (.ok baseVal)
  .enforce (base.lc.sub (.full baseVal) one)
  if c.sizeBits.length ≠ 8 then .panic else do
  .enforce ((← index c.sizeBits 5).lc one .one)
  .enforce ((← index c.sizeBits 6).lc one .one)
  .enforce ((← index c.sizeBits 7).lc one .one)
  let powSize ← AllocatedNum.alloc (.ok first)
  let powSize ← foldProg (powStep one base) (c.sizeBits.reverse.drop 3) powSize
  let (aVar, bVar, cVar, _) ← .doMultiply product
  let basePow3 : F := FieldApi.fromU64 0x01000000
  let (dVar, eVar, fVar, _) ← .doMultiply power
  .enforce ((lcFromBits one c.mantissaBits).subVar aVar)
  .enforce ((lcFromBits one target).subVar cVar)
  .enforce ((LC.ofVar bVar).subVar dVar)
  .enforce ((LC.ofVar eVar).sub (.full basePow3) one)
  .enforce (powSize.lc.subVar fVar)
  return target

/-- `examples/bitcoin.rs:263-292`: the values of the gate `mantissa * 256^(size - 3) = target` -/
def CompactBits.productValues (c : CompactBits) (targetVal : Option (List ℕ)) :
    Except SynthesisError (F × F × F) := do
  let mantissa ← orMissing c.mantissa
  let bVal ← orMissing (c.size.map fun size => (FieldApi.fromU64 256 : F) ^ (size - 3))
  let target ← orMissing targetVal
  .ok (FieldApi.fromU64 (BitVec.ofNat 64 (bytesValue mantissa)), bVal, doubleAndAdd target)

/-- `examples/bitcoin.rs:296-304`: the values of the gate `256^(size - 3) * 256^3 = 256^size` -/
def CompactBits.powerValues (c : CompactBits) : Except SynthesisError (F × F × F) := do
  let bVal ← orMissing (c.size.map fun size => (FieldApi.fromU64 256 : F) ^ (size - 3))
  let size ← orMissing c.size
  .ok (bVal, FieldApi.fromU64 0x01000000, FieldApi.fromU64 256 ^ size)

/-- `examples/bitcoin.rs:165-318` `unpack` -/
def CompactBits.unpack (one : Var) (c : CompactBits) : Prog F (List Boolean × Option ℕ) := do
  .enforce (c.mantissaSignBit.lc one .one)
  let targetVal ← c.targetVal
  let target ← c.constrain one (bitOfBytes targetVal) 1 (c.productValues targetVal) c.powerValues
  return (target, targetVal.map bytesValue)

/-- `hex!`: the first byte is the most significant one of the literal -/
def hexBytes (len value : ℕ) : List (BitVec 8) :=
  (List.range len).reverse.map fun i => BitVec.ofNat 8 (value >>> (8 * i))

/-- `examples/bitcoin.rs:321` `GENESIS_HEADER` -/
def genesisHeader : List (BitVec 8) := hexBytes 80 0x0100000000000000000000000000000000000000000000000000000000000000000000003ba3edfd7a7b12b27ac72c3e67768f617fc81bc3888a51323a9fb8aa4b1e5e4a29ab5f49ffff001d1dac2b7c

/-- `examples/bitcoin.rs:322-323` `GENESIS_CHAIN_WORK` -/
def genesisChainWork : List (BitVec 8) :=
  hexBytes 32 0x0000000000000000000000000000000000000000000000000000000100010001

/-- `examples/bitcoin.rs:325-333` `pack_payload_bytes` -/
def packPayloadBytes (height : BitVec 32) (chainWork header : List (BitVec 8)) : List (BitVec 8) :=
  (List.range 4).map (fun i => BitVec.ofNat 8 (height.toNat >>> (8 * i))) ++ chainWork.reverse ++ header

/-- `examples/bitcoin.rs:335-344` `pack_payload_bits` -/
def packPayloadBits (height : BitVec 32) (chainWork header : List (BitVec 8)) : List Bool :=
  ((List.range 4).map (fun i => BitVec.ofNat 8 (height.toNat >>> (8 * i))) ++ chainWork.reverse ++
    header).flatMap fun byte => (List.range 8).map fun i => byte.getLsbD i

/-- `examples/bitcoin.rs:346-360` `unpack_payload_bits` -/
def unpackPayloadBits (one : Var) (payload : List AllocatedBit) :
    Prog F (AllocatedNum F × AllocatedNum F × List Boolean) := do
  let payload := payload.map Boolean.is
  let heightBits ← slice payload 0 (8 * 4)
  let chainWorkBits ← slice payload (8 * 4) (8 * (4 + 32))
  let headerBits ← slice payload (8 * (4 + 32)) (8 * (4 + 32 + 80))
  let height ← bitsToNum one heightBits
  let chainWork ← bitsToNum one chainWorkBits
  return (height, chainWork, headerBits)

/-- `data.chunks(8).map(|c| c.iter().rev()).flatten()` -/
def flipBytes {α : Type} (data : List α) : List α := (Sha256.chunks 8 data).flatMap List.reverse

/-- `examples/bitcoin.rs:362-384` `sha256d` -/
def sha256d (one : Var) (data : List Boolean) : Prog F (List Boolean) := do
  let mid ← Sha256.sha256 one (flipBytes data)
  let res ← Sha256.sha256 one mid
  return flipBytes res

/-- `to_little_endian` and `F::from_bytes` (`examples/bitcoin.rs:462-470`, `493-501`) -/
def fieldOfU256 (n : ℕ) : Except SynthesisError F :=
  match FieldApi.fromBytes (Vector.ofFn fun i : Fin 32 => BitVec.ofNat 8 (n >>> (8 * i.1))) with
  | some fe => .ok fe
  | none => .error .unsatisfiable

/-- `examples/bitcoin.rs:457-471`: `(!target / (target + 1)) + 1`, which is computed when the target is
known, even if no values are asked for -/
def workValue (target : Option ℕ) : Prog F (Except SynthesisError F) :=
  match target with
  | none => return .error .assignmentMissing
  | some target =>
    if 2 ^ 256 ≤ target + 1 then .panic else
    let work := (2 ^ 256 - 1 - target) / (target + 1) + 1
    if 2 ^ 256 ≤ work then .panic else return fieldOfU256 work

/-- `examples/bitcoin.rs:488-502` -/
def remainderValue (target : Option ℕ) : Prog F (Except SynthesisError F) :=
  match target with
  | none => return .error .assignmentMissing
  | some target =>
    if 2 ^ 256 ≤ target + 1 then .panic else
    return fieldOfU256 ((2 ^ 256 - 1 - target) % (target + 1))

/-- Four 64-bit limbs (`examples/bitcoin.rs:449-454`, `480-485`, `515-518`) -/
def limbs (bits : List Boolean) : Prog F (List (UInt 64)) :=
  mapProg (fun i => do orPanic (UInt.fromBits (← slice bits (64 * i) (64 * i + 64)))) (List.range 4)

/-- `examples/bitcoin.rs:530-538`: the inner loop; the state is `w` and the carry -/
def mulInner (one : Var) (targetLimbs workLimbs : List (UInt 64)) (j : ℕ) (s : List (UInt 64) × UInt 64)
    (i : ℕ) : Prog F (List (UInt 64) × UInt 64) := do
  let t ← index targetLimbs i
  let work ← index workLimbs j
  let acc ← index s.1 (i + j)
  let (low, high) ← UInt.mulAcc2 one t work acc s.2
  return (s.1.set (i + j) low, high)

/-- `examples/bitcoin.rs:528-541`: the outer loop -/
def mulOuter (one : Var) (targetLimbs workLimbs : List (UInt 64)) (w : List (UInt 64)) (j : ℕ) :
    Prog F (List (UInt 64)) := do
  let (w, k) ← foldProg (mulInner one targetLimbs workLimbs j) (List.range 4) (w, .constant 0)
  return w.set (j + 4) k

/-- `examples/bitcoin.rs:443-555`: the constraints for the work, for given values of the work and the
remainder -/
def constrainWork (one : Var) (target : List Boolean) (prevChainWork chainWork : AllocatedNum F)
    (work remainder : Except SynthesisError F) : Prog F Unit := do
  let targetLimbs ← limbs (.constant true :: target.drop 1)
  let blockWork ← AllocatedNum.alloc work
  let workBits ← unpackFe one (.ofAllocated blockWork)
  let workLimbs ← limbs (workBits.map Boolean.is)
  let remainder ← AllocatedNum.alloc remainder
  let remainderBits ← unpackFe one (.ofAllocated remainder)
  let remainderLimbs ← limbs (remainderBits.map Boolean.is)
  let w := remainderLimbs ++ [.constant 0, .constant 0, .constant 0, .constant 0]
  let w ← foldProg (mulOuter one targetLimbs workLimbs) (List.range 4) w
  .enforce ((← index w 0).lc one)
  .enforce ((← index w 1).lc one)
  .enforce ((← index w 2).lc one)
  .enforce ((← index w 3).lc one)
  .enforce (((← index w 4).lc one).subVar one)
  .enforce ((← index w 5).lc one)
  .enforce ((← index w 6).lc one)
  .enforce ((← index w 7).lc one)
  .enforce ((chainWork.lc.subLC prevChainWork.lc).subLC blockWork.lc)

/-- `examples/bitcoin.rs:443-555`. The value of the remainder is computed after the constraints for the work
in the code; this makes no difference, since it can only panic if the value of the work does. -/
def checkWork (one : Var) (target : List Boolean) (targetVal : Option ℕ)
    (prevChainWork chainWork : AllocatedNum F) : Prog F Unit := do
  let work ← workValue targetVal
  let remainder ← remainderValue targetVal
  constrainWork one target prevChainWork chainWork work remainder

/-- `examples/bitcoin.rs:390-559` `BitcoinHeaderCircuit` -/
def bitcoin : RecursiveCircuit F where
  basePayload := packPayloadBits 0 genesisChainWork genesisHeader
  synthesize one oldPayload newPayload := do
    let (prevHeight, prevChainWork, prevHeaderBits) ← unpackPayloadBits one oldPayload
    let (height, chainWork, headerBits) ← unpackPayloadBits one newPayload
    .enforce ((height.lc.subLC prevHeight.lc).subVar one)
    let prevHashBits ← sha256d one prevHeaderBits
    enforceEquality one (← slice headerBits 32 (32 + 256)) prevHashBits
    let _ ← sha256d one headerBits
    let (target, targetVal) ← (← CompactBits.fromHeader headerBits).unpack one
    checkWork one target targetVal prevChainWork chainWork

end Example
end Halo
