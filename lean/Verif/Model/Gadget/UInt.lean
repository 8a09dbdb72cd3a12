import Verif.Model.Gadget.Num
/-!
# Unsigned integer gadgets (`src/gadgets/uint32.rs`, `src/gadgets/uint64.rs`)

`UInt32` and `UInt64` have the same definitions for `constant`, `alloc`, `into_bits` and
`from_bits`; they are modelled once, for words of `k` bits.
-/
namespace Halo
namespace Circuit
variable {F : Type} [Field F]

/-- A call that may panic -/
def orPanic {α : Type} : Option α → Prog F α
  | some a => return a
  | none => .panic

/-- `src/gadgets/uint32.rs:7-12` `UInt32`, `src/gadgets/uint64.rs:4-11` `UInt64`; least significant
bit first. -/
structure UInt (k : ℕ) where
  bits : List Boolean
  value : Option (BitVec k)

/-- `for _ in 0..n { push(tmp & 1 == 1); tmp >>= 1 }` -/
def shiftBits {k : ℕ} : ℕ → BitVec k → List Bool
  | 0, _ => []
  | n + 1, tmp => (tmp &&& 1#k == 1#k) :: shiftBits n (tmp >>> 1)

namespace UInt
variable {k : ℕ}

/-- `src/gadgets/uint32.rs:14-34`, `src/gadgets/uint64.rs:14-33` `constant` -/
def constant (value : BitVec k) : UInt k :=
  ⟨(shiftBits k value).map fun b => if b then .constant true else .constant false, some value⟩

/-- `src/gadgets/uint32.rs:36-68`, `src/gadgets/uint64.rs:35-67` `alloc` -/
def alloc (value : Option (BitVec k)) : Prog F (UInt k) := do
  let values : List (Option Bool) := match value with
    | some val => (shiftBits k val).map some
    | none => List.replicate k none
  let bits ← mapProg (fun v => do return Boolean.is (← AllocatedBit.alloc (orMissing v))) values
  return ⟨bits, value⟩

/-- `src/gadgets/uint32.rs:70-74` `into_bits_be` -/
def intoBitsBe (u : UInt k) : List Boolean := u.bits.reverse

/-- Shift in the values of bits, most significant first; `None` when one is unknown
(`src/gadgets/uint32.rs:79-92`). -/
def shiftIn (bits : List Boolean) : Option (BitVec k) :=
  bits.foldl (fun value b =>
    let value := value.map fun v : BitVec k => v <<< 1
    match b.getValue with
    | some true => value.map (· ||| 1#k)
    | some false => value
    | none => none) (some 0#k)

/-- `src/gadgets/uint32.rs:76-98` `from_bits_be`; `none` when the assertion fails. -/
def fromBitsBe (bits : List Boolean) : Option (UInt k) :=
  if bits.length = k then some ⟨bits.reverse, shiftIn bits⟩ else none

/-- `src/gadgets/uint32.rs:100-103`, `src/gadgets/uint64.rs:69-72` `into_bits` -/
def intoBits (u : UInt k) : List Boolean := u.bits

/-- `src/gadgets/uint32.rs:105-143`, `src/gadgets/uint64.rs:74-112` `from_bits`; the three cases of
the match are those of `get_value`. -/
def fromBits (bits : List Boolean) : Option (UInt k) :=
  if bits.length = k then some ⟨bits, shiftIn bits.reverse⟩ else none

/-- `src/gadgets/uint32.rs:145-161` `rotr` -/
def rotr (by_ : ℕ) (u : UInt 32) : UInt 32 :=
  let by_ := by_ % 32
  ⟨((u.bits.drop by_) ++ u.bits).take 32, u.value.map (·.rotateRight by_)⟩

/-- `src/gadgets/uint32.rs:163-181` `shr`; of the endless supply of fill bits at most 32 are used. -/
def shr (by_ : ℕ) (u : UInt 32) : UInt 32 :=
  let by_ := by_ % 32
  ⟨((u.bits.drop by_) ++ List.replicate 32 (Boolean.constant false)).take 32, u.value.map fun v : BitVec 32 => v >>> by_⟩

/-- `src/gadgets/uint32.rs:183-215` `triop` -/
def triop (triFn : BitVec 32 → BitVec 32 → BitVec 32 → BitVec 32)
    (circuitFn : Boolean → Boolean → Boolean → Prog F Boolean) (a b c : UInt 32) :
    Prog F (UInt 32) := do
  let newValue := match a.value, b.value, c.value with
    | some a, some b, some c => some (triFn a b c)
    | _, _, _ => none
  let bits ← mapProg (fun t => circuitFn t.1.1 t.1.2 t.2) ((a.bits.zip b.bits).zip c.bits)
  return ⟨bits, newValue⟩

/-- `src/gadgets/uint32.rs:217-232` `sha256_maj` -/
def sha256Maj (one : Var) (a b c : UInt 32) : Prog F (UInt 32) :=
  triop (fun a b c => ((a &&& b) ^^^ (a &&& c)) ^^^ (b &&& c)) (Boolean.sha256Maj one) a b c

/-- `src/gadgets/uint32.rs:234-249` `sha256_ch` -/
def sha256Ch (one : Var) (a b c : UInt 32) : Prog F (UInt 32) :=
  triop (fun a b c => (a &&& b) ^^^ (~~~a &&& c)) (Boolean.sha256Ch one) a b c

/-- `src/gadgets/uint32.rs:251-274` `xor` -/
def xor (a b : UInt 32) : Prog F (UInt 32) := do
  let newValue := match a.value, b.value with
    | some a, some b => some (a ^^^ b)
    | _, _ => none
  let bits ← mapProg (fun t => Boolean.xor t.1 t.2) (a.bits.zip b.bits)
  return ⟨bits, newValue⟩

/-- The bits of a word as a linear combination with doubling coefficients
(`src/gadgets/uint32.rs:317-324`, `src/gadgets/uint64.rs:114-126`), added to `lc`. -/
def addBits (one : Var) (lc : LC F) (bits : List Boolean) : LC F :=
  (bits.foldl (fun (acc : LC F × Coeff F) bit =>
    (acc.1.addLC (bit.lc one acc.2), acc.2.double)) (lc, .one)).1

/-- `src/gadgets/uint32.rs:345-363`: allocate the bits of the sum. -/
def addmanyLoop (resultValue : Option ℕ) (maxValue i : ℕ) (coeff : Coeff F) (bits : List Boolean)
    (lc : LC F) : Prog F (List Boolean × LC F) :=
  if h : maxValue = 0 then return (bits, lc) else
    (AllocatedBit.alloc (orMissing (resultValue.map fun v => (v >>> i) &&& 1 == 1))).bind fun b =>
      addmanyLoop resultValue (maxValue >>> 1) (i + 1) coeff.double (bits ++ [.is b])
        (lc.add coeff b.var)
termination_by maxValue
decreasing_by rw [Nat.shiftRight_one]; omega

/-- `src/gadgets/uint32.rs:303-313`: add the value of an operand. -/
def addValue (acc : Option ℕ) (op : UInt 32) : Option ℕ :=
  match op.value with
  | some val => acc.map (· + val.toNat)
  | none => none

/-- `src/gadgets/uint32.rs:276-375` `addmany`.  The assertion `F::NUM_BITS >= 64` holds for both
fields.  The `u64` values do not overflow, since there are at most ten operands; they are natural
numbers here. -/
def addmany (one : Var) (operands : List (UInt 32)) : Prog F (UInt 32) :=
  if operands.length < 2 ∨ 10 < operands.length then .panic else do
    let maxValue := operands.length * (2 ^ 32 - 1)
    let resultValue := operands.foldl addValue (some 0)
    let lc : LC F := operands.foldl (fun lc op => addBits one lc op.bits) LC.zero
    let allConstants := operands.all fun op => op.bits.all Boolean.isConstant
    let modularValue := resultValue.map fun v => BitVec.ofNat 32 v
    match allConstants, modularValue with
    | true, some v => return constant v
    | _, _ =>
      let (resultBits, resultLc) ← addmanyLoop resultValue maxValue 0 .one [] LC.zero
      .enforce (lc.subLC resultLc)
      return ⟨resultBits.take 32, modularValue⟩

/-- `src/gadgets/uint64.rs:114-126` `lc` -/
def lc (one : Var) (u : UInt 64) : LC F := addBits one LC.zero u.bits

/-- The bytes of `2^64` (`src/gadgets/uint64.rs:208-211`) -/
def twoPow64Bytes : Vector (BitVec 8) 32 := Vector.ofFn fun i => if i.1 = 8 then 1 else 0

/-- `src/gadgets/uint64.rs:128-225` `mul_acc2` -/
def mulAcc2 [FieldApi F] (one : Var) (a b addend1 addend2 : UInt 64) :
    Prog F (UInt 64 × UInt 64) := do
  let product : Option (BitVec 128) :=
    both (fun a b => a.setWidth 128 * b.setWidth 128) a.value b.value
  let resultValue : Option (BitVec 128) := product.bind fun p =>
    both (fun c1 c2 => p + c1.setWidth 128 + c2.setWidth 128) addend1.value addend2.value
  let values : List (Option Bool) := match resultValue with
    | some val => (shiftBits 128 val).map some
    | none => List.replicate 128 none
  let resultBits ←
    mapProg (fun v => do return Boolean.is (← AllocatedBit.alloc (orMissing v))) values
  let resLow : UInt 64 ← orPanic (fromBits (resultBits.take 64))
  let resHigh : UInt 64 ← orPanic (fromBits ((resultBits.take 128).drop 64))
  let (l, r, o, _) ← .doMultiply (do
    let l : F ← orMissing (a.value.map FieldApi.fromU64)
    let r : F ← orMissing (b.value.map FieldApi.fromU64)
    let o : F ← orMissing (product.map FieldApi.fromU128)
    .ok (l, r, o))
  let highCoeff ← orPanic (FieldApi.fromBytes twoPow64Bytes)
  .enforce ((a.lc one).subVar l)
  .enforce ((b.lc one).subVar r)
  .enforce (((((resLow.lc one).addScaled (.full highCoeff) (resHigh.lc one)).subVar o).subLC
    (addend1.lc one)).subLC (addend2.lc one))
  return (resLow, resHigh)

end UInt
end Circuit
end Halo
