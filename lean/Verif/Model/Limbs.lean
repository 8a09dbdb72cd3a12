/-!
# Limb arithmetic of `src/util.rs`, `src/fields/fp.rs` and `src/fields/fq.rs`

`u64` is `BitVec 64`, `u128` is `BitVec 128`.  `fp.rs` and `fq.rs` are the same
text up to the type name and the constants, so the functions below take the
constants as an argument `C : Consts`; the two instances are `fpConsts` and
`fqConsts` in `Verif.Model.FieldConsts`.
-/

namespace Halo

/-- Rust `u64`. -/
abbrev U64 := BitVec 64
/-- Rust `u128`. -/
abbrev U128 := BitVec 128

/-- `src/util.rs:456-461` `adc`.  Rust's checked `+` on `u128` is modelled as
wrapping; `adc_no_overflow` proves the sum never wraps. -/
def adc (a b carry : U64) : U64 × U64 :=
  let ret : U128 := a.setWidth 128 + b.setWidth 128 + carry.setWidth 128
  (ret.setWidth 64, (ret >>> 64).setWidth 64)

/-- `src/util.rs:463-468` `sbb`. -/
def sbb (a b borrow : U64) : U64 × U64 :=
  let ret : U128 := a.setWidth 128 - (b.setWidth 128 + (borrow >>> 63).setWidth 128)
  (ret.setWidth 64, (ret >>> 64).setWidth 64)

/-- `src/util.rs:470-475` `mac`.  As for `adc`, the `u128` sum never wraps
(`mac_no_overflow`). -/
def mac (a b c carry : U64) : U64 × U64 :=
  let ret : U128 := a.setWidth 128 + b.setWidth 128 * c.setWidth 128 + carry.setWidth 128
  (ret.setWidth 64, (ret >>> 64).setWidth 64)

/-- `src/fields/fp.rs:11-15` `struct Fp([u64; 4])` (little-endian limbs);
`src/fields/fq.rs:11-15` `struct Fq`.  No invariant is built into the type. -/
structure Limbs where
  l0 : U64
  l1 : U64
  l2 : U64
  l3 : U64
deriving DecidableEq, Repr

/-- Integer denoted by four little-endian limbs. -/
def Limbs.toNat (a : Limbs) : Nat :=
  a.l0.toNat + 2^64 * a.l1.toNat + 2^128 * a.l2.toNat + 2^192 * a.l3.toNat

/-- The constants in which `fp.rs` and `fq.rs` differ
(`src/fields/fp.rs:70-168, 403-418, 453-458, 498-503`). -/
structure Consts where
  modulus : Limbs
  inv : U64
  r : Limbs
  r2 : Limbs
  r3 : Limbs
  rootOfUnity : Limbs
  /-- exponent `(t-1)/2` used by `sqrt` -/
  sqrtExp : Limbs
  /-- exponent `p-2` used by `invert` -/
  invertExp : Limbs
  rescueInvAlpha : Limbs
  /-- argument of `from_raw` in `const BETA` -/
  betaRaw : Limbs

namespace Fe

variable (C : Consts)

/-- `src/fields/fp.rs:179-183` `zero`. -/
def zero : Limbs := ⟨0, 0, 0, 0⟩

/-- `src/fields/fp.rs:185-189` `one`. -/
def one : Limbs := C.r

/-- `src/fields/fp.rs:346-362` `sub`. -/
def sub (self rhs : Limbs) : Limbs :=
  let (d0, borrow) := sbb self.l0 rhs.l0 0
  let (d1, borrow) := sbb self.l1 rhs.l1 borrow
  let (d2, borrow) := sbb self.l2 rhs.l2 borrow
  let (d3, borrow) := sbb self.l3 rhs.l3 borrow
  let (d0, carry) := adc d0 (C.modulus.l0 &&& borrow) 0
  let (d1, carry) := adc d1 (C.modulus.l1 &&& borrow) carry
  let (d2, carry) := adc d2 (C.modulus.l2 &&& borrow) carry
  let (d3, _) := adc d3 (C.modulus.l3 &&& borrow) carry
  ⟨d0, d1, d2, d3⟩

/-- `src/fields/fp.rs:364-375` `add`. -/
def add (self rhs : Limbs) : Limbs :=
  let (d0, carry) := adc self.l0 rhs.l0 0
  let (d1, carry) := adc self.l1 rhs.l1 carry
  let (d2, carry) := adc self.l2 rhs.l2 carry
  let (d3, _) := adc self.l3 rhs.l3 carry
  sub C ⟨d0, d1, d2, d3⟩ C.modulus

/-- `src/fields/fp.rs:192-197` `double`. -/
def double (self : Limbs) : Limbs := add C self self

/-- `src/fields/fp.rs:377-393` `neg`. -/
def neg (self : Limbs) : Limbs :=
  let (d0, borrow) := sbb C.modulus.l0 self.l0 0
  let (d1, borrow) := sbb C.modulus.l1 self.l1 borrow
  let (d2, borrow) := sbb C.modulus.l2 self.l2 borrow
  let (d3, _) := sbb C.modulus.l3 self.l3 borrow
  let mask : U64 :=
    (if (self.l0 ||| self.l1 ||| self.l2 ||| self.l3) = 0 then (1 : U64) else 0) - 1
  ⟨d0 &&& mask, d1 &&& mask, d2 &&& mask, d3 &&& mask⟩

/-- `src/fields/fp.rs:271-316` `montgomery_reduce`. -/
def montgomeryReduce (r0 r1 r2 r3 r4 r5 r6 r7 : U64) : Limbs :=
  let k := r0 * C.inv
  let (_, carry) := mac r0 k C.modulus.l0 0
  let (r1, carry) := mac r1 k C.modulus.l1 carry
  let (r2, carry) := mac r2 k C.modulus.l2 carry
  let (r3, carry) := mac r3 k C.modulus.l3 carry
  let (r4, carry2) := adc r4 0 carry
  let k := r1 * C.inv
  let (_, carry) := mac r1 k C.modulus.l0 0
  let (r2, carry) := mac r2 k C.modulus.l1 carry
  let (r3, carry) := mac r3 k C.modulus.l2 carry
  let (r4, carry) := mac r4 k C.modulus.l3 carry
  let (r5, carry2) := adc r5 carry2 carry
  let k := r2 * C.inv
  let (_, carry) := mac r2 k C.modulus.l0 0
  let (r3, carry) := mac r3 k C.modulus.l1 carry
  let (r4, carry) := mac r4 k C.modulus.l2 carry
  let (r5, carry) := mac r5 k C.modulus.l3 carry
  let (r6, carry2) := adc r6 carry2 carry
  let k := r3 * C.inv
  let (_, carry) := mac r3 k C.modulus.l0 0
  let (r4, carry) := mac r4 k C.modulus.l1 carry
  let (r5, carry) := mac r5 k C.modulus.l2 carry
  let (r6, carry) := mac r6 k C.modulus.l3 carry
  let (r7, _) := adc r7 carry2 carry
  sub C ⟨r4, r5, r6, r7⟩ C.modulus

/-- `src/fields/fp.rs:318-344` `mul`. -/
def mul (self rhs : Limbs) : Limbs :=
  let (r0, carry) := mac 0 self.l0 rhs.l0 0
  let (r1, carry) := mac 0 self.l0 rhs.l1 carry
  let (r2, carry) := mac 0 self.l0 rhs.l2 carry
  let (r3, r4) := mac 0 self.l0 rhs.l3 carry
  let (r1, carry) := mac r1 self.l1 rhs.l0 0
  let (r2, carry) := mac r2 self.l1 rhs.l1 carry
  let (r3, carry) := mac r3 self.l1 rhs.l2 carry
  let (r4, r5) := mac r4 self.l1 rhs.l3 carry
  let (r2, carry) := mac r2 self.l2 rhs.l0 0
  let (r3, carry) := mac r3 self.l2 rhs.l1 carry
  let (r4, carry) := mac r4 self.l2 rhs.l2 carry
  let (r5, r6) := mac r5 self.l2 rhs.l3 carry
  let (r3, carry) := mac r3 self.l3 rhs.l0 0
  let (r4, carry) := mac r4 self.l3 rhs.l1 carry
  let (r5, carry) := mac r5 self.l3 rhs.l2 carry
  let (r6, r7) := mac r6 self.l3 rhs.l3 carry
  montgomeryReduce C r0 r1 r2 r3 r4 r5 r6 r7

/-- `src/fields/fp.rs:239-269` `square`. -/
def square (self : Limbs) : Limbs :=
  let (r1, carry) := mac 0 self.l0 self.l1 0
  let (r2, carry) := mac 0 self.l0 self.l2 carry
  let (r3, r4) := mac 0 self.l0 self.l3 carry
  let (r3, carry) := mac r3 self.l1 self.l2 0
  let (r4, r5) := mac r4 self.l1 self.l3 carry
  let (r5, r6) := mac r5 self.l2 self.l3 0
  let r7 := r6 >>> 63
  let r6 := (r6 <<< 1) ||| (r5 >>> 63)
  let r5 := (r5 <<< 1) ||| (r4 >>> 63)
  let r4 := (r4 <<< 1) ||| (r3 >>> 63)
  let r3 := (r3 <<< 1) ||| (r2 >>> 63)
  let r2 := (r2 <<< 1) ||| (r1 >>> 63)
  let r1 := r1 <<< 1
  let (r0, carry) := mac 0 self.l0 self.l0 0
  let (r1, carry) := adc 0 r1 carry
  let (r2, carry) := mac r2 self.l1 self.l1 carry
  let (r3, carry) := adc 0 r3 carry
  let (r4, carry) := mac r4 self.l2 self.l2 carry
  let (r5, carry) := adc 0 r5 carry
  let (r6, carry) := mac r6 self.l3 self.l3 carry
  let (r7, _) := adc 0 r7 carry
  montgomeryReduce C r0 r1 r2 r3 r4 r5 r6 r7

/-- `src/fields/fp.rs:233-237` `from_raw`. -/
def fromRaw (val : Limbs) : Limbs := mul C val C.r2

/-- `src/fields/fp.rs:37-41` `From<u64>`. -/
def ofU64Into (val : U64) : Limbs := mul C ⟨val, 0, 0, 0⟩ C.r2

/-- `src/fields/fp.rs:28-36` `From<bool>`. -/
def ofBool (bit : Bool) : Limbs := if bit then one C else zero

/-- `src/fields/fp.rs:433-435` `from_u64`. -/
def fromU64 (v : U64) : Limbs := fromRaw C ⟨v, 0, 0, 0⟩

/-- `src/fields/fp.rs:437-439` `from_u128`. -/
def fromU128 (v : U128) : Limbs := fromRaw C ⟨v.setWidth 64, (v >>> 64).setWidth 64, 0, 0⟩

/-- `src/fields/fp.rs:213-231` `from_u512`. -/
def fromU512 (d0 d1 : Limbs) : Limbs := add C (mul C d0 C.r2) (mul C d1 C.r3)

/-- `src/fields/fp.rs:43-50` `ct_eq` (and `PartialEq`, 52-57): limb-wise. -/
def ctEq (a b : Limbs) : Bool :=
  a.l0 == b.l0 && a.l1 == b.l1 && a.l2 == b.l2 && a.l3 == b.l3

/-- `src/fields/fp.rs:59-68` `conditional_select(a, b, choice)`: `b` if `choice`. -/
def conditionalSelect (a b : Limbs) (choice : Bool) : Limbs := if choice then b else a

/-- `src/fields/fp.rs:420-422` `is_zero`. -/
def isZero (a : Limbs) : Bool := ctEq a zero

/-- A byte. -/
abbrev U8 := BitVec 8

/-- `byteorder::LittleEndian::read_u64` on eight bytes. -/
def readU64 (b0 b1 b2 b3 b4 b5 b6 b7 : U8) : U64 :=
  b7 ++ b6 ++ b5 ++ b4 ++ b3 ++ b2 ++ b1 ++ b0

/-- The `i`-th byte written by `byteorder::LittleEndian::write_u64`. -/
def writeU64 (w : U64) (i : Nat) : U8 := (w >>> (8 * i)).setWidth 8

/-- Bytes `8*i .. 8*i+8` of a byte array read as a little-endian word. -/
def readWord {n : Nat} (bytes : Vector U8 n) (i : Nat) (h : 8 * i + 7 < n) : U64 :=
  readU64 (bytes[8*i]) (bytes[8*i+1]) (bytes[8*i+2]) (bytes[8*i+3])
    (bytes[8*i+4]) (bytes[8*i+5]) (bytes[8*i+6]) (bytes[8*i+7])

/-- `src/fields/fp.rs:199-212` `from_bytes_wide`. -/
def fromBytesWide (bytes : Vector U8 64) : Limbs :=
  fromU512 C
    ⟨readWord bytes 0 (by omega), readWord bytes 1 (by omega),
     readWord bytes 2 (by omega), readWord bytes 3 (by omega)⟩
    ⟨readWord bytes 4 (by omega), readWord bytes 5 (by omega),
     readWord bytes 6 (by omega), readWord bytes 7 (by omega)⟩

/-- `src/fields/fp.rs:508-534` `from_bytes`; `CtOption` is `Option`. -/
def fromBytes (bytes : Vector U8 32) : Option Limbs :=
  let tmp : Limbs :=
    ⟨readWord bytes 0 (by omega), readWord bytes 1 (by omega),
     readWord bytes 2 (by omega), readWord bytes 3 (by omega)⟩
  let (_, borrow) := sbb tmp.l0 C.modulus.l0 0
  let (_, borrow) := sbb tmp.l1 C.modulus.l1 borrow
  let (_, borrow) := sbb tmp.l2 C.modulus.l2 borrow
  let (_, borrow) := sbb tmp.l3 C.modulus.l3 borrow
  let isSome : U8 := borrow.setWidth 8 &&& 1
  let tmp := mul C tmp C.r2
  if isSome = 1 then some tmp else none

/-- Montgomery to canonical limbs, used by `to_bytes` and `get_lower_128`
(`src/fields/fp.rs:541` and `:553`). -/
def toCanonical (self : Limbs) : Limbs :=
  montgomeryReduce C self.l0 self.l1 self.l2 self.l3 0 0 0 0

/-- `src/fields/fp.rs:536-550` `to_bytes`. -/
def toBytes (self : Limbs) : Vector U8 32 :=
  let tmp := toCanonical C self
  Vector.ofFn fun i : Fin 32 =>
    if i.val < 8 then writeU64 tmp.l0 i.val
    else if i.val < 16 then writeU64 tmp.l1 (i.val - 8)
    else if i.val < 24 then writeU64 tmp.l2 (i.val - 16)
    else writeU64 tmp.l3 (i.val - 24)

/-- `src/fields/fp.rs:552-556` `get_lower_128`. -/
def getLower128 (self : Limbs) : U128 :=
  let tmp := toCanonical C self
  tmp.l0.setWidth 128 ||| (tmp.l1.setWidth 128 <<< 64)

/-- The bits of a 256-bit exponent in the order the loops of
`src/fields/mod.rs:72-81` and `:90-100` visit them: limbs from the last to the
first, bits 63 down to 0. -/
def expBits (by' : Limbs) : List Bool :=
  [by'.l3, by'.l2, by'.l1, by'.l0].flatMap fun e =>
    (List.range 64).reverse.map fun i => ((e >>> i) &&& 1) == 1

/-- `src/fields/mod.rs:70-82` `Field::pow`. -/
def pow (self by' : Limbs) : Limbs :=
  (expBits by').foldl (fun res bit =>
    let res := square C res
    let tmp := mul C res self
    conditionalSelect res tmp bit) (one C)

/-- `src/fields/mod.rs:84-101` `Field::pow_vartime`. -/
def powVartime (self by' : Limbs) : Limbs :=
  (expBits by').foldl (fun res bit =>
    let res := square C res
    if bit then mul C res self else res) (one C)

/-- `src/fields/fp.rs:494-506` `invert`. -/
def invert (self : Limbs) : Option Limbs :=
  let tmp := powVartime C self C.invertExp
  if !ctEq self zero then some tmp else none

/-- State of the `sqrt` loop. -/
structure SqrtState where
  v : Nat
  x : Limbs
  b : Limbs
  z : Limbs

/-- Inner loop state of `sqrt`. -/
structure SqrtInner where
  k : Nat
  tmp : Limbs
  jLessThanV : Bool
  z : Limbs

/-- Body of the inner loop, `src/fields/fp.rs:472-480`. -/
def sqrtInnerStep (v : Nat) (s : SqrtInner) (j : Nat) : SqrtInner :=
  let tmpIsOne := ctEq s.tmp (one C)
  let squared := square C (conditionalSelect s.tmp s.z tmpIsOne)
  let tmp := conditionalSelect squared s.tmp tmpIsOne
  let newZ := conditionalSelect s.z squared tmpIsOne
  let jLessThanV := s.jLessThanV && !(j == v)
  let k := if tmpIsOne then s.k else j
  let z := conditionalSelect s.z newZ jLessThanV
  ⟨k, tmp, jLessThanV, z⟩

/-- Body of the outer loop, `src/fields/fp.rs:467-487`. -/
def sqrtStep (s : SqrtState) (maxV : Nat) : SqrtState :=
  let inner := (List.range' 2 (maxV - 2)).foldl (sqrtInnerStep C s.v)
    ⟨1, square C s.b, true, s.z⟩
  let result := mul C s.x inner.z
  let x := conditionalSelect result s.x (ctEq s.b (one C))
  let z := square C inner.z
  let b := mul C s.b z
  ⟨inner.k, x, b, z⟩

/-- `src/fields/fp.rs:447-492` `sqrt` (the loop variables `S`, `max_v`, `k`, `v`
are `u32` between 0 and 32 in Rust and `Nat` here). -/
def sqrt (self : Limbs) : Option Limbs :=
  let w := powVartime C self C.sqrtExp
  let x := mul C self w
  let b := mul C x w
  let fin := (List.range' 1 32).reverse.foldl (sqrtStep C) ⟨32, x, b, C.rootOfUnity⟩
  if ctEq (mul C fin.x fin.x) self then some fin.x else none

/-- First loop of `batch_invert`, `src/fields/mod.rs:113-117`: the running
products `tmp` (in push order) and the final accumulator. -/
def batchForward : List Limbs → Limbs → List Limbs × Limbs
  | [], acc => ([], acc)
  | p :: v, acc =>
    let r := batchForward v (conditionalSelect (mul C acc p) acc (isZero p))
    (acc :: r.1, r.2)

/-- Second loop of `batch_invert`, `src/fields/mod.rs:122-128`; the lists are
already reversed, the result is in reversed order. -/
def batchBackward : List (Limbs × Limbs) → Limbs → List Limbs
  | [], _ => []
  | (p, tmp) :: rest, acc =>
    let skip := isZero p
    let tmp := mul C tmp acc
    let acc' := conditionalSelect (mul C acc p) acc skip
    conditionalSelect tmp p skip :: batchBackward rest acc'

/-- `src/fields/mod.rs:107-131` `batch_invert`: the new slice contents and the
returned product, or `none` for the panic of `acc.invert().unwrap()`. -/
def batchInvert (v : List Limbs) : Option (List Limbs × Limbs) :=
  let fwd := batchForward C v (one C)
  match invert C fwd.2 with
  | none => none
  | some acc => some ((batchBackward C (v.reverse.zip fwd.1.reverse) acc).reverse, acc)

/-- `src/fields/fp.rs:414-418` `BETA`. -/
def beta : Limbs := fromRaw C C.betaRaw

end Fe
end Halo
