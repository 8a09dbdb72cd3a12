import Verif.Spec.FieldApi
/-!
# The curves of `src/curves/ec0.rs` and `src/curves/ec1.rs`

The two files are the same text up to the base field and the constants `B`, `3B` and the
generator, collected in `CurveConsts`.  Points are projective triples over the base field `F`.
A Rust panic (`unwrap` on `None`) is an outer `none`.
-/
namespace Halo

/-- `src/curves/ec0.rs:5-10` `struct Ec0 { x, y, z }`. -/
structure Proj (F : Type) where
  x : F
  y : F
  z : F
deriving DecidableEq

/-- Constants in which `ec0.rs` and `ec1.rs` differ: `B` (`:197`), the factor of `mul_by_3b`
(`:200-203`), and the `y` coordinate of `one()` (`:61-73`). -/
structure CurveConsts where
  b : ℕ
  threeB : ℕ
  gy : ℕ

/-- `src/curves/ec0.rs` (base field `Fq`). -/
def ec0 : CurveConsts :=
  ⟨5, 15, 0x0cd539c198b2acdf622572e64860fa80f027d2b37cab63258470e2773a41d265⟩
/-- `src/curves/ec1.rs` (base field `Fp`). -/
def ec1 : CurveConsts :=
  ⟨7, 21, 0x05e808425ee1f35fbecc40aa0beec5c0f33aba0091f5fdeb793f9e8949e6de0d⟩

namespace Proj
variable {F : Type} [Field F] [DecidableEq F] (E : CurveConsts)

/-- `src/curves/ec0.rs:55-60` `zero`. -/
def zero : Proj F := ⟨0, 1, 0⟩

/-- `src/curves/ec0.rs:62-73` `one`; `from_raw` is the cast (C03). -/
def one : Proj F := ⟨1, (E.gy : F), 1⟩

/-- `src/curves/ec0.rs:75-77` `is_zero`. -/
def isZero (p : Proj F) : Bool := p.z == 0

/-- `src/curves/ec0.rs:12-25` `ct_eq` (and `PartialEq`, 27-32).  As in the source, `z2` is computed
from `self`, not from `other`. -/
def ctEq (self other : Proj F) : Bool :=
  let x1 := self.x * other.z
  let x2 := other.x * self.z
  let y1 := self.y * other.z
  let y2 := other.y * self.z
  let z1 := self.isZero
  let z2 := self.isZero
  (z1 && z2) || (!z1 && !z2 && x1 == x2 && y1 == y2)

/-- `src/curves/ec0.rs:34-42` `conditional_select(a, b, choice)`. -/
def conditionalSelect (a b : Proj F) (choice : Bool) : Proj F :=
  ⟨if choice then b.x else a.x, if choice then b.y else a.y, if choice then b.z else a.z⟩

/-- `src/curves/ec0.rs:199-203` `mul_by_3b`. -/
def mulBy3b (a : F) : F := a * (E.threeB : F)

/-- `src/curves/ec0.rs:158-185` `double`. -/
def double (self : Proj F) : Proj F :=
  let t0 := self.y * self.y
  let z3 := t0 + t0
  let z3 := z3 + z3
  let z3 := z3 + z3
  let t1 := self.y * self.z
  let t2 := self.z * self.z
  let t2 := mulBy3b E t2
  let x3 := t2 * z3
  let y3 := t0 + t2
  let z3 := t1 * z3
  let t1 := t2 + t2
  let t2 := t1 + t2
  let t0 := t0 - t2
  let y3 := t0 * y3
  let y3 := x3 + y3
  let t1 := self.x * self.y
  let x3 := t0 * t1
  let x3 := x3 + x3
  ⟨x3, y3, z3⟩

/-- `src/curves/ec0.rs:241-290` `Add`. -/
def add (self rhs : Proj F) : Proj F :=
  let t0 := self.x * rhs.x
  let t1 := self.y * rhs.y
  let t2 := self.z * rhs.z
  let t3 := self.x + self.y
  let t4 := rhs.x + rhs.y
  let t3 := t3 * t4
  let t4 := t0 + t1
  let t3 := t3 - t4
  let t4 := self.x + self.z
  let t5 := rhs.x + rhs.z
  let t4 := t4 * t5
  let t5 := t0 + t2
  let t4 := t4 - t5
  let t5 := self.y + self.z
  let x3 := rhs.y + rhs.z
  let t5 := t5 * x3
  let x3 := t1 + t2
  let t5 := t5 - x3
  let x3 := mulBy3b E t2
  let z3 := x3
  let x3 := t1 - z3
  let z3 := t1 + z3
  let y3 := x3 * z3
  let t1 := t0 + t0
  let t1 := t1 + t0
  let t4 := mulBy3b E t4
  let t0 := t1 * t4
  let y3 := y3 + t0
  let t0 := t5 * t4
  let x3 := t3 * x3
  let x3 := x3 - t0
  let t0 := t3 * t1
  let z3 := t5 * z3
  let z3 := z3 + t0
  ⟨x3, y3, z3⟩

/-- `src/curves/ec0.rs:205-221` `Neg`. -/
def neg (self : Proj F) : Proj F :=
  if self.isZero then self else ⟨self.x, -self.y, self.z⟩

/-- `src/curves/ec0.rs:232-239` `Sub`. -/
def sub (self rhs : Proj F) : Proj F := add E self (neg rhs)

/-- The bits visited by the loop of `Mul` (`src/curves/ec0.rs:305-311`): bytes of the
little-endian encoding from last to first, bits 7 down to 0, without the first bit. -/
def scalarBits (bytes : Vector (BitVec 8) 32) : List Bool :=
  (bytes.toList.reverse.flatMap fun byte =>
    [7, 6, 5, 4, 3, 2, 1, 0].map fun i => ((byte >>> i) &&& 1#8) == 1#8).drop 1

/-- `src/curves/ec0.rs:292-318` `Mul<Fp>`; `S` is the scalar field. -/
def mul {S : Type} [FieldApi S] (self : Proj F) (rhs : S) : Proj F :=
  (scalarBits (FieldApi.toBytes rhs)).foldl (fun acc bit =>
    let acc := double E acc
    conditionalSelect acc (add E acc self) bit) zero

variable [FieldApi F]

/-- `src/curves/ec0.rs:120-128` `get_xy`. -/
def getXy (self : Proj F) : Option (F × F) :=
  (FieldApi.invert self.z).bind fun zinv =>
    let x := self.x * zinv
    let y := self.y * zinv
    some (x, y)

/-- `src/curves/ec0.rs:187-194` `is_on_curve`; `none` is the panic of `get_xy().unwrap()`. -/
def isOnCurve (self : Proj F) : Option Bool :=
  if self.isZero then some true
  else (getXy self).map fun xy => xy.1 * xy.1 * xy.1 + (E.b : F) == xy.2 * xy.2

/-- `src/curves/ec0.rs:133-148` `from_xy`; the outer option is the panic of `is_on_curve`. -/
def fromXy (x y : F) : Option (Option (Proj F)) :=
  let tmp : Proj F := ⟨x, y, 1⟩
  (isOnCurve E tmp).map fun on =>
    if on then some tmp
    else if x == 0 && y == 0 then some zero
    else none

/-- `src/curves/ec0.rs:150-156` `from_xy_unchecked`. -/
def fromXyUnchecked (x y : F) : Proj F := ⟨x, y, 1⟩

/-- `src/curves/ec0.rs:79-105` `from_bytes`.  `CtOption::or_else` (`src/util.rs`,
`CtOptionExt1`) returns the first option if it is `Some`. -/
def fromBytes (bytes : Vector (BitVec 8) 32) : Option (Proj F) :=
  let tmp := bytes
  let ysign : Bool := (tmp[31] >>> 7) == 1#8
  let tmp := tmp.set 31 (tmp[31] &&& 0b01111111#8)
  (FieldApi.fromBytes tmp).bind fun x : F =>
    if x == 0 && !ysign then some zero
    else
      let x3 := x * x * x
      (FieldApi.sqrt (x3 + (E.b : F))).bind fun y =>
        let sign : Bool := ((FieldApi.toBytes y)[0] &&& 1#8) == 1#8
        let y := if xor ysign sign then -y else y
        some ⟨x, y, 1⟩

/-- `src/curves/ec0.rs:106-117` `to_bytes`; `none` is the panic of `get_xy().unwrap()`. -/
def toBytes (self : Proj F) : Option (Vector (BitVec 8) 32) :=
  if self.isZero then some (Vector.replicate 32 0#8)
  else (getXy self).map fun xy =>
    let sign : BitVec 8 := ((FieldApi.toBytes xy.2)[0] &&& 1#8) <<< 7
    let xbytes := FieldApi.toBytes xy.1
    xbytes.set 31 (xbytes[31] ||| sign)

end Proj
end Halo
