import Verif.Model.Limbs
import Verif.Model.Curve
import Verif.Model.Count
/-!
# Printed field elements, points and counts

Texts are lists of characters.  The formatting flags of the caller are taken to be the defaults
(`{:?}` and `{}`).
-/
namespace Halo
open Fe

/-- `core::fmt`, `{:02x}` of a byte: two lower-case digits -/
def byteHex (b : U8) : List Char := [(b.toNat / 16).digitChar, (b.toNat % 16).digitChar]

/-- `src/fields/fp.rs:17-26` (and `src/fields/fq.rs:17-26`) `Debug`, from the bytes of `to_bytes`. -/
def debugBytes (tmp : Vector U8 32) : List Char :=
  "0x".toList ++ tmp.toList.reverse.flatMap byteHex

/-- `src/fields/fp.rs:17-26` `Debug`, on limbs -/
def debugLimbs (C : Consts) (self : Limbs) : List Char := debugBytes (toBytes C self)

/-- `src/fields/fp.rs:17-26` `Debug`, for the layers above -/
def debugField {F : Type} [FieldApi F] (self : F) : List Char := debugBytes (FieldApi.toBytes self)

/-- `src/curves/ec0.rs:5-10`, `src/curves/ec1.rs:5-10`: `#[derive(Debug)]` of a struct with fields
`x`, `y`, `z`; `name` is `Ec0` or `Ec1`. -/
def debugPoint {F : Type} [FieldApi F] (name : List Char) (self : Proj F) : List Char :=
  name ++ " { x: ".toList ++ debugField self.x ++ ", y: ".toList ++ debugField self.y ++
    ", z: ".toList ++ debugField self.z ++ " }".toList

namespace Circuit

/-- `src/dev.rs:592-600` `Display` for `ConstraintCounts`; `{}` of a number is its decimal digits. -/
def Counts.display (self : Counts) : List Char :=
  "(".toList ++ Nat.toDigits 10 self.allocations ++ "A ".toList ++ Nat.toDigits 10 self.multConstraints ++
    "M ".toList ++ Nat.toDigits 10 self.totalMults ++ "C ".toList ++ Nat.toDigits 10 self.totalLcs ++ "Q)".toList

end Circuit
end Halo
