import Verif.Spec.Curve
/-!
# Specification of affine coordinates and of the compressed point encoding
-/
namespace Halo
variable {F : Type} [Field F]

/-- Affine coordinates of a group element; none for the identity. -/
def affine {b : F} : Pt b → Option (F × F)
  | .zero => none
  | .some x y _ => some (x, y)

/-- The 256-bit integer encoding a group element: `0` for the identity; for `(x, y)` the canonical
integer of `x` plus `2^255` times the parity of the canonical integer of `y`. -/
def encNat [LawfulField F] {b : F} : Pt b → ℕ
  | .zero => 0
  | .some x y _ => LawfulField.val x + 2 ^ 255 * (LawfulField.val y % 2)

end Halo
