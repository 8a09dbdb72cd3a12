import Verif.Model.Curve
import Mathlib.AlgebraicGeometry.EllipticCurve.Affine.Point
/-!
# Specification of the curve layer

The reference object is Mathlib's group of points of `y² = x³ + b`.
-/
namespace Halo
variable {F : Type} [Field F] [DecidableEq F]

/-- The short Weierstrass curve `y² = x³ + b`. -/
def shortW (b : F) : WeierstrassCurve F := ⟨0, 0, 0, 0, b⟩

/-- The group of rational points of `y² = x³ + b`, with point at infinity `0`. -/
abbrev Pt (b : F) : Type := (shortW b).toAffine.Point

/-- A projective triple denotes a group element: `(0 : y : 0)` the identity, `(xz : yz : z)` with
`z ≠ 0` the affine point `(x, y)`. -/
inductive Denotes (b : F) : Proj F → Pt b → Prop
  | zero {y : F} (hy : y ≠ 0) : Denotes b ⟨0, y, 0⟩ 0
  | some {x y z : F} (hz : z ≠ 0) (h : (shortW b).toAffine.Nonsingular x y) :
      Denotes b ⟨x * z, y * z, z⟩ (WeierstrassCurve.Affine.Point.some x y h)

/-- A curve record whose field has no exceptional behaviour: `threeB = 3b`, the characteristic is
not 2 and there is no rational point of order 2. -/
structure GoodCurve (F : Type) [Field F] (E : CurveConsts) : Prop where
  threeB : E.threeB = 3 * E.b
  two_ne : (2 : F) ≠ 0
  no_two_torsion : ∀ x : F, x ^ 3 + (E.b : F) ≠ 0

end Halo
