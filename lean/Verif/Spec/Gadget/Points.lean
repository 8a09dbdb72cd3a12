import Verif.Model.Gadget.Ecc
import Verif.Spec.Gadget.Nums
import Verif.Spec.Curve
/-!
# What curve point gadgets mean under an assignment
-/
namespace Halo
variable {F : Type} [Field F] {b : F}

/-- The coordinates of a point, `(0, 0)` for the identity -/
def coordinates : Pt b → F × F
  | .zero => (0, 0)
  | .some x y _ => (x, y)

/-- Is the point the identity? -/
def isIdentityPt : Pt b → Bool
  | .zero => true
  | .some _ _ _ => false

namespace Circuit

/-- The gadget value stands for the point `A`: the wires carry its coordinates, `(0, 0)` for the
identity, and the flag says whether it is the identity. -/
structure CurvePoint.Means (w : Var → F) (P : CurvePoint F) (A : Pt b) : Prop where
  x : P.x.wire w = (coordinates A).1
  y : P.y.wire w = (coordinates A).2
  flag : P.isIdentity.Means w (isIdentityPt A)

/-- The gadget value stands for the point `A`, and the prover knows this. -/
structure CurvePoint.Honest (w : Var → F) (P : CurvePoint F) (A : Pt b) : Prop where
  means : P.Means w A
  x : P.x.Honest w
  y : P.y.Honest w
  flag : P.isIdentity.Honest w (isIdentityPt A)

end Circuit
end Halo
