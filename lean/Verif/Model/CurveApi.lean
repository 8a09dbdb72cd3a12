import Verif.Model.Curve
/-!
# The trait `Curve`

Code generic over `C: Curve` (`src/curves/mod.rs:6-62`) is modelled over a type `C` of points with
scalar field `S` and the operations of the trait that it uses.
-/
namespace Halo

/-- Operators and methods of trait `Curve` (`src/curves/mod.rs:6-62`) used by generic code. -/
class CurveApi (C : Type) (S : outParam Type) where
  zero : C
  add : C → C → C
  neg : C → C
  sub : C → C → C
  double : C → C
  mul : C → S → C

/-- `impl Curve for Ec0` / `Ec1`. -/
@[instance_reducible] def Proj.curveApi (E : CurveConsts) (F S : Type) [Field F] [DecidableEq F] [FieldApi S] :
    CurveApi (Proj F) S where
  zero := Proj.zero
  add := Proj.add E
  neg := Proj.neg
  sub := Proj.sub E
  double := Proj.double E
  mul := Proj.mul E

end Halo
