import Verif.Spec.CurveApi
import Verif.Lemmas.CurveEndo
/-!
# The two curves satisfy `LawfulCurve`
-/
namespace Halo
variable {E : CurveConsts} {F : Type} [Field F] [DecidableEq F] [LawfulField F]
  {S : Type} [Field S] [LawfulField S]

/-- the curves of the code implement their group of rational points, as a module over the scalar
field -/
theorem HaloCurve.lawful [HaloCurve E F S] :
    letI := Proj.curveApi E F S
    letI := HaloCurve.module (E := E) (F := F) (S := S)
    LawfulCurve (Proj F) S (Pt (E.b : F)) (Denotes (E.b : F)) := by
  let := Proj.curveApi E F S
  let := HaloCurve.module (E := E) (F := F) (S := S)
  have g := HaloCurve.good E F S
  exact {
    zero := denotes_proj_zero
    add := denotes_add g
    neg := denotes_neg
    sub := denotes_sub g
    double := denotes_double g
    mul := fun s h => denotes_mul g h s
    total := exists_denotes
    functional := denotes_unique }

/-- a module is a curve over itself -/
@[instance_reducible] def selfCurve (S G : Type) [Field S] [AddCommGroup G] [Module S G] :
    CurveApi G S where
  zero := 0
  add := (· + ·)
  neg := (- ·)
  sub := (· - ·)
  double a := a + a
  mul a s := s • a

theorem selfCurve_lawful (S G : Type) [Field S] [AddCommGroup G] [Module S G] :
    letI := selfCurve S G
    LawfulCurve G S G Eq := by
  let := selfCurve S G
  exact {
    zero := rfl
    add := by rintro _ _ _ _ rfl rfl; rfl
    neg := by rintro _ _ rfl; rfl
    sub := by rintro _ _ _ _ rfl rfl; rfl
    double := by rintro _ _ rfl; rfl
    mul := by rintro _ _ s rfl; rfl
    total := fun a => ⟨a, rfl⟩
    functional := by rintro _ _ _ rfl rfl; rfl }

end Halo
