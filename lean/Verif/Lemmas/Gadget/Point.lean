import Verif.Spec.Gadget.Points
import Verif.Lemmas.Gadget.Num
import Verif.Lemmas.Gadget.Logic
import Verif.Lemmas.CurveEndo
import Verif.Lemmas.CurveBytes
/-!
# Affine arithmetic on curve points, for the curve gadgets
-/
namespace Halo
open WeierstrassCurve.Affine
variable {F : Type} [Field F] {b : F}

theorem isIdentityPt_zero : isIdentityPt (0 : Pt b) = true := rfl
theorem coordinates_zero : coordinates (0 : Pt b) = (0, 0) := rfl

theorem isIdentityPt_iff {A : Pt b} : isIdentityPt A = true ↔ A = 0 := by
  cases A with
  | zero => exact ⟨fun _ => rfl, fun _ => rfl⟩
  | some x y h => exact ⟨nofun, nofun⟩

theorem isIdentityPt_false {A : Pt b} : isIdentityPt A = false ↔ A ≠ 0 := by
  rw [ne_eq, ← isIdentityPt_iff]; simp

/-- A point with an equation, or the identity -/
theorem pt_cases (A : Pt b) : A = 0 ∨ ∃ x y h, A = .some x y h ∧ y ^ 2 = x ^ 3 + b := by
  cases A with
  | zero => exact .inl rfl
  | some x y h => exact .inr ⟨x, y, h, rfl, equation_short.1 h.1⟩

theorem coordinates_pt (A : Pt b) (h : A ≠ 0) :
    (coordinates A).2 ^ 2 = (coordinates A).1 ^ 3 + b := by
  rcases pt_cases A with rfl | ⟨x, y, h, rfl, e⟩
  · exact (h rfl).elim
  · exact e

/-- Points with the same coordinates are the same, unless one is the identity. -/
theorem pt_ext {A B : Pt b} (hA : A ≠ 0) (hB : B ≠ 0) (h : coordinates A = coordinates B) : A = B := by
  rcases pt_cases A with rfl | ⟨x, y, h1, rfl, e⟩
  · exact (hA rfl).elim
  rcases pt_cases B with rfl | ⟨x', y', h2, rfl, e'⟩
  · exact (hB rfl).elim
  simp only [coordinates, Prod.mk.injEq] at h
  obtain ⟨rfl, rfl⟩ := h
  rfl

section group
variable [DecidableEq F]

theorem coordinates_neg (A : Pt b) : coordinates (-A) = ((coordinates A).1, -(coordinates A).2) := by
  rcases pt_cases A with rfl | ⟨x, y, h, rfl, -⟩
  · rw [neg_zero]; simp [coordinates_zero]
  · simp only [Point.neg_some, coordinates, negY_short]

theorem isIdentityPt_neg (A : Pt b) : isIdentityPt (-A) = isIdentityPt A := by
  rcases pt_cases A with rfl | ⟨x, y, h, rfl, -⟩
  · rw [neg_zero]
  · rw [Point.neg_some]; rfl

/-- Points with the same `x` are the same or opposite. -/
theorem eq_or_neg {A B : Pt b} (hA : A ≠ 0) (hB : B ≠ 0)
    (h : (coordinates A).1 = (coordinates B).1) : A = B ∨ A = -B := by
  have e1 := coordinates_pt A hA
  have e2 := coordinates_pt B hB
  rw [h, ← e2] at e1
  rcases sq_eq_sq_iff_eq_or_eq_neg.1 e1 with h' | h'
  · exact .inl (pt_ext hA hB (Prod.ext h h'))
  · refine .inr (pt_ext hA (neg_ne_zero.2 hB) ?_)
    rw [coordinates_neg]; exact Prod.ext h h'

/-- The chord through two points -/
theorem add_chord {A B : Pt b} (hA : A ≠ 0) (hB : B ≠ 0)
    (hx : (coordinates A).1 ≠ (coordinates B).1) {l : F}
    (hl : ((coordinates B).1 - (coordinates A).1) * l = (coordinates B).2 - (coordinates A).2) :
    A + B ≠ 0 ∧ coordinates (A + B) =
      (l * l - (coordinates A).1 - (coordinates B).1,
        l * ((coordinates A).1 - (l * l - (coordinates A).1 - (coordinates B).1)) - (coordinates A).2) := by
  rcases pt_cases A with rfl | ⟨x1, y1, h1, rfl, -⟩
  · exact (hA rfl).elim
  rcases pt_cases B with rfl | ⟨x2, y2, h2, rfl, -⟩
  · exact (hB rfl).elim
  simp only [coordinates] at hx hl ⊢
  have hs : (shortW b).toAffine.slope x1 x2 y1 y2 = l := by
    rw [slope_of_X_ne hx, div_eq_iff (sub_ne_zero.2 hx)]
    linear_combination hl
  rw [Point.add_of_X_ne hx]
  refine ⟨nofun, ?_⟩
  simp only [addX, addY, negAddY, negY_short, hs, Prod.mk.injEq]
  simp only [shortW]
  constructor <;> ring

/-- The tangent at a point -/
theorem add_tangent (h2 : (2 : F) ≠ 0) (hb : ∀ x : F, x ^ 3 + b ≠ 0) {A : Pt b} (hA : A ≠ 0) {l : F}
    (hl : ((coordinates A).2 + (coordinates A).2) * l = 3 * (coordinates A).1 ^ 2) :
    A + A ≠ 0 ∧ coordinates (A + A) =
      (l * l - (coordinates A).1 - (coordinates A).1,
        l * ((coordinates A).1 - (l * l - (coordinates A).1 - (coordinates A).1)) - (coordinates A).2) := by
  rcases pt_cases A with rfl | ⟨x, y, h, rfl, e⟩
  · exact (hA rfl).elim
  simp only [coordinates] at hl ⊢
  have hy := y_ne_zero hb h
  have hy2 : y ≠ (shortW b).toAffine.negY x y := y_ne_neg h2 hb h
  have hyy : y + y ≠ 0 := by rw [← two_mul]; exact mul_ne_zero h2 hy
  have hs : (shortW b).toAffine.slope x x y y = l := by
    rw [slope_of_Y_ne rfl hy2, negY_short, sub_neg_eq_add, div_eq_iff hyy]
    simp only [shortW]
    linear_combination -hl
  rw [Point.add_self_of_Y_ne hy2]
  refine ⟨nofun, ?_⟩
  simp only [addX, addY, negAddY, negY_short, hs, Prod.mk.injEq]
  simp only [shortW]
  constructor <;> ring

omit [DecidableEq F] in
theorem y_ne_zero' (hb : ∀ x : F, x ^ 3 + b ≠ 0) {A : Pt b} (hA : A ≠ 0) : (coordinates A).2 ≠ 0 := by
  intro h
  have := coordinates_pt A hA
  rw [h] at this
  exact hb _ (by rw [← this]; ring)

omit [DecidableEq F] in
theorem two_y_ne (h2 : (2 : F) ≠ 0) (hb : ∀ x : F, x ^ 3 + b ≠ 0) {A : Pt b} (hA : A ≠ 0) :
    (coordinates A).2 + (coordinates A).2 ≠ 0 := by
  rw [← two_mul]; exact mul_ne_zero h2 (y_ne_zero' hb hA)

end group
end Halo
