import Verif.Spec.Curve
import Mathlib.Tactic.LinearCombination
/-!
# The projective formulas compute the group law
-/
namespace Halo
open WeierstrassCurve.Affine
variable {F : Type} [Field F] {E : CurveConsts}

theorem equation_short {b x y : F} : (shortW b).toAffine.Equation x y ↔ y ^ 2 = x ^ 3 + b := by
  rw [equation_iff]; simp [shortW]

theorem nonsingular_short {b x y : F} (hb : ∀ x : F, x ^ 3 + b ≠ 0) (h2 : (2 : F) ≠ 0)
    (hxy : y ^ 2 = x ^ 3 + b) : (shortW b).toAffine.Nonsingular x y := by
  rw [nonsingular_iff]
  refine ⟨equation_short.2 hxy, Or.inr ?_⟩
  simp only [shortW]
  intro hh
  have h2y : 2 * y = 0 := by linear_combination hh
  rcases mul_eq_zero.1 h2y with h | h
  · exact h2 h
  · apply hb x; rw [← hxy, h]; ring

theorem negY_short {b x y : F} : (shortW b).toAffine.negY x y = -y := by
  simp [negY, shortW]

theorem add_expand (P Q : Proj F) (h3 : E.threeB = 3 * E.b) :
    Proj.add E P Q =
      ⟨(P.x * Q.y + Q.x * P.y) * (P.y * Q.y - 3 * E.b * (P.z * Q.z))
          - 3 * E.b * (P.y * Q.z + Q.y * P.z) * (P.x * Q.z + Q.x * P.z),
       (P.y * Q.y + 3 * E.b * (P.z * Q.z)) * (P.y * Q.y - 3 * E.b * (P.z * Q.z))
          + 9 * E.b * (P.x * Q.x) * (P.x * Q.z + Q.x * P.z),
       (P.y * Q.z + Q.y * P.z) * (P.y * Q.y + 3 * E.b * (P.z * Q.z))
          + 3 * (P.x * Q.x) * (P.x * Q.y + Q.x * P.y)⟩ := by
  simp only [Proj.add, Proj.mulBy3b, h3, Proj.mk.injEq]
  push_cast
  refine ⟨?_, ?_, ?_⟩ <;> ring

theorem double_expand (P : Proj F) (h3 : E.threeB = 3 * E.b) :
    Proj.double E P =
      ⟨2 * P.x * P.y * (P.y ^ 2 - 9 * E.b * P.z ^ 2),
       (P.y ^ 2 - 9 * E.b * P.z ^ 2) * (P.y ^ 2 + 3 * E.b * P.z ^ 2)
         + 24 * E.b * P.z ^ 2 * P.y ^ 2,
       8 * P.y ^ 3 * P.z⟩ := by
  simp only [Proj.double, Proj.mulBy3b, h3, Proj.mk.injEq]
  push_cast
  refine ⟨?_, ?_, ?_⟩ <;> ring

/-- `Denotes` for an affine point, in a form convenient for proofs -/
theorem denotes_some {b x y : F} (h : (shortW b).toAffine.Nonsingular x y) {P : Proj F}
    (hz : P.z ≠ 0) (hx : P.x = x * P.z) (hy : P.y = y * P.z) : Denotes b P (Point.some x y h) := by
  obtain ⟨px, py, pz⟩ := P
  simp only at hx hy hz
  subst hx; subst hy
  exact Denotes.some hz h

theorem denotes_zero {b : F} {P : Proj F} (hz : P.z = 0) (hx : P.x = 0) (hy : P.y ≠ 0) :
    Denotes b P 0 := by
  obtain ⟨px, py, pz⟩ := P
  simp only at hx hy hz
  subst hx; subst hz
  exact Denotes.zero hy

theorem y_ne_zero {b x y : F} (hb : ∀ x : F, x ^ 3 + b ≠ 0)
    (h : (shortW b).toAffine.Nonsingular x y) : y ≠ 0 := by
  rintro rfl
  have := equation_short.1 h.1
  exact hb x (by rw [← this]; ring)

theorem y_ne_neg {b x y : F} (h2 : (2 : F) ≠ 0) (hb : ∀ x : F, x ^ 3 + b ≠ 0)
    (h : (shortW b).toAffine.Nonsingular x y) : y ≠ (shortW b).toAffine.negY x y := by
  rw [negY_short]
  intro hh
  have : 2 * y = 0 := by linear_combination hh
  rcases mul_eq_zero.1 this with h' | h'
  · exact h2 h'
  · exact y_ne_zero hb h h'

variable [DecidableEq F] (g : GoodCurve F E)
include g

theorem denotes_add {P Q : Proj F} {A B : Pt (E.b : F)}
    (hP : Denotes (E.b : F) P A) (hQ : Denotes (E.b : F) Q B) :
    Denotes (E.b : F) (Proj.add E P Q) (A + B) := by
  rw [add_expand P Q g.threeB]
  have h2 := g.two_ne
  have hb := g.no_two_torsion
  generalize (E.b : F) = b at *
  cases hP with
  | zero hy1 =>
    cases hQ with
    | zero hy2 =>
      rw [add_zero]
      refine denotes_zero ?_ ?_ ?_
      · simp
      · simp
      · simp; exact ⟨hy1, hy2⟩
    | @some x2 y2 z2 hz2 n2 =>
      rw [zero_add]
      rename_i y1
      have hy2 := y_ne_zero hb n2
      have e2 := equation_short.1 n2.1
      refine denotes_some n2 ?_ ?_ ?_
      · have : y1 * z2 * (y1 * (y2 * z2)) ≠ 0 := by
          simp [hy1, hz2, hy2]
        simpa using this
      · simp; ring
      · simp; ring
  | @some x1 y1 z1 hz1 n1 =>
    have hy1 := y_ne_zero hb n1
    have e1 := equation_short.1 n1.1
    cases hQ with
    | zero hy2 =>
      rw [add_zero]
      rename_i y2
      refine denotes_some n1 ?_ ?_ ?_
      · have : y2 * z1 * (y1 * z1 * y2) ≠ 0 := by
          simp [hy1, hz1, hy2]
        simpa using this
      · simp; ring
      · simp; ring
    | @some x2 y2 z2 hz2 n2 =>
      have hy2 := y_ne_zero hb n2
      have e2 := equation_short.1 n2.1
      by_cases hx : x1 = x2
      · subst hx
        have hyy : y1 ^ 2 = y2 ^ 2 := by rw [e1, e2]
        rcases sq_eq_sq_iff_eq_or_eq_neg.1 hyy with hy | hy
        · -- doubling
          subst hy
          have hne := y_ne_neg h2 hb n1
          rw [Point.add_self_of_Y_ne (h₁ := n1) hne]
          have hs : (shortW b).toAffine.slope x1 x1 y1 y1 = 3 * x1 ^ 2 / (2 * y1) := by
            rw [slope_of_Y_ne rfl hne, negY_short]; simp [shortW]; ring
          have hz3 : 8 * y1 ^ 3 * (z1 * z2) ^ 2 ≠ 0 := by
            have h8 : (8 : F) = 2 ^ 3 := by norm_num
            rw [h8]
            exact mul_ne_zero (mul_ne_zero (pow_ne_zero _ h2) (pow_ne_zero _ hy1))
              (pow_ne_zero _ (mul_ne_zero hz1 hz2))
          have hz : (y1 * z1 * z2 + y1 * z2 * z1) * (y1 * z1 * (y1 * z2) + 3 * b * (z1 * z2))
             + 3 * (x1 * z1 * (x1 * z2)) * (x1 * z1 * (y1 * z2) + x1 * z2 * (y1 * z1))
             = 8 * y1 ^ 3 * (z1 * z2) ^ 2 := by
            linear_combination (-6 * y1 * (z1 * z2) ^ 2) * e1
          have hm : 3 * x1 ^ 2 / (2 * y1) * (2 * y1) = 3 * x1 ^ 2 := by field_simp
          have h4 : (2 * y1) ≠ 0 := mul_ne_zero h2 hy1
          apply denotes_some
          · simp only; rw [hz]; exact hz3
          · simp only
            rw [hz]
            simp only [addX, shortW] at hs ⊢
            rw [hs]
            generalize hml : 3 * x1 ^ 2 / (2 * y1) = m at hm ⊢
            clear hs hne hz
            grind
          · simp only
            rw [hz]
            simp only [addY, negAddY, addX, negY, shortW] at hs ⊢
            rw [hs]
            generalize hml : 3 * x1 ^ 2 / (2 * y1) = m at hm ⊢
            clear hs hne hz
            grind
        · -- opposite points
          obtain rfl : y2 = -y1 := by rw [hy, neg_neg]
          rw [Point.add_of_Y_eq rfl (by rw [negY_short, neg_neg])]
          refine denotes_zero ?_ ?_ ?_
          · simp only; ring
          · simp only; ring
          · simp only
            have hne := y_ne_neg h2 hb n1
            have nd := nonsingular_add n1 n1 (fun hh => hne hh.2)
            have hyd := y_ne_zero hb nd
            have hs : (shortW b).toAffine.slope x1 x1 y1 y1 = 3 * x1 ^ 2 / (2 * y1) := by
              rw [slope_of_Y_ne rfl hne, negY_short]; simp [shortW]; ring
            have hm : 3 * x1 ^ 2 / (2 * y1) * (2 * y1) = 3 * x1 ^ 2 := by field_simp
            simp only [addY, negAddY, addX, negY, shortW] at hs hyd
            rw [hs] at hyd
            clear hs hne nd hy hyy
            generalize 3 * x1 ^ 2 / (2 * y1) = m at hm hyd
            intro hh
            apply hyd
            have hk : (z1 * z2) ^ 2 * (8 * y1 ^ 3) ≠ 0 := by
              have h8 : (8 : F) = 2 ^ 3 := by norm_num
              rw [h8]
              exact mul_ne_zero (pow_ne_zero _ (mul_ne_zero hz1 hz2))
                (mul_ne_zero (pow_ne_zero _ h2) (pow_ne_zero _ hy1))
            refine ((mul_eq_zero (M₀ := F) (a := (z1 * z2) ^ 2 * (8 * y1 ^ 3))).1 ?_).resolve_left hk
            rw [← hh]
            grind
      · have hd : x1 - x2 ≠ 0 := sub_ne_zero.2 hx
        rw [Point.add_of_X_ne hx]
        have nn : (shortW b).toAffine.Nonsingular x2 (-y2) :=
          nonsingular_short hb h2 (by rw [← e2]; ring)
        have nd := nonsingular_add n1 nn (fun hh => hx hh.1)
        have hyd := y_ne_zero hb nd
        have hz : (y1 * z1 * z2 + y2 * z2 * z1) * (y1 * z1 * (y2 * z2) + 3 * b * (z1 * z2))
           + 3 * (x1 * z1 * (x2 * z2)) * (x1 * z1 * (y2 * z2) + x2 * z2 * (y1 * z1))
           = (z1 * z2) ^ 2 * ((y1 + y2) * (y1 * y2 + 3 * b) + 3 * x1 * x2 * (x1 * y2 + x2 * y1)) := by
          ring
        have hz0 : (y1 + y2) * (y1 * y2 + 3 * b) + 3 * x1 * x2 * (x1 * y2 + x2 * y1) ≠ 0 := by
          rw [slope_of_X_ne hx] at hyd
          have hm : (y1 - -y2) / (x1 - x2) * (x1 - x2) = y1 + y2 := by field_simp; ring
          simp only [addY, negAddY, addX, negY, shortW] at hyd
          generalize (y1 - -y2) / (x1 - x2) = m at hm hyd
          intro hh
          apply hyd
          refine ((mul_eq_zero (M₀ := F) (a := (x1 - x2) ^ 3)).1 ?_).resolve_left (pow_ne_zero _ hd)
          have e : (y1 + y2) * (y1 * y2 + 3 * b) + 3 * x1 * x2 * (x1 * y2 + x2 * y1)
            = (y1+y2)^3 - (y1+y2)*(2*x1+x2)*(x1-x2)^2  + y1*(x1-x2)^3 := by grind
          rw [e, ← hm] at hh
          linear_combination -hh
        have hm : (y1 - y2) / (x1 - x2) * (x1 - x2) = y1 - y2 := by field_simp
        apply denotes_some
        · simp only; rw [hz]; exact mul_ne_zero (pow_ne_zero _ (mul_ne_zero hz1 hz2)) hz0
        · simp only
          rw [hz]
          have hs := slope_of_X_ne (W := (shortW b).toAffine) (y₁ := y1) (y₂ := y2) hx
          simp only [addX, shortW] at hs ⊢
          rw [hs]
          generalize (y1 - y2) / (x1 - x2) = m at hm ⊢
          refine mul_left_cancel₀ (pow_ne_zero 2 hd) ?_
          have e : ((x1*y2+x2*y1)*(y1*y2-3*b) - 3*b*(y1+y2)*(x1+x2)) * (x1-x2)^2 =
            ((y1+y2)*(y1*y2+3*b)+3*x1*x2*(x1*y2+x2*y1)) * ((y1-y2)^2 - (x1+x2)*(x1-x2)^2) := by
            clear hs hz hz0 hyd nd nn hm
            grind
          rw [← hm] at e
          linear_combination (z1 * z2) ^ 2 * e
        · simp only
          rw [hz]
          have hs := slope_of_X_ne (W := (shortW b).toAffine) (y₁ := y1) (y₂ := y2) hx
          simp only [addY, negAddY, addX, negY, shortW] at hs ⊢
          rw [hs]
          generalize (y1 - y2) / (x1 - x2) = m at hm ⊢
          refine mul_left_cancel₀ (pow_ne_zero 3 hd) ?_
          have e : ((y1*y2+3*b)*(y1*y2-3*b)+9*b*x1*x2*(x1+x2)) * (x1-x2)^3 =
            ((y1+y2)*(y1*y2+3*b)+3*x1*x2*(x1*y2+x2*y1)) *
              ((y1-y2)*((2*x1+x2)*(x1-x2)^2 - (y1-y2)^2) - y1*(x1-x2)^3) := by
            clear hs hz hz0 hyd nd nn hm
            grind
          rw [← hm] at e
          linear_combination (z1 * z2) ^ 2 * e

theorem denotes_double {P : Proj F} {A : Pt (E.b : F)} (hP : Denotes (E.b : F) P A) :
    Denotes (E.b : F) (Proj.double E P) (A + A) := by
  have h2 := g.two_ne
  have hb := g.no_two_torsion
  rw [double_expand P g.threeB]
  cases hP with
  | zero hy =>
    rw [add_zero]
    refine denotes_zero ?_ ?_ ?_
    · simp
    · simp
    · simpa using hy
  | @some x y z hz n =>
    have hy := y_ne_zero hb n
    have e1 := equation_short.1 n.1
    have hne := y_ne_neg h2 hb n
    rw [Point.add_self_of_Y_ne (h₁ := n) hne]
    have hs : (shortW (E.b : F)).toAffine.slope x x y y = 3 * x ^ 2 / (2 * y) := by
      rw [slope_of_Y_ne rfl hne, negY_short]; simp [shortW]; ring
    have hm : 3 * x ^ 2 / (2 * y) * (2 * y) = 3 * x ^ 2 := by field_simp
    generalize (E.b : F) = b at *
    have h8 : (8 : F) = 2 ^ 3 := by norm_num
    apply denotes_some
    · simp only
      rw [h8]
      exact mul_ne_zero (mul_ne_zero (pow_ne_zero _ h2) (pow_ne_zero _ (mul_ne_zero hy hz))) hz
    · simp only [addX, shortW] at hs ⊢
      rw [hs]
      generalize 3 * x ^ 2 / (2 * y) = m at hm ⊢
      clear hne hs
      grind
    · simp only [addY, negAddY, addX, negY, shortW] at hs ⊢
      rw [hs]
      generalize 3 * x ^ 2 / (2 * y) = m at hm ⊢
      clear hne hs
      grind

omit g in
theorem denotes_neg {b : F} {P : Proj F} {A : Pt b} (hP : Denotes b P A) :
    Denotes b (Proj.neg P) (-A) := by
  cases hP with
  | @zero y hy =>
    rw [neg_zero]
    have : Proj.neg (⟨0, y, 0⟩ : Proj F) = ⟨0, y, 0⟩ := by simp [Proj.neg, Proj.isZero]
    rw [this]; exact Denotes.zero hy
  | @some x y z hz n =>
    rw [Point.neg_some]
    apply denotes_some
    · simp [Proj.neg, Proj.isZero, hz]
    · simp [Proj.neg, Proj.isZero, hz]
    · simp [Proj.neg, Proj.isZero, hz, negY, shortW]

theorem denotes_sub {P Q : Proj F} {A B : Pt (E.b : F)}
    (hP : Denotes (E.b : F) P A) (hQ : Denotes (E.b : F) Q B) :
    Denotes (E.b : F) (Proj.sub E P Q) (A - B) := by
  rw [sub_eq_add_neg]
  exact denotes_add g hP (denotes_neg hQ)

end Halo
