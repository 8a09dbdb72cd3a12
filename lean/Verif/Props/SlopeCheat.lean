import Verif.Lemmas.Gadget.SlopeCheat
import Verif.Props.Ecc
/-!
# `double_and_add_incomplete` is not sound for equal points (C40)
-/
namespace Halo
open Circuit CurvePoint FieldApi
variable {F : Type} [Field F] [DecidableEq F] [LawfulField F] {E : CurveConsts}

/-- The circuit that witnesses a point `P` and asks for `[2]P + P`. It returns both. -/
def tripleCircuit (E : CurveConsts) (p : Proj F) (one : Var) : Prog F (CurvePoint F × CurvePoint F) := do
  let P ← witness E one (.ok p)
  let R ← doubleAndAddIncomplete one P P
  return (P, R)

/-- **C40 is false of `double_and_add_incomplete`** if the points are equal: for every point, also the identity, and
all slopes that solve one equation, the constraint system that a verifier synthesizes has a satisfying assignment in
which the point is the given one and the result has the first coordinate that belongs to the slopes. -/
theorem C40_double_and_add_forged {p : Proj F} {A : Pt (E.b : F)} (hp : Denotes (E.b : F) p A) {t u : F}
    (ht : (3 * (coordinates A).1 - t * t) * (t + u) = 2 * (coordinates A).2) :
    ∃ r sys w, circuitSystem false (tripleCircuit E p) = .ok (r, sys) ∧ sys.Satisfied w [] ∧ r.1.Means w A ∧
      r.2.x.wire w = u * u - t * t + (coordinates A).1 := by
  refine accepted_of_twin (cheat := fun one => do
    let P ← witness E one (.ok p)
    let R ← doubleAndAddWith t u one P P
    return (P, R)) (R := fun a b => ∃ V, Like V a.1 b.1 ∧ Like V a.2 b.2)
    (Q := fun w r => r.1.Means w A ∧ r.2.x.wire w = u * u - t * t + (coordinates A).1) ?_ ?_ ?_
  · refine provable_of_complete fun w one h1 => ?_
    refine Complete.bind (witness_complete h1 hp) fun P hP => ?_
    exact Complete.bind (doubleAndAddWith_complete h1 hP ht) fun R hR => ⟨hP.means, hR⟩
  · intro V one hV
    unfold tripleCircuit
    refine Twin.bind (twin_witness hV (by rintro _ ⟨⟩; exact ⟨A, hp⟩)) fun P P' hP => ?_
    exact Twin.bind (twin_doubleAndAddWith t u hV hP.1.1 hP.1.1) fun R R' hR => Twin.ret ⟨V, hP.1.1, hR⟩
  · rintro w a b ⟨V, h1, h2⟩ ⟨h3, h4⟩
    exact ⟨h1.means h3, h2.wire.trans h4⟩

/-- So for no point of either curve does the circuit enforce that the result is `[3]P`. -/
theorem C40_double_and_add_not_enforced (S : Type) [Field S] [LawfulField S] [HaloCurve E F S] {p : Proj F}
    {A : Pt (E.b : F)} (hp : Denotes (E.b : F) p A) :
    ¬ Enforces (tripleCircuit E p) fun w r => r.1.Means w A → r.2.Means w (A + (A + A)) := by
  intro h
  have g := HaloCurve.good E F S
  have key : ∀ {t u : F}, (3 * (coordinates A).1 - t * t) * (t + u) = 2 * (coordinates A).2 →
      u * u - t * t + (coordinates A).1 = (coordinates (A + (A + A))).1 := by
    intro t u ht
    obtain ⟨r, sys, w, e1, e2, e3, e4⟩ := C40_double_and_add_forged hp ht
    exact e4.symm.trans (h _ _ _ _ _ e1 e2 e3).x
  obtain ⟨h2, h3⟩ := two_three_ne (S := F)
  have h2' : (2 : F) ≠ 0 := by rwa [one_add_one_eq_two] at h2
  by_cases hA : A = 0
  · subst hA
    rw [coordinates_zero] at key
    have := key (t := 0) (u := 1) (by simp)
    simp [coordinates_zero] at this
  · have hy := y_ne_zero' g.no_two_torsion hA
    generalize (coordinates (A + (A + A))).1 = z at *
    generalize (coordinates A).1 = x at *
    generalize (coordinates A).2 = y at *
    obtain ⟨t, h0, ht⟩ : ∃ t : F, t ≠ 0 ∧ 3 * x - t * t ≠ 0 := by
      by_cases h : 3 * x - 1 * 1 = 0
      · refine ⟨2, h2', fun h' => h3 ?_⟩
        linear_combination h - h'
      · exact ⟨1, one_ne_zero, h⟩
    have e1 := key (t := t) (u := 2 * y / (3 * x - t * t) - t) (by rw [add_sub_cancel, mul_div_cancel₀ _ ht])
    have e2 := key (t := -t) (u := 2 * y / (3 * x - t * t) - -t)
      (by rw [add_sub_cancel, neg_mul_neg, mul_div_cancel₀ _ ht])
    have hd : 2 * y / (3 * x - t * t) ≠ 0 := div_ne_zero (mul_ne_zero h2' hy) ht
    generalize 2 * y / (3 * x - t * t) = d at *
    have : (2 * 2 : F) * (t * d) = 0 := by linear_combination e2 - e1
    exact (mul_ne_zero (mul_ne_zero h2' h2') (mul_ne_zero h0 hd)) this

example : ∃ A : Pt ((ec0.b : ℕ) : Fq), A ≠ 0 ∧ Denotes _ (Proj.one ec0) A ∧
    ¬ Enforces (tripleCircuit ec0 (Proj.one ec0)) fun w r => r.1.Means w A → r.2.Means w (A + (A + A)) := by
  obtain ⟨A, hA, h0⟩ := one_denotes (E := ec0) (F := Fq) (S := Fp)
  exact ⟨A, h0, hA, C40_double_and_add_not_enforced Fp hA⟩

end Halo
