import Verif.Lemmas.Gadget.EccSound
/-!
# Completeness of the curve gadgets
-/
namespace Halo
namespace Circuit
variable {F : Type} [Field F] [DecidableEq F] {w : Var → F} {one : Var}

theorem ok_bind' {ε α β : Type} (a : α) (f : α → Except ε β) : (Except.ok a).bind f = f a := rfl

/-- Turns a statement about the completeness of a program into one about the wires. -/
macro "complete_steps" "[" l:Lean.Parser.Tactic.simpLemma,* "]" : tactic =>
  `(tactic| simp only [Prog.pure_eq, complete_bind, complete_doMultiply, complete_doAlloc, complete_enforce,
    AllocatedNum.alloc, AllocatedNum.lc, LC.eval_subVar, LC.eval_addVar, LC.eval_ofVar,
    LC.eval_subLC, LC.eval_addLC, LC.eval_add, LC.eval_zero, sub_eq_zero, complete_pure, zero_add,
    orMissing_some, ok_bind, ok_bind', ok_map, Option.map_some, Option.bind_some, both_some, ok_toOption,
    Except.ok.injEq, exists_eq_left', $l,*])

/-- Takes the remaining statement apart. -/
macro "split_steps" : tactic =>
  `(tactic| repeat' first | exact trivial | apply And.intro | intro _)

namespace CurvePoint
section
variable [LawfulField F] {E : CurveConsts}

omit [DecidableEq F] in
theorem pointValues_eq {b : F} {p : Proj F} {A : Pt b} (h : Denotes b p A) :
    pointValues p = ((coordinates A).1, (coordinates A).2, isIdentityPt A) := by
  rw [pointValues, getXy_spec h]
  rcases pt_cases A with rfl | ⟨x, y, h, rfl, -⟩ <;> rfl

omit [DecidableEq F] [LawfulField F] in
theorem honest_of {b x0 y0 : F} {x y : Var} {A : Pt b} {f : Boolean} (hA : coordinates A = (x0, y0))
    (hx : w x = x0) (hy : w y = y0) (hf : f.Honest w (isIdentityPt A)) :
    CurvePoint.Honest w ⟨.ofAllocated ⟨some x0, x⟩, .ofAllocated ⟨some y0, y⟩, f⟩ A :=
  ⟨⟨by rw [Num.wire_ofAllocated, hA]; exact hx, by rw [Num.wire_ofAllocated, hA]; exact hy, hf.means⟩,
    Num.honest_ofAllocated (by rw [AllocatedNum.Honest, hx]),
    Num.honest_ofAllocated (by rw [AllocatedNum.Honest, hy]), hf⟩

omit [DecidableEq F] [LawfulField F] in
/-- What the prover knows -/
theorem Honest.values {b : F} {P : CurvePoint F} {A : Pt b} (h : P.Honest w A) :
    P.x.value = some (coordinates A).1 ∧ P.y.value = some (coordinates A).2 ∧
      P.isIdentity.getValue = some (isIdentityPt A) ∧ P.x.wire w = (coordinates A).1 ∧
      P.y.wire w = (coordinates A).2 := by
  have hx := h.x
  have hy := h.y
  rw [Num.Honest] at hx hy
  exact ⟨by rw [hx, h.means.x], by rw [hy, h.means.y], h.flag.getValue, h.means.x, h.means.y⟩

theorem double_complete (g : GoodCurve F E) (h1 : w one = 1) {P : CurvePoint F} {A : Pt (E.b : F)}
    (hP : P.Honest w A) : Complete w (double one P) fun R => R.Honest w (A + A) := by
  obtain ⟨hx, hy, hf, hx', hy'⟩ := hP.values
  simp only [double, hx, hy, hf]
  by_cases hA : A = 0
  · subst hA
    rw [coordinates_zero]
    rw [coordinates_zero] at hx' hy'
    rw [show (0 : F) + 0 = 0 from add_zero 0, LawfulField.invert_zero]
    complete_steps [Num.eval_lc h1, Boolean.eval_lc h1 hP.means.flag, hx', hy', isIdentityPt_zero,
      ofBool, Coeff.value, mul_zero, zero_mul, sub_self, if_true, add_zero, true_and]
    intro xd hxd yd hyd a b c ha hb hc
    refine ⟨ha.symm, hb.symm, fun a b c' ha' hb' hc' => ⟨ha'.symm, by simp [hc, hc'], ?_⟩⟩
    intro a b c ha hb hc
    refine ⟨by simp [*], by simp [*], by simp [*], fun a b c ha hb hc => ⟨by simp [*], by simp [*], by simp [*], ?_⟩⟩
    intro a b c ha hb hc
    exact ⟨by simp [*], by simp [*], by simp [*], honest_of coordinates_zero hxd hyd hP.flag⟩
  have hyy := two_y_ne g.two_ne g.no_two_torsion hA
  rw [LawfulField.invert_eq _ hyy]
  complete_steps [Num.eval_lc h1, Boolean.eval_lc h1 hP.means.flag, hx', hy']
  obtain ⟨h0, hs⟩ := add_tangent g.two_ne g.no_two_torsion hA
    (l := ((coordinates A).2 + (coordinates A).2)⁻¹ * ((coordinates A).1 * (coordinates A).1 +
      (coordinates A).1 * (coordinates A).1 + (coordinates A).1 * (coordinates A).1)) (by
      rw [mul_inv_cancel_left₀ hyy]; ring)
  have hl : ((coordinates A).2 + (coordinates A).2) * (((coordinates A).2 + (coordinates A).2)⁻¹ *
    ((coordinates A).1 * (coordinates A).1 +
      (coordinates A).1 * (coordinates A).1 + (coordinates A).1 * (coordinates A).1)) =
      (coordinates A).1 * (coordinates A).1 +
      (coordinates A).1 * (coordinates A).1 + (coordinates A).1 * (coordinates A).1 :=
    mul_inv_cancel_left₀ hyy _
  generalize ((coordinates A).2 + (coordinates A).2)⁻¹ * ((coordinates A).1 * (coordinates A).1 +
      (coordinates A).1 * (coordinates A).1 + (coordinates A).1 * (coordinates A).1) = l at *
  rw [isIdentityPt_false.2 hA]
  intro xd hxd yd hyd
  refine ⟨trivial, fun a b xx ha hb hxx => ⟨ha.symm, hb.symm, hl, fun a b c ha hb hc => ⟨ha.symm, by
    rw [hxx, hc], by ring, fun a b c ha' hb' hc' => ⟨by rw [hb, ha'], by rw [hb, hb'], by
    rw [hc', hxd], by ring, fun a b c ha' hb' hc' => ⟨by rw [ha', hxd], by rw [hb, hb'], by
    rw [hyd, hc'], by simp [ofBool], fun a b c ha' hb' hc' => ⟨by rw [hb, ha'], by simp [hb', ofBool],
    hc', honest_of hs hxd hyd ?_⟩⟩⟩⟩⟩⟩
  rw [isIdentityPt_false.2 h0, ← isIdentityPt_false.2 hA]
  exact hP.flag

omit [LawfulField F] in
theorem chord_ne {b : F} {A B : Pt b} (hA : A ≠ 0) (hB : B ≠ 0) (h : A ≠ B) (h' : A ≠ -B) :
    (coordinates A).1 ≠ (coordinates B).1 := fun hh =>
  (eq_or_neg hA hB hh).elim h h'

omit [DecidableEq F] in
theorem conditionalNeg_complete [DecidableEq F] {b : F} (h1 : w one = 1) {P : CurvePoint F} {A : Pt b} {c : Boolean}
    {v : Bool} (hP : P.Honest w A) (hc : c.Honest w v) :
    Complete w (conditionalNeg one P c) fun R => R.Honest w (if v then -A else A) := by
  obtain ⟨hx, hy, hf, hx', hy'⟩ := hP.values
  simp only [conditionalNeg, hy, hc.getValue]
  complete_steps [Num.eval_lc h1, Boolean.eval_lc h1 hc.means, hy', h1, Coeff.value,
    LawfulField.fromU64_eq]
  rw [show BitVec.toNat (2 : BitVec 64) = 2 from rfl]
  cases v with
  | false =>
    simp only [Bool.false_eq_true, if_false, mul_one, sub_zero]
    refine ⟨trivial, fun a b c ha hb hc => ⟨ha.symm, hb.symm, ⟨⟨hP.means.x, ?_, hP.flag.means⟩, hP.x, ?_, hP.flag⟩⟩⟩
    · rw [Num.wire_ofAllocated, hc]
    · exact Num.honest_ofAllocated (by rw [AllocatedNum.Honest, hc])
  | true =>
    simp only [if_true]
    refine ⟨by ring, fun a b c ha hb hc => ⟨ha.symm, by rw [hb]; push_cast; ring, ⟨⟨?_, ?_, ?_⟩, hP.x, ?_, ?_⟩⟩⟩
    · rw [coordinates_neg]; exact hP.means.x
    · rw [Num.wire_ofAllocated, hc, coordinates_neg]
    · rw [isIdentityPt_neg]; exact hP.flag.means
    · exact Num.honest_ofAllocated (by rw [AllocatedNum.Honest, hc])
    · rw [isIdentityPt_neg]; exact hP.flag

theorem conditionalEndo_complete (g : GoodCurve F E) (h1 : w one = 1) {P : CurvePoint F}
    {A : Pt (E.b : F)} {c : Boolean} {v : Bool} (hP : P.Honest w A) (hc : c.Honest w v) :
    Complete w (conditionalEndo one P c) fun R =>
      R.Honest w (if v then endoHom g HaloCurve.beta_cube A else A) := by
  obtain ⟨hx, hy, hf, hx', hy'⟩ := hP.values
  simp only [conditionalEndo, hx, hc.getValue]
  complete_steps [Num.eval_lc h1, Boolean.eval_lc h1 hc.means, hx', h1, Coeff.value]
  cases v with
  | false =>
    simp only [Bool.false_eq_true, if_false, mul_one]
    refine ⟨trivial, fun a b c ha hb hc => ⟨ha.symm, by rw [hb, sub_self], ⟨⟨?_, hP.means.y, hP.flag.means⟩, ?_, hP.y, hP.flag⟩⟩⟩
    · rw [Num.wire_ofAllocated, hc]
    · exact Num.honest_ofAllocated (by rw [AllocatedNum.Honest, hc])
  | true =>
    simp only [if_true]
    refine ⟨trivial, fun a b c ha hb hc => ⟨ha.symm, by rw [hb], ?_⟩⟩
    rcases pt_cases A with rfl | ⟨x0, y0, h0, rfl, -⟩
    · rw [map_zero]
      refine ⟨⟨?_, hP.means.y, hP.flag.means⟩, ?_, hP.y, hP.flag⟩
      · rw [Num.wire_ofAllocated, hc]; simp [coordinates_zero]
      · exact Num.honest_ofAllocated (by rw [AllocatedNum.Honest, hc])
    · refine ⟨⟨?_, hP.means.y, hP.flag.means⟩, ?_, hP.y, hP.flag⟩
      · rw [Num.wire_ofAllocated, hc]; exact mul_comm _ _
      · exact Num.honest_ofAllocated (by rw [AllocatedNum.Honest, hc])

theorem witness_complete (h1 : w one = 1) {p : Proj F} {A : Pt (E.b : F)} (h : Denotes (E.b : F) p A) :
    Complete w (witness E one (.ok p)) fun R => R.Honest w A := by
  simp only [witness, ok_map, pointValues_eq h]
  complete_steps []
  intro x hx y hy
  refine (AllocatedBit.alloc_complete _).mono fun f hf => ?_
  have hf' := hf.1
  simp only [AllocatedBit.Means] at hf'
  complete_steps [Coeff.value, h1, hf', mul_one]
  by_cases hA : A = 0
  · subst hA
    rw [coordinates_zero] at hx hy ⊢
    simp only [isIdentityPt_zero, ofBool] at *
    split_steps
    all_goals first | exact honest_of coordinates_zero hx hy hf | simp_all
  · have e := coordinates_pt A hA
    rw [isIdentityPt_false.2 hA]
    simp only [ofBool]
    split_steps
    all_goals first | exact honest_of rfl hx hy hf | skip
    all_goals grind

theorem addIncomplete_complete (h1 : w one = 1) {P Q : CurvePoint F} {b : F} {A B : Pt b}
    (hP : P.Honest w A) (hQ : Q.Honest w B) (hA : A ≠ 0) (hB : B ≠ 0) (hAB : A ≠ B) (hAB' : A ≠ -B) :
    Complete w (addIncomplete one P Q) fun R => R.Honest w (A + B) := by
  obtain ⟨hx, hy, hf, hx', hy'⟩ := hP.values
  obtain ⟨kx, ky, kf, kx', ky'⟩ := hQ.values
  have hne := chord_ne hA hB hAB hAB'
  have hne' : (coordinates B).1 - (coordinates A).1 ≠ 0 := sub_ne_zero.2 hne.symm
  simp only [addIncomplete, hx, hy, hf, kx, ky]
  rw [LawfulField.invert_eq _ hne']
  complete_steps [Num.eval_lc h1, hx', hy', kx', ky']
  have hl := mul_inv_cancel_left₀ hne' ((coordinates B).2 - (coordinates A).2)
  generalize ((coordinates B).1 - (coordinates A).1)⁻¹ * ((coordinates B).2 - (coordinates A).2) = l at *
  obtain ⟨h0, hs⟩ := add_chord hA hB hne hl
  intro x hx y hy
  split_steps
  all_goals first
    | exact honest_of hs hx hy (by
        rw [isIdentityPt_false.2 h0, ← isIdentityPt_false.2 hA]; exact hP.flag)
    | grind

omit [DecidableEq F] in
theorem addIncomplete_complete_zero (h1 : w one = 1) {P Q : CurvePoint F} {b : F}
    (hP : P.Honest w (0 : Pt b)) (hQ : Q.Honest w (0 : Pt b)) :
    Complete w (addIncomplete one P Q) fun R => R.Honest w (0 : Pt b) := by
  obtain ⟨hx, hy, hf, hx', hy'⟩ := hP.values
  obtain ⟨kx, ky, kf, kx', ky'⟩ := hQ.values
  simp only [coordinates_zero, isIdentityPt_zero] at *
  simp only [addIncomplete, hx, hy, hf, kx, ky]
  rw [sub_self, LawfulField.invert_zero]
  complete_steps [Num.eval_lc h1, hx', hy', kx', ky', mul_zero, sub_zero, add_zero]
  intro x hx y hy
  split_steps
  all_goals first | exact honest_of coordinates_zero hx hy hP.flag | simp_all

theorem doubleAndAddIncomplete_complete (h1 : w one = 1) {P Q : CurvePoint F} {b : F} {A B : Pt b}
    (hP : P.Honest w A) (hQ : Q.Honest w B) (hA : A ≠ 0) (hB : B ≠ 0) (hAB : A ≠ B) (hAB' : A ≠ -B)
    (hS : A + (A + B) ≠ 0) :
    Complete w (doubleAndAddIncomplete one P Q) fun R => R.Honest w (A + (A + B)) := by
  obtain ⟨hx, hy, hf, hx', hy'⟩ := hP.values
  obtain ⟨kx, ky, kf, kx', ky'⟩ := hQ.values
  have hne := chord_ne hA hB hAB hAB'
  have hne' : (coordinates B).1 - (coordinates A).1 ≠ 0 := sub_ne_zero.2 hne.symm
  simp only [doubleAndAddIncomplete, hx, hy, kx, ky]
  rw [LawfulField.invert_eq _ hne']
  complete_steps [Num.eval_lc h1, hx', hy', kx', ky']
  have hl := mul_inv_cancel_left₀ hne' ((coordinates B).2 - (coordinates A).2)
  generalize ((coordinates B).1 - (coordinates A).1)⁻¹ * ((coordinates B).2 - (coordinates A).2) = l at *
  obtain ⟨h0, hs⟩ := add_chord hA hB hne hl
  have hne2 : (coordinates A).1 ≠ (coordinates (A + B)).1 :=
    chord_ne hA h0 (fun h => hB (by simpa using h.symm)) (fun h => hS (eq_neg_iff_add_eq_zero.1 h))
  have hne2' : (coordinates A).1 - (l * l - (coordinates A).1 - (coordinates B).1) ≠ 0 := by
    rw [hs] at hne2; exact sub_ne_zero.2 hne2
  rw [LawfulField.invert_eq _ hne2']
  complete_steps []
  have hl2 := mul_inv_cancel_left₀ hne2' ((coordinates A).2 + (coordinates A).2)
  generalize ((coordinates A).1 - (l * l - (coordinates A).1 - (coordinates B).1))⁻¹ *
    ((coordinates A).2 + (coordinates A).2) = l2 at *
  obtain ⟨h0', hs'⟩ := add_chord hA h0 hne2 (l := l2 - l) (by rw [hs]; dsimp only; grind)
  rw [hs] at hs'
  dsimp only at hs'
  intro x hx y hy
  have hxy : coordinates (A + (A + B)) = ((l2 - l) * (l2 - l) - (l * l - (coordinates A).1 - (coordinates B).1) - (coordinates A).1, (l2 - l) * ((coordinates A).1 - ((l2 - l) * (l2 - l) - (l * l - (coordinates A).1 - (coordinates B).1) - (coordinates A).1)) - (coordinates A).2) := by
    rw [hs']; congr 1 <;> ring
  split_steps
  all_goals first
    | exact honest_of hxy hx hy (by
        rw [isIdentityPt_false.2 h0', ← isIdentityPt_false.2 hA]; exact hP.flag)
    | grind

omit [DecidableEq F] in
theorem doubleAndAddIncomplete_complete_zero (h1 : w one = 1) {P Q : CurvePoint F} {b : F}
    (hP : P.Honest w (0 : Pt b)) (hQ : Q.Honest w (0 : Pt b)) :
    Complete w (doubleAndAddIncomplete one P Q) fun R => R.Honest w (0 : Pt b) := by
  obtain ⟨hx, hy, hf, hx', hy'⟩ := hP.values
  obtain ⟨kx, ky, kf, kx', ky'⟩ := hQ.values
  simp only [coordinates_zero, isIdentityPt_zero] at *
  simp only [doubleAndAddIncomplete, bothIdentity, hx, hy, hf, kx, ky, kf]
  rw [sub_self, LawfulField.invert_zero]
  complete_steps [Num.eval_lc h1, hx', hy', kx', ky', mul_zero, sub_zero, add_zero, LawfulField.invert_zero]
  intro x hx y hy
  split_steps
  all_goals first | exact honest_of coordinates_zero hx hy hP.flag | simp_all

end
end CurvePoint
end Circuit
end Halo
