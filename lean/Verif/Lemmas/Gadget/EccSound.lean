import Verif.Lemmas.Gadget.Point
/-!
# Soundness of the curve gadgets
-/
namespace Halo
namespace Circuit
variable {F : Type} [Field F] [DecidableEq F] {w : Var → F} {one : Var}

/-- Turns a statement about the soundness of a program into one about the wires. -/
macro "sound_steps" "[" l:Lean.Parser.Tactic.simpLemma,* "]" : tactic =>
  `(tactic| simp only [Prog.pure_eq, sound_bind, sound_doMultiply, sound_doAlloc, sound_enforce,
    AllocatedNum.alloc, AllocatedNum.lc, LC.eval_subVar, LC.eval_addVar, LC.eval_ofVar,
    LC.eval_subLC, LC.eval_addLC, LC.eval_add, LC.eval_zero, sub_eq_zero, sound_pure, zero_add, $l,*])

namespace CurvePoint

section
variable [LawfulField F] {E : CurveConsts}

omit [DecidableEq F] [LawfulField F] in
theorem identity_honest {b : F} : (identity : CurvePoint F).Honest w (0 : Pt b) :=
  ⟨⟨rfl, rfl, rfl⟩, rfl, rfl, rfl⟩

omit [DecidableEq F] in
theorem witness_sound (g : GoodCurve F E) (h1 : w one = 1) (v : Except SynthesisError (Proj F)) :
    Sound w (witness E one v) fun P => P.isIdentity.Means w true ∨
      P.isIdentity.Means w false ∧ ∃ A : Pt (E.b : F), A ≠ 0 ∧ P.Means w A := by
  simp only [witness]
  sound_steps []
  intro x _ y _
  refine (AllocatedBit.alloc_sound _).mono ?_
  rintro f ⟨v, hf⟩ a b c _ m1 e1 e2 d e f' _ m2 e3 e4 g' h i _ m3 e5 e6 j k l _ m4 e7 e8 e9
  cases v with
  | true => exact .inl hf
  | false =>
    refine .inr ⟨hf, ?_⟩
    simp only [AllocatedBit.Means] at hf
    simp only [Coeff.value, h1, mul_one] at e7 e8
    have he : w y ^ 2 = w x ^ 3 + (E.b : F) := by
      simp only [Bool.false_eq_true, if_false] at hf
      grind
    exact ⟨.some _ _ (nonsingular_short g.no_two_torsion g.two_ne he), nofun, by simp [coordinates],
      by simp [coordinates], by simpa [isIdentityPt, Boolean.Means, AllocatedBit.Means] using hf⟩

theorem conditionalNeg_sound {b : F} (h1 : w one = 1) {P : CurvePoint F} {A : Pt b} {c : Boolean} {v : Bool}
    (hP : P.Means w A) (hc : c.Means w v) :
    Sound w (conditionalNeg one P c) fun R => R.Means w (if v then -A else A) := by
  simp only [conditionalNeg]
  sound_steps [Num.eval_lc h1, Boolean.eval_lc h1 hc]
  intro y n r _ m e1 e2
  have hy := hP.y
  cases v with
  | false =>
    refine ⟨hP.x, ?_, hP.flag⟩
    simp only [Num.wire_ofAllocated]
    simp [h1] at e2
    rw [← m, ← e1, ← e2, hy]; simp
  | true =>
    simp only [if_true]
    refine ⟨by rw [coordinates_neg]; exact hP.x, ?_, by rw [isIdentityPt_neg]; exact hP.flag⟩
    simp only [Num.wire_ofAllocated]
    simp only [h1, if_true, Coeff.value, LawfulField.fromU64_eq] at e2
    rw [coordinates_neg, ← m, ← e1, ← e2, hy]
    rw [show BitVec.toNat (2 : BitVec 64) = 2 from rfl]
    push_cast; ring

theorem conditionalEndo_sound (g : GoodCurve F E) (h1 : w one = 1) {P : CurvePoint F} {A : Pt (E.b : F)}
    {c : Boolean} {v : Bool} (hP : P.Means w A) (hc : c.Means w v) :
    Sound w (conditionalEndo one P c) fun R =>
      R.Means w (if v then endoHom g HaloCurve.beta_cube A else A) := by
  simp only [conditionalEndo]
  sound_steps [Num.eval_lc h1, Boolean.eval_lc h1 hc]
  intro x n r _ m e1 e2
  have hx := hP.x
  cases v with
  | false =>
    refine ⟨?_, hP.y, hP.flag⟩
    simp only [Num.wire_ofAllocated]
    simp [h1, sub_eq_zero] at e2
    rw [← m, ← e1, e2, hx]; simp
  | true =>
    simp only [if_true]
    simp only [h1, if_true, Coeff.value] at e2
    have e2 : w n = FieldApi.beta := by linear_combination e2
    rcases pt_cases A with rfl | ⟨x0, y0, h0, rfl, -⟩
    · rw [map_zero]
      refine ⟨?_, hP.y, hP.flag⟩
      rw [Num.wire_ofAllocated, ← m, ← e1, hx]; simp [coordinates_zero]
    · refine ⟨?_, hP.y, hP.flag⟩
      rw [Num.wire_ofAllocated, ← m, ← e1, hx, e2]
      exact mul_comm _ _

omit [DecidableEq F] [LawfulField F] in
theorem means_of_coords {b : F} {P : CurvePoint F} {A B : Pt b} (hf : P.isIdentity.Means w (isIdentityPt A))
    (h : isIdentityPt B = isIdentityPt A) (hx : P.x.wire w = (coordinates B).1)
    (hy : P.y.wire w = (coordinates B).2) : P.Means w B := ⟨hx, hy, by rw [h]; exact hf⟩

theorem double_sound (g : GoodCurve F E) (h1 : w one = 1) {P : CurvePoint F} {A : Pt (E.b : F)}
    (hP : P.Means w A) : Sound w (double one P) fun R => R.Means w (A + A) := by
  simp only [double]
  sound_steps [Num.eval_lc h1, Boolean.eval_lc h1 hP.flag]
  intro xd _ yd _ a b xx _ m1 e1 e2 c l d _ m2 e3 e4 d' e f _ m3 e5 e6 e7 g' h i _ m4 e8 e9 e10
    j k z _ m5 e11 e12 e13
  have hx := hP.x
  have hy := hP.y
  by_cases hA : A = 0
  · subst hA
    rw [add_zero]
    simp only [coordinates_zero] at hx hy
    simp only [isIdentityPt_zero, if_true, Coeff.value] at e12
    have hl : w l = 0 := by grind
    refine ⟨?_, ?_, hP.flag⟩
    · simp only [Num.wire_ofAllocated, coordinates_zero]; grind
    · simp only [Num.wire_ofAllocated, coordinates_zero]; grind
  · obtain ⟨h0, hs⟩ := add_tangent g.two_ne g.no_two_torsion hA (l := w l) (by
      rw [← hx, ← hy]; grind)
    refine means_of_coords hP.flag (by rw [isIdentityPt_false.2 hA, isIdentityPt_false.2 h0]) ?_ ?_
    · simp only [Num.wire_ofAllocated]; rw [hs]; dsimp only; rw [← hx]; grind
    · simp only [Num.wire_ofAllocated]; rw [hs]; dsimp only; rw [← hx, ← hy]; grind

theorem doubleAndAddIncomplete_sound (g : GoodCurve F E) (h1 : w one = 1) {P Q : CurvePoint F}
    {A B : Pt (E.b : F)} (hP : P.Means w A) (hQ : Q.Means w B) (hA : A ≠ 0) (hB : B ≠ 0) (hAB : A ≠ B) :
    Sound w (doubleAndAddIncomplete one P Q) fun R => R.Means w (A + (A + B)) := by
  simp only [doubleAndAddIncomplete]
  sound_steps [Num.eval_lc h1, Boolean.eval_lc h1 hP.flag]
  intro xs _ ys _ a l1 c _ m1 e1 e2 d e f _ m2 e3 e4 l2 k l _ m3 e5 e6 g1 h i _ m4 e7 e8 e9
    g2 h' i' _ m5 e10 e11 e12
  have hx := hP.x
  have hy := hP.y
  have hx' := hQ.x
  have hy' := hQ.y
  have hyA := two_y_ne g.two_ne g.no_two_torsion hA
  have hx1 : (coordinates A).1 ≠ (coordinates B).1 := by
    intro hh
    rcases eq_or_neg hA hB hh with h' | h'
    · exact hAB h'
    · have := congrArg Prod.snd ((congrArg coordinates h').trans (coordinates_neg B))
      dsimp only at this
      apply hyA
      grind
  obtain ⟨h0, hs⟩ := add_chord hA hB hx1 (l := w l1) (by rw [← hx, ← hy, ← hx', ← hy']; grind)
  have hx2 : (coordinates A).1 ≠ (coordinates (A + B)).1 := by
    intro hh
    rw [hs] at hh
    apply hyA
    dsimp only at hh
    rw [← hx, ← hx'] at hh
    rw [← hy]
    grind
  obtain ⟨h0', hs'⟩ := add_chord hA h0 hx2 (l := w l2) (by
    rw [hs]; dsimp only; rw [← hx, ← hy, ← hx']; grind)
  refine means_of_coords hP.flag (by rw [isIdentityPt_false.2 hA, isIdentityPt_false.2 h0']) ?_ ?_
  · simp only [Num.wire_ofAllocated]; rw [hs', hs]; dsimp only; rw [← hx, ← hx']; grind
  · simp only [Num.wire_ofAllocated]; rw [hs', hs]; dsimp only; rw [← hx, ← hx', ← hy]; grind

omit [DecidableEq F] [LawfulField F] in
theorem choose_sound {bit : Option Bool} {a b out : Option F} {bitLc aLc bLc outLc : LC F} {v : Bool}
    (hv : bitLc.eval w = if v then 1 else 0) :
    Sound w (choose bit a b out bitLc aLc bLc outLc) fun _ =>
      outLc.eval w = if v then aLc.eval w else bLc.eval w := by
  simp only [choose]
  sound_steps []
  intro m n o _ m1 e1 e2 e3
  rw [hv] at e1
  cases v <;> simp at e1 ⊢ <;> grind

theorem addConditionallyIncomplete_sound (g : GoodCurve F E) (h1 : w one = 1) {P Q : CurvePoint F}
    {A B : Pt (E.b : F)} {c : Boolean} {v : Bool} (hP : P.Means w A) (hQ : Q.Means w B)
    (hc : c.Means w v) (hA : A ≠ 0) (hB : B ≠ 0) (hAB : A ≠ B) :
    Sound w (addConditionallyIncomplete E one P Q c) fun R => R.Means w (if v then A + B else A) := by
  simp only [addConditionallyIncomplete]
  refine Sound.bind (Sound.anyway _ (Q := fun _ => True) fun _ => trivial) fun p1 _ => ?_
  refine Sound.bind (Sound.anyway _ (Q := fun _ => True) fun _ => trivial) fun p2 _ => ?_
  refine Sound.bind (Sound.anyway _ (Q := fun _ => True) fun _ => trivial) fun p3 _ => ?_
  sound_steps [Num.eval_lc h1]
  intro xo _ yo _ a l c' _ m1 e1 e2 d e f _ m2 e3 e4 l2 k i _ m3 e5 e6 g1 h i' _ m4 e7 e8
  have hbit : (c.lc one (.one : Coeff F)).eval w = if v then 1 else 0 := Boolean.eval_lc h1 hc .one
  refine (choose_sound hbit).mono fun _ hxo => (choose_sound hbit).mono fun _ hyo => ?_
  simp only [LC.eval_subVar, LC.eval_ofVar, LC.eval_subLC, Num.eval_lc h1] at hxo hyo
  have hx := hP.x
  have hy := hP.y
  have hx' := hQ.x
  have hy' := hQ.y
  have hyA := two_y_ne g.two_ne g.no_two_torsion hA
  have hx1 : (coordinates A).1 ≠ (coordinates B).1 := by
    intro hh
    rcases eq_or_neg hA hB hh with h' | h'
    · exact hAB h'
    · have := congrArg Prod.snd ((congrArg coordinates h').trans (coordinates_neg B))
      dsimp only at this
      apply hyA
      grind
  obtain ⟨h0, hs⟩ := add_chord hA hB hx1 (l := w l) (by rw [← hx, ← hy, ← hx', ← hy']; grind)
  cases v with
  | false =>
    simp only [Bool.false_eq_true, if_false] at hxo hyo ⊢
    exact ⟨by rw [Num.wire_ofAllocated, hxo, hx], by rw [Num.wire_ofAllocated, hyo, hy],
      (isIdentityPt_false.2 hA).symm⟩
  | true =>
    simp only [if_true] at hxo hyo ⊢
    refine ⟨?_, ?_, (isIdentityPt_false.2 h0).symm⟩
    · rw [Num.wire_ofAllocated, hxo, hs]; dsimp only; rw [← hx, ← hx']; grind
    · rw [Num.wire_ofAllocated, hyo, hs]; dsimp only; rw [← hx, ← hx', ← hy]; grind

omit [DecidableEq F] [LawfulField F] in
theorem addFlag_sound (h1 : w one = 1) {P Q : CurvePoint F} {o : Option Bool} {f : AllocatedBit} {v : Bool}
    (hf : f.Means w v) : Sound w (addFlag one P Q o f) fun flag => w flag = (if v then 1 else 0) ∧
      (Q.y.wire w + P.y.wire w ≠ 0 → v = false) := by
  simp only [addFlag]
  sound_steps [Num.eval_lc h1]
  intro u fl z _ m e1 e2 e3
  simp only [AllocatedBit.Means] at hf
  refine ⟨by rw [← e2, hf], fun h => ?_⟩
  cases v
  · rfl
  · simp only [if_true] at hf; grind

omit [DecidableEq F] [LawfulField F] in
theorem addClear_sound (h1 : w one = 1) {flag : Var} {a b : Option F} {o : Option Bool} {v : Bool}
    (hf : w flag = if v then 1 else 0) :
    Sound w (addClear one flag a b o) fun x4 => v = true → w x4 = 0 := by
  simp only [addClear]
  sound_steps []
  intro u z x4 _ m e1 hv
  subst hv
  simp only [if_true] at hf
  grind

omit [DecidableEq F] [LawfulField F] in
theorem addFirst_sound (h1 : w one = 1) {p : Boolean} {v2 v4 v5 : Option F} {l : LC F} {x4 : Var}
    {v : Bool} (hp : p.Means w v) : Sound w (addFirst one p v2 l v4 x4 v5) fun r =>
      r.eval w = if v then l.eval w else w x4 := by
  simp only [addFirst]
  sound_steps [Boolean.eval_lc h1 hp]
  intro u z x4 _ m e1 e2
  cases v <;> simp at e1 ⊢ <;> grind

theorem add_sound (h1 : w one = 1) {P Q : CurvePoint F} {b : F} {A B : Pt b}
    (hP : P.Means w A) (hQ : Q.Means w B) :
    Sound w (add E one P Q) fun R => ∃ v, R.isIdentity.Means w v ∧
      ((coordinates A).2 + (coordinates B).2 ≠ 0 → v = false) ∧
      (A = 0 → R.x.wire w = (coordinates B).1 ∧ R.y.wire w = (coordinates B).2) ∧
      (B = 0 → R.x.wire w = (coordinates A).1 ∧ R.y.wire w = (coordinates A).2) ∧
      (A ≠ 0 → B ≠ 0 → v = true → R.x.wire w = 0 ∧ R.y.wire w = 0) := by
  simp only [add]
  refine Sound.bind (Sound.anyway _ (Q := fun _ => True) fun _ => trivial) fun p1 _ => ?_
  refine Sound.bind (Sound.anyway _ (Q := fun _ => True) fun _ => trivial) fun p2 _ => ?_
  refine Sound.bind (Sound.anyway _ (Q := fun _ => True) fun _ => trivial) fun xo _ => ?_
  refine Sound.bind (Sound.anyway _ (Q := fun _ => True) fun _ => trivial) fun yo _ => ?_
  refine Sound.bind (AllocatedBit.alloc_sound _) ?_
  rintro f ⟨v, hf⟩
  refine Sound.bind (Sound.anyway _ (Q := fun _ => True) fun _ => trivial) fun _ _ => ?_
  refine Sound.bind (addFlag_sound h1 hf) fun fl ⟨hfl, hv⟩ => ?_
  refine Sound.bind (addClear_sound h1 hfl) fun x4 hx4 => ?_
  refine Sound.bind (addClear_sound h1 hfl) fun y4 hy4 => ?_
  refine Sound.bind (addFirst_sound h1 hP.flag) fun x5 hx5 => ?_
  refine Sound.bind (addFirst_sound h1 hP.flag) fun y5 hy5 => ?_
  have hbit : (Q.isIdentity.lc one (.one : Coeff F)).eval w = if isIdentityPt B then 1 else 0 :=
    Boolean.eval_lc h1 hQ.flag .one
  refine Sound.bind (choose_sound hbit) fun _ hxo => ?_
  refine Sound.bind (choose_sound hbit) fun _ hyo => ?_
  rw [sound_ret]
  refine ⟨v, hf, fun h => hv ?_, ?_⟩
  · rw [hP.y, hQ.y, add_comm]; exact h
  simp only [Num.wire_ofAllocated, AllocatedNum.lc, LC.eval_ofVar, Num.eval_lc h1] at *
  rw [hxo, hyo, hx5, hy5, hP.x, hP.y, hQ.x, hQ.y]
  refine ⟨?_, ?_, ?_⟩
  · rintro rfl
    by_cases hB : B = 0
    · subst hB; simp [isIdentityPt_zero]
    · simp [isIdentityPt_zero, isIdentityPt_false.2 hB]
  · rintro rfl
    simp [isIdentityPt_zero]
  · intro hA hB hv
    simp [isIdentityPt_false.2 hA, isIdentityPt_false.2 hB, hx4 hv, hy4 hv]

theorem addConditionally_sound_false (h1 : w one = 1) {P Q : CurvePoint F} {b : F} {A : Pt b} {c : Boolean}
    (hP : P.Means w A) (hc : c.Means w false) :
    Sound w (addConditionally E one P Q c) fun R => R.Means w A := by
  simp only [addConditionally]
  refine Sound.bind (Sound.anyway _ (Q := fun _ => True) fun _ => trivial) fun sum _ => ?_
  refine Sound.bind (Sound.anyway _ (Q := fun _ => True) fun _ => trivial) fun xo _ => ?_
  refine Sound.bind (Sound.anyway _ (Q := fun _ => True) fun _ => trivial) fun yo _ => ?_
  refine Sound.bind (AllocatedBit.alloc_sound _) ?_
  rintro f ⟨v, hf⟩
  have hbit : (c.lc one (.one : Coeff F)).eval w = if false then 1 else 0 := Boolean.eval_lc h1 hc .one
  refine Sound.bind (choose_sound hbit) fun _ hxo => ?_
  refine Sound.bind (choose_sound hbit) fun _ hyo => ?_
  refine Sound.bind (choose_sound hbit) fun _ hfo => ?_
  rw [sound_ret]
  simp only [AllocatedNum.lc, LC.eval_ofVar, Num.eval_lc h1, Bool.false_eq_true, if_false] at hxo hyo hfo
  have hfl : (P.isIdentity.lc one (.one : Coeff F)).eval w = if isIdentityPt A then 1 else 0 :=
    Boolean.eval_lc h1 hP.flag .one
  exact ⟨by rw [Num.wire_ofAllocated, hxo, hP.x], by rw [Num.wire_ofAllocated, hyo, hP.y], by
    show w f.var = _
    rw [hfo, hfl]⟩

end

end CurvePoint
end Circuit
end Halo
