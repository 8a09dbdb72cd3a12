import Verif.Lemmas.Gadget.EccForge
import Verif.Lemmas.ChallengeInj
import Verif.Props.Curve
import Verif.Props.Gadget
/-!
# Properties of the curve point gadgets (C23, C40, C41, C48–C53)

`P.Means w A` says that the wires of the gadget value `P` carry the coordinates of the group element
`A`, `(0, 0)` for the identity, and that its flag says whether `A` is the identity; `P.Honest w A` says
in addition that the prover has computed this.  The group is Mathlib's.
-/
namespace Halo
open Circuit CurvePoint FieldApi
variable {F : Type} [Field F] [DecidableEq F] [LawfulField F] {E : CurveConsts} {w : Var → F} {one : Var}
variable (S : Type) [Field S] [LawfulField S]

/-- Instances of the hypotheses of the theorems below: the gadget values of two different points of
either curve, neither of them the identity, that are not opposite to each other. -/
theorem points_example [h : HaloCurve E F S] (w : Var → F) :
    ∃ (P Q : CurvePoint F) (A B : Pt (E.b : F)), P.Honest w A ∧ Q.Honest w B ∧ A ≠ 0 ∧ B ≠ 0 ∧ A ≠ B ∧
      A ≠ -B ∧ A + (A + B) ≠ 0 := by
  obtain ⟨A, -, hA⟩ := one_denotes (E := E) (F := F) (S := S)
  have hm := (LawfulField.modulus_bound (F := S)).1
  have key : ∀ k : ℕ, 0 < k → k < 5 → k • A ≠ 0 := by
    intro k h0 h5 hk
    have := addOrderOf_dvd_of_nsmul_eq_zero hk
    rw [(HaloCurve.is (E := E) (F := F) (S := S)).addOrderOf_eq rfl hA] at this
    have := Nat.le_of_dvd h0 this
    omega
  have hc : ∀ A : Pt (E.b : F), ∃ P : CurvePoint F, P.Honest w A := fun A =>
    ⟨⟨.const (coordinates A).1, .const (coordinates A).2, .constant (isIdentityPt A)⟩,
      ⟨⟨rfl, rfl, rfl⟩, rfl, rfl, rfl⟩⟩
  obtain ⟨P, hP⟩ := hc A
  obtain ⟨Q, hQ⟩ := hc (A + A)
  refine ⟨P, Q, A, A + A, hP, hQ, hA, ?_, fun h => hA (by simpa using h), ?_, ?_⟩
  · rw [← two_nsmul]; exact key 2 (by omega) (by omega)
  · rw [Ne, eq_neg_iff_add_eq_zero]
    have := key 3 (by omega) (by omega)
    rwa [succ_nsmul, two_nsmul, add_assoc] at this
  · have := key 4 (by omega) (by omega)
    rwa [succ_nsmul, succ_nsmul, two_nsmul, add_assoc, add_assoc] at this

/-! ### C40: witnessing, negation, endomorphism, doubling -/

/-- **C40**, `witness`: a point whose flag does not claim that it is the identity is a point of the
curve, in every satisfying assignment; and every group element can be witnessed. -/
theorem C40_witness [HaloCurve E F S] (h1 : w one = 1) :
    (∀ v, Sound w (witness E one v) fun P => P.isIdentity.Means w true ∨
      P.isIdentity.Means w false ∧ ∃ A : Pt (E.b : F), A ≠ 0 ∧ P.Means w A) ∧
    ∀ (p : Proj F) (A : Pt (E.b : F)), Denotes (E.b : F) p A →
      Complete w (witness E one (.ok p)) fun P => P.Honest w A :=
  ⟨witness_sound (HaloCurve.good E F S) h1, fun _ _ h => witness_complete h1 h⟩

/-- **C40**, `conditional_neg` and `conditional_endo`: the endomorphism multiplies by the cube root of
unity of the scalar field. -/
theorem C40_negation_endomorphism [HaloCurve E F S] (h1 : w one = 1) {P : CurvePoint F}
    {A : Pt (E.b : F)} {c : Boolean} {v : Bool} :
    (P.Means w A → c.Means w v →
      (Sound w (conditionalNeg one P c) fun R => R.Means w (if v then -A else A)) ∧
      Sound w (conditionalEndo one P c) fun R =>
        R.Means w (if v then LawfulField.val (beta : S) • A else A)) ∧
    (P.Honest w A → c.Honest w v →
      (Complete w (conditionalNeg one P c) fun R => R.Honest w (if v then -A else A)) ∧
      Complete w (conditionalEndo one P c) fun R =>
        R.Honest w (if v then LawfulField.val (beta : S) • A else A)) := by
  have g := HaloCurve.good E F S
  simp only [← HaloCurve.endo_eq (S := S) g A]
  exact ⟨fun hP hc => ⟨conditionalNeg_sound h1 hP hc, conditionalEndo_sound g h1 hP hc⟩,
    fun hP hc => ⟨conditionalNeg_complete h1 hP hc, conditionalEndo_complete g h1 hP hc⟩⟩

/-- **C40**, `double`, for every point, also the identity -/
theorem C40_double [HaloCurve E F S] (h1 : w one = 1) {P : CurvePoint F} {A : Pt (E.b : F)} :
    (P.Means w A → Sound w (double one P) fun R => R.Means w (A + A)) ∧
    (P.Honest w A → Complete w (double one P) fun R => R.Honest w (A + A)) :=
  ⟨double_sound (HaloCurve.good E F S) h1, double_complete (HaloCurve.good E F S) h1⟩

/-- **C40**, `double_and_add_incomplete`: soundness for different points other than the identity;
completeness where none of the additions is exceptional, and for two identities.  What is missing is
soundness for two identities and for equal points: the constraints leave the slope free. -/
theorem C40_double_and_add_partial [HaloCurve E F S] (h1 : w one = 1) {P Q : CurvePoint F}
    {A B : Pt (E.b : F)} :
    (P.Means w A → Q.Means w B → A ≠ 0 → B ≠ 0 → A ≠ B →
      Sound w (doubleAndAddIncomplete one P Q) fun R => R.Means w (A + (A + B))) ∧
    (P.Honest w A → Q.Honest w B → A ≠ 0 → B ≠ 0 → A ≠ B → A ≠ -B → A + (A + B) ≠ 0 →
      Complete w (doubleAndAddIncomplete one P Q) fun R => R.Honest w (A + (A + B))) ∧
    (P.Honest w (0 : Pt (E.b : F)) → Q.Honest w (0 : Pt (E.b : F)) →
      Complete w (doubleAndAddIncomplete one P Q) fun R => R.Honest w (0 : Pt (E.b : F))) :=
  ⟨doubleAndAddIncomplete_sound (HaloCurve.good E F S) h1, doubleAndAddIncomplete_complete h1,
    doubleAndAddIncomplete_complete_zero h1⟩

example : ∃ (w : Var → Fq) (P Q : CurvePoint Fq) (A B : Pt ((ec0.b : ℕ) : Fq)), w (.A 1) = 1 ∧
    P.Honest w A ∧ Q.Honest w B ∧ A ≠ 0 ∧ B ≠ 0 ∧ A ≠ B ∧ A ≠ -B ∧ A + (A + B) ≠ 0 ∧
    (Complete w (double (.A 1) P) fun R => R.Honest w (A + A)) ∧
    Complete w (doubleAndAddIncomplete (.A 1) P Q) fun R => R.Honest w (A + (A + B)) := by
  obtain ⟨P, Q, A, B, h⟩ := points_example (E := ec0) Fp (fun _ => (1 : Fq))
  exact ⟨_, P, Q, A, B, rfl, h.1, h.2.1, h.2.2.1, h.2.2.2.1, h.2.2.2.2.1, h.2.2.2.2.2.1, h.2.2.2.2.2.2,
    (C40_double Fp rfl).2 h.1, (C40_double_and_add_partial Fp rfl).2.1 h.1 h.2.1 h.2.2.1 h.2.2.2.1
      h.2.2.2.2.1 h.2.2.2.2.2.1 h.2.2.2.2.2.2⟩

/-! ### C48: the coordinates of the identity -/

omit [DecidableEq F] in
/-- **C48 is false of the code**: a circuit that witnesses the identity is satisfied by assignments in
which the flag says that the point is the identity and the coordinates are any field elements. -/
theorem C48_identity_coordinates_forged (x y : F) :
    Forgeable (fun one => witness E one (.ok Proj.zero)) fun w P =>
      P.isIdentity.Means w true ∧ P.getXy.1.wire w = x ∧ P.getXy.2.wire w = y := by
  apply forgeable_of_forge
  intro one
  exact (witness_forge (fun _ h => h) x y).mono fun w P _ h => ⟨h.2.2, h.1, h.2.1⟩

omit [DecidableEq F] in
/-- In particular the coordinates are not constrained to `(0, 0)`, as the documentation of `get_xy`
says. -/
theorem C48_identity_coordinates_not_enforced :
    ¬ Enforces (fun one => witness E one (.ok (Proj.zero : Proj F))) fun w P =>
      P.isIdentity.Means w true → P.getXy.1.wire w = 0 ∧ P.getXy.2.wire w = 0 := by
  apply Forgeable.not_enforces
  obtain ⟨a, s, w, hs, hw, hf, hx, -⟩ := C48_identity_coordinates_forged (E := E) (1 : F) 1
  exact ⟨a, s, w, hs, hw, fun h => one_ne_zero (hx.symm.trans (h hf).1)⟩

omit [DecidableEq F] [LawfulField F] in
/-- What is true of C48: points that the gadgets below derive from honest points are `(0, 0)` if they
are the identity; this is part of `Means`.  Missing: `witness` does not constrain the coordinates. -/
theorem C48_identity_coordinates_partial {A : Pt (E.b : F)} {P : CurvePoint F} (h : P.Means w A)
    (h0 : P.isIdentity.Means w true) : P.getXy.1.wire w = 0 ∧ P.getXy.2.wire w = 0 := by
  have : isIdentityPt A = true := by
    have h := h.flag
    revert h0 h
    cases P.isIdentity <;> cases isIdentityPt A <;>
      simp +contextual [Boolean.Means, AllocatedBit.Means]
  rw [isIdentityPt_iff] at this
  subst this
  exact ⟨h.x, h.y⟩

/-! ### C41: addition -/

/-- **C41 is false of the code**, `add`: for all points other than the identity, the constraint system
of a circuit that witnesses them and adds them is satisfied by an assignment in which the coordinates
of the output are any two field elements, and the flag says that it is not the identity. -/
theorem C41_add_forged [HaloCurve E F S] {p q : Proj F} {A B : Pt (E.b : F)}
    (hp : Denotes (E.b : F) p A) (hq : Denotes (E.b : F) q B) (hA : A ≠ 0) (hB : B ≠ 0) (x y : F) :
    Forgeable (fun one => do
      let P ← witness E one (.ok p)
      let Q ← witness E one (.ok q)
      let R ← add E one P Q
      return (P, Q, R)) fun w r => r.1.Means w A ∧ r.2.1.Means w B ∧
        r.2.2.x.wire w = x ∧ r.2.2.y.wire w = y ∧ r.2.2.isIdentity.Means w false := by
  apply forgeable_of_forge
  intro one
  refine Forge.seq (Forge.honest fun w hw => witness_complete hw hp) fun P => ?_
  refine Forge.seq (Forge.honest fun w hw => witness_complete hw.1 hq) fun Q => ?_
  refine Forge.seq (add_forge (HaloCurve.good E F S) hA hB (fun w hw => ⟨hw.1.1, hw.1.2, hw.2⟩) x y) fun R => ?_
  exact Forge.ret fun w hw => ⟨hw.1.1.2.means, hw.1.2.means, hw.2⟩

/-- **C41 is false of the code**, `add_incomplete`, for all points to which it applies -/
theorem C41_add_incomplete_forged {p q : Proj F} {A B : Pt (E.b : F)}
    (hp : Denotes (E.b : F) p A) (hq : Denotes (E.b : F) q B) (hA : A ≠ 0) (hB : B ≠ 0) (hAB : A ≠ B)
    (hAB' : A ≠ -B) (x y : F) :
    Forgeable (fun one => do
      let P ← witness E one (.ok p)
      let Q ← witness E one (.ok q)
      let R ← addIncomplete one P Q
      return (P, Q, R)) fun w r => r.1.Means w A ∧ r.2.1.Means w B ∧
        r.2.2.x.wire w = x ∧ r.2.2.y.wire w = y ∧ r.2.2.isIdentity.Means w false := by
  apply forgeable_of_forge
  intro one
  refine Forge.seq (Forge.honest fun w hw => witness_complete hw hp) fun P => ?_
  refine Forge.seq (Forge.honest fun w hw => witness_complete hw.1 hq) fun Q => ?_
  refine Forge.seq (addIncomplete_forge hA hB hAB hAB' (fun w hw => ⟨hw.1.1, hw.1.2, hw.2⟩) x y) fun R => ?_
  exact Forge.ret fun w hw => ⟨hw.1.1.2.means, hw.1.2.means, hw.2⟩

/-- In particular `add` does not enforce that the output is the sum. -/
theorem C41_add_not_enforced [HaloCurve E F S] {p q : Proj F} {A B : Pt (E.b : F)}
    (hp : Denotes (E.b : F) p A) (hq : Denotes (E.b : F) q B) (hA : A ≠ 0) (hB : B ≠ 0) :
    ¬ Enforces (fun one => do
      let P ← witness E one (.ok p)
      let Q ← witness E one (.ok q)
      let R ← add E one P Q
      return (P, Q, R)) fun w r => r.1.Means w A → r.2.1.Means w B → r.2.2.Means w (A + B) := by
  apply Forgeable.not_enforces
  obtain ⟨a, s, w, hs, hw, h1, h2, hx, -, -⟩ :=
    C41_add_forged S hp hq hA hB ((coordinates (A + B)).1 + 1) 0
  refine ⟨a, s, w, hs, hw, fun h => one_ne_zero (α := F) ?_⟩
  have := (h h1 h2).x
  rw [hx] at this
  simp at this

example : ∃ (p q : Proj Fq) (A B : Pt ((ec0.b : ℕ) : Fq)), Denotes ((ec0.b : ℕ) : Fq) p A ∧
    Denotes ((ec0.b : ℕ) : Fq) q B ∧ A ≠ 0 ∧ B ≠ 0 ∧ A ≠ B ∧ A ≠ -B := by
  obtain ⟨P, Q, A, B, h⟩ := points_example (E := ec0) Fp (fun _ => (1 : Fq))
  obtain ⟨p, hp⟩ := exists_denotes A
  obtain ⟨q, hq⟩ := exists_denotes B
  exact ⟨p, q, A, B, hp, hq, h.2.2.1, h.2.2.2.1, h.2.2.2.2.1, h.2.2.2.2.2.1⟩

/-- What is true of C41, soundness: `add` is right if exactly one of the points is the identity;
`add_conditionally` returns the first point if the condition is false; and `add_conditionally_incomplete` is right for different points other than the identity.  Missing: `add`
for two points other than the identity and the flag for two identities, and `add_incomplete`, where
constraints that link the output to the sum are commented out or absent. -/
theorem C41_addition_partial [HaloCurve E F S] (h1 : w one = 1) {P Q : CurvePoint F}
    {A B : Pt (E.b : F)} (hP : P.Means w A) (hQ : Q.Means w B) :
    (A = 0 → B ≠ 0 → Sound w (add E one P Q) fun R => R.Means w (A + B)) ∧
    (A ≠ 0 → B = 0 → Sound w (add E one P Q) fun R => R.Means w (A + B)) ∧
    (A = 0 → B = 0 → Sound w (add E one P Q) fun R => R.x.wire w = 0 ∧ R.y.wire w = 0) ∧
    (∀ c : Boolean, c.Means w false → Sound w (addConditionally E one P Q c) fun R => R.Means w A) ∧
    ∀ (c : Boolean) (v : Bool), c.Means w v → A ≠ 0 → B ≠ 0 → A ≠ B →
      Sound w (addConditionallyIncomplete E one P Q c) fun R => R.Means w (if v then A + B else A) := by
  have g := HaloCurve.good E F S
  refine ⟨?_, ?_, ?_, fun c => addConditionally_sound_false h1 hP, fun c v hc => addConditionallyIncomplete_sound g h1 hP hQ hc⟩
  · rintro rfl hB
    refine (add_sound h1 hP hQ).mono ?_
    rintro R ⟨v, hv, hy, hx, -, -⟩
    obtain rfl : v = false := hy (by
      rw [coordinates_zero, zero_add]; exact y_ne_zero' g.no_two_torsion hB)
    rw [zero_add]
    exact ⟨(hx rfl).1, (hx rfl).2, by rw [isIdentityPt_false.2 hB]; exact hv⟩
  · rintro hA rfl
    refine (add_sound h1 hP hQ).mono ?_
    rintro R ⟨v, hv, hy, -, hx, -⟩
    obtain rfl : v = false := hy (by
      rw [coordinates_zero, add_zero]; exact y_ne_zero' g.no_two_torsion hA)
    rw [add_zero]
    exact ⟨(hx rfl).1, (hx rfl).2, by rw [isIdentityPt_false.2 hA]; exact hv⟩
  · rintro rfl rfl
    exact (add_sound h1 hP hQ).mono fun R ⟨_, _, _, hx, _⟩ => hx rfl

/-- What is true of C41, completeness: the honest prover computes the sum, for all points with `add`
and `add_conditionally`, and where no exceptional case occurs with the incomplete gadgets. -/
theorem C41_addition_complete [HaloCurve E F S] (h1 : w one = 1) {P Q : CurvePoint F}
    {A B : Pt (E.b : F)} (hP : P.Honest w A) (hQ : Q.Honest w B) {c : Boolean} {v : Bool}
    (hc : c.Honest w v) :
    (Complete w (add E one P Q) fun R => R.Honest w (A + B)) ∧
    (Complete w (addConditionally E one P Q c) fun R => R.Honest w (if v then A + B else A)) ∧
    (A ≠ 0 → B ≠ 0 → A ≠ B → A ≠ -B →
      (Complete w (addIncomplete one P Q) fun R => R.Honest w (A + B)) ∧
      Complete w (addConditionallyIncomplete E one P Q c) fun R =>
        R.Honest w (if v then A + B else A)) := by
  have g := HaloCurve.good E F S
  exact ⟨add_complete g h1 hP hQ, addConditionally_complete g h1 hP hQ hc, fun hA hB hAB hAB' =>
    ⟨addIncomplete_complete h1 hP hQ hA hB hAB hAB',
      addConditionallyIncomplete_complete g h1 hP hQ hc hA hB hAB hAB'⟩⟩

example : ∃ (w : Var → Fp) (P Q : CurvePoint Fp) (A B : Pt ((ec1.b : ℕ) : Fp)), w (.A 1) = 1 ∧
    P.Honest w A ∧ Q.Honest w B ∧ A ≠ 0 ∧ B ≠ 0 ∧ A ≠ B ∧ A ≠ -B ∧
    (identity : CurvePoint Fp).Honest w (0 : Pt ((ec1.b : ℕ) : Fp)) ∧
    Boolean.Honest w (.constant true) true := by
  obtain ⟨P, Q, A, B, h⟩ := points_example (E := ec1) Fq (fun _ => (1 : Fp))
  exact ⟨_, P, Q, A, B, rfl, h.1, h.2.1, h.2.2.1, h.2.2.2.1, h.2.2.2.2.1, h.2.2.2.2.2.1,
    identity_honest, rfl⟩

/-! ### C23, C49: multiplication by a challenge -/

/-- **C23.** For every point and every field element `ch` of either field, the honest prover can
multiply the point in the circuit by the lower 128 bits of `ch`; the result is the point times
`get_challenge_scalar(ch)`. -/
theorem C23_challenge_scalar [HaloCurve E F S] {F1 : Type} [Field F1] [LawfulField F1] (ch : F1)
    (h1 : w one = 1) {P : CurvePoint F} {A : Pt (E.b : F)} (hP : P.Honest w A) {bits : List AllocatedBit}
    (hb : List.Forall₂ (fun b v => b.Honest w v) bits
      ((List.range 128).map fun i => (LawfulField.val ch).testBit i)) :
    Complete w (multiplyEndo one P bits) fun R =>
      R.Honest w (LawfulField.val (Util.getChallengeScalar ch : S) • A) := by
  have := multiplyEndo_complete (S := S) h1 hP (bitsOf_forall₂ hb (by simp))
  rw [bitsValue_range] at this
  have e : BitVec.ofNat 128 (LawfulField.val ch % 2 ^ 128) = lower128 ch := by
    apply BitVec.eq_of_toNat_eq
    rw [LawfulField.lower128_val, BitVec.toNat_ofNat, Nat.mod_mod]
  rwa [e] at this

/-- The same for a whole circuit that witnesses the point and allocates the bits: synthesis succeeds,
the values satisfy the constraint system, and the output is the product. -/
theorem C23_challenge_scalar_circuit [HaloCurve E F S] {F1 : Type} [Field F1] [LawfulField F1] (ch : F1)
    {p : Proj F} {A : Pt (E.b : F)} (hp : Denotes (E.b : F) p A) :
    Provable (fun one => do
      let P ← witness E one (.ok p)
      let bits ← mapProg (fun v => AllocatedBit.alloc (.ok v))
        ((List.range 128).map fun i => (LawfulField.val ch).testBit i)
      multiplyEndo one P bits) fun w R =>
        R.Means w (LawfulField.val (Util.getChallengeScalar ch : S) • A) := by
  apply provable_of_complete
  intro w one h1
  refine Complete.bind (witness_complete h1 hp) fun P hP => ?_
  have hm : ∀ vs : List Bool, Complete w (mapProg (fun v => AllocatedBit.alloc (.ok v)) vs)
      fun bits => List.Forall₂ (fun v b => b.Honest w v) vs bits := fun vs =>
    (Logic.complete w).mapProg fun v _ => AllocatedBit.alloc_complete v
  refine Complete.bind (hm _) fun bits hb => ?_
  refine (C23_challenge_scalar S ch h1 hP ?_).mono fun R hR => hR.means
  exact List.forall₂_iff_get.2 ⟨hb.length_eq.symm, fun i h1 h2 => (List.forall₂_iff_get.1 hb).2 i h2 h1⟩

example : ∃ A : Pt ((ec0.b : ℕ) : Fq), A ≠ 0 ∧ Denotes _ (Proj.one ec0) A ∧
    Provable (fun one => do
      let P ← witness ec0 one (.ok (Proj.one ec0))
      let bits ← mapProg (fun v => AllocatedBit.alloc (.ok v))
        ((List.range 128).map fun i => (LawfulField.val (-5 : Fq)).testBit i)
      multiplyEndo one P bits) fun w R =>
        R.Means w (LawfulField.val (Util.getChallengeScalar (-5 : Fq) : Fp) • A) := by
  obtain ⟨A, hA, h0⟩ := one_denotes (E := ec0) (F := Fq) (S := Fp)
  exact ⟨A, h0, hA, C23_challenge_scalar_circuit Fp (-5 : Fq) hA⟩

/-- **C49**, the part that is true: if the point `[3]P` that `multiply_endo` starts with is right, then
every satisfying assignment carries the product.  Missing: `[3]P` is computed with `add_incomplete`,
which does not constrain its output (C41). -/
theorem C49_multiply_endo_partial [HaloCurve E F S] (c : BitVec 128) (h1 : w one = 1) {P T : CurvePoint F}
    {A : Pt (E.b : F)} (hP : P.Means w A) (hT : A ≠ 0 → T.Means w (3 • A)) {bits : List AllocatedBit}
    (hb : List.Forall₂ (fun b v => b.Means w v) bits ((List.range 128).map fun i => c.getLsbD i)) :
    Sound w (endoLadder one P T bits) fun R =>
      R.Means w (LawfulField.val (Util.expandChallenge c : S) • A) := by
  have := endoLadder_sound (S := S) h1 hP (fun h => by
    have := hT h; rwa [succ_nsmul, two_nsmul] at this) (bitsOf_forall₂ hb (by simp))
  have e : BitVec.ofNat 128 (bitsValue ((List.range 128).map fun i => c.getLsbD i)) = c := by
    apply BitVec.eq_of_toNat_eq
    have : ((List.range 128).map fun i => c.getLsbD i) = (List.range 128).map fun i => c.toNat.testBit i := rfl
    rw [this, bitsValue_range, BitVec.toNat_ofNat, Nat.mod_mod, Nat.mod_eq_of_lt c.isLt]
  rwa [e] at this

omit [DecidableEq F] in
/-- `multiply_endo` is this ladder after doubling and adding. -/
theorem C49_multiply_endo_eq (P : CurvePoint F) (bits : List AllocatedBit) (h : bits.length = 128) :
    multiplyEndo one P bits = (do
      let acc ← double one P
      let T ← addIncomplete one acc P
      endoLadder one P T bits) := by
  rw [multiplyEndo, if_neg (by simp [h])]
  rfl

/-! ### C50, C51: multiplication by bits, and division -/

/-- **C50.** For every point and every list of bits, the honest prover can multiply the point by the
number with these bits. -/
theorem C50_multiply_complete [HaloCurve E F S] (h1 : w one = 1) {P : CurvePoint F} {A : Pt (E.b : F)}
    (hP : P.Honest w A) {bits : List AllocatedBit} {vs : List Bool}
    (hb : List.Forall₂ (fun b v => b.Honest w v) bits vs) :
    Complete w (multiply E one P bits) fun R => R.Honest w (bitsValue vs • A) :=
  multiply_complete (HaloCurve.good E F S) h1 hP hb

/-- **C51.** For every point and every 128 bits, the honest prover can divide the point by the scalar of
the challenge; and it can divide by the number with the given bits, if it is not zero as a scalar. -/
theorem C51_multiply_inverse_complete [HaloCurve E F S] (h1 : w one = 1) {P : CurvePoint F}
    {A : Pt (E.b : F)} (hP : P.Honest w A) {bits : List AllocatedBit} {vs : List Bool}
    (hb : List.Forall₂ (fun b v => b.Honest w v) bits vs) :
    (vs.length = 128 → Complete w (multiplyInvEndo E S one P bits) fun R => ∃ B : Pt (E.b : F),
      R.Honest w B ∧
        LawfulField.val (Util.expandChallenge (BitVec.ofNat 128 (bitsValue vs)) : S) • B = A) ∧
    (¬ modulus S ∣ bitsValue vs → Complete w (multiplyInv E S one P bits) fun R => ∃ B : Pt (E.b : F),
      R.Honest w B ∧ bitsValue vs • B = A) := by
  constructor
  · intro hl
    refine (multiplyInvEndo_complete (S := S) h1 hP hb hl).mono fun R hR => ⟨_, hR, ?_⟩
    rw [← HaloCurve.smul_mul_scalar, mul_inv_cancel₀ (expandChallenge_ne_zero _),
      HaloCurve.smul_one_scalar]
  · intro hd
    have hs : (bitsValue vs : S) ≠ 0 := by
      have := LawfulField.charP (F := S)
      rwa [Ne, CharP.cast_eq_zero_iff S (modulus S)]
    refine (multiplyInv_complete (S := S) h1 hP hb hs).mono fun R hR => ⟨_, hR, ?_⟩
    rw [← HaloCurve.nsmul_mod (S := S), ← LawfulField.val_natCast, ← HaloCurve.smul_mul_scalar,
      mul_inv_cancel₀ hs, HaloCurve.smul_one_scalar]

example : ∃ (w : Var → Fq) (P : CurvePoint Fq) (A : Pt ((ec0.b : ℕ) : Fq)) (bits : List AllocatedBit)
    (vs : List Bool), w (.A 1) = 1 ∧ P.Honest w A ∧ A ≠ 0 ∧
    List.Forall₂ (fun b v => b.Honest w v) bits vs ∧ vs.length = 128 ∧ bitsValue vs = 2 ^ 128 - 1 ∧
    ¬ modulus Fp ∣ bitsValue vs := by
  obtain ⟨P, Q, A, B, h⟩ := points_example (E := ec0) Fp (fun _ => (1 : Fq))
  have e : bitsValue (List.replicate 128 true) = 2 ^ 128 - 1 := by decide +kernel
  refine ⟨_, P, A, List.replicate 128 ⟨some true, .A 1⟩, List.replicate 128 true, rfl, h.1, h.2.2.1,
    forall₂_replicate ⟨rfl, rfl⟩ 128, List.length_replicate, e, fun hd => ?_⟩
  have hm := (LawfulField.modulus_bound (F := Fp)).1
  rw [e] at hd
  have := Nat.le_of_dvd (by norm_num) hd
  omega

/-! ### C52, C53: the scalars of challenges -/

/-- **C52.** The scalar of a challenge is never zero, so it can always be inverted. -/
theorem C52_challenge_scalar_ne_zero {F1 : Type} [Field F1] [LawfulField F1] (ch : F1) :
    (Util.getChallengeScalar ch : S) ≠ 0 ∧ (invert (Util.getChallengeScalar ch : S)).isSome := by
  have := expandChallenge_ne_zero (S := S) (lower128 ch)
  exact ⟨this, by rw [Util.getChallengeScalar, LawfulField.invert_eq _ this]; rfl⟩

/-- **C53.** Two challenges have the same scalar if and only if they agree in the bits 2 to 127. -/
theorem C53_challenge_scalar_injective {F1 : Type} [Field F1] [LawfulField F1] (ch ch' : F1) :
    (Util.getChallengeScalar ch : S) = Util.getChallengeScalar ch' ↔
      LawfulField.val ch % 2 ^ 128 / 4 = LawfulField.val ch' % 2 ^ 128 / 4 := by
  have e : lower128 ch >>> 2 = lower128 ch' >>> 2 ↔
      LawfulField.val ch % 2 ^ 128 / 4 = LawfulField.val ch' % 2 ^ 128 / 4 := by
    rw [← BitVec.toNat_inj, BitVec.toNat_ushiftRight, BitVec.toNat_ushiftRight, LawfulField.lower128_val,
      LawfulField.lower128_val, Nat.shiftRight_eq_div_pow, Nat.shiftRight_eq_div_pow]
  rw [← e]
  exact ⟨expandChallenge_inj, expandChallenge_low⟩

example : (Util.getChallengeScalar (4 : Fp) : Fq) ≠ Util.getChallengeScalar (8 : Fp) ∧
    (Util.getChallengeScalar (4 : Fp) : Fq) = Util.getChallengeScalar (7 : Fp) := by
  have hv : ∀ n : ℕ, n < 2 ^ 254 → LawfulField.val (n : Fp) = n := fun n hn =>
    LawfulField.val_of_lt (hn.trans (LawfulField.modulus_bound (F := Fp)).1)
  have h4 := hv 4 (by norm_num)
  have h7 := hv 7 (by norm_num)
  have h8 := hv 8 (by norm_num)
  push_cast at h4 h7 h8
  rw [Ne, C53_challenge_scalar_injective, C53_challenge_scalar_injective, h4, h7, h8]
  norm_num

end Halo
