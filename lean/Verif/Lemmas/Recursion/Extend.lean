import Verif.Lemmas.Recursion.FollowRun
import Verif.Lemmas.Gadget.EccFast
import Verif.Spec.Attest
/-!
# What the prover's own values say about the old proof
-/
set_option linter.unusedSectionVars false

namespace Halo
namespace Circuit
variable {F : Type} [Field F] {α : Type} {w : Var → F} {one : Var}

/-- What soundness gives may be assumed. -/
theorem Must.given {p : Prog F α} {c : Prop} {Q : α → Prop} (h : Sound w p fun _ => c) (h' : c → Must w p Q) :
    Must w p Q := by
  by_cases hc : c
  · exact h' hc
  · exact (must_of_sound h).mono fun _ hh => absurd hh hc

/-- What holds if the prover's values are satisfying -/
def Logic.must (w : Var → F) : Logic F :=
  ⟨fun p Q => Must w p Q, fun h => h, fun h1 h2 => h1.bind h2, fun h1 h2 => h1.mono h2⟩

/-- All iterations of a loop -/
theorem Must.forEach {f : α → Prog F Unit} {P : α → Prop} : ∀ {xs : List α}, (∀ x ∈ xs, Must w (f x) fun _ => P x) →
    Must w (Sha256.foldProg (fun _ x => f x) xs ()) fun _ => ∀ x ∈ xs, P x
  | [], _ => must_pure (by simp)
  | x :: xs, h => Must.bind (h x (by simp)) fun _ hx =>
      (Must.forEach fun y hy => h y (by simp [hy])).mono fun _ hxs => by
        simp only [List.forall_mem_cons]
        exact ⟨hx, hxs⟩

namespace CurvePoint
variable [DecidableEq F] [LawfulField F] {E : CurveConsts}

/-- If `add_conditionally_incomplete` succeeds, the points have different first coordinates. -/
theorem addConditionallyIncomplete_must {P Q : CurvePoint F} {A B : Pt (E.b : F)} {c : Boolean}
    (hP : P.Honest w A) (hQ : Q.Honest w B) :
    Must w (addConditionallyIncomplete E one P Q c) fun _ => A ≠ B ∧ A ≠ -B := by
  obtain ⟨hx, hy, hf, -, -⟩ := hP.values
  obtain ⟨kx, ky, -, -, -⟩ := hQ.values
  by_cases h : A ≠ B ∧ A ≠ -B
  · exact Must.anyway _ fun _ => h
  have e : (coordinates B).1 - (coordinates A).1 = 0 := by
    have : A = B ∨ A = -B := by tauto
    rcases this with rfl | rfl
    · simp
    · rw [coordinates_neg]; simp
  rw [addConditionallyIncomplete]
  iterate 5 refine Must.skip fun _ => ?_
  refine Must.bind (P := fun _ => False) (must_doMultiply ?_) fun _ h => h.elim
  simp only [hx, hy, kx, ky, both_some, e, LawfulField.invert_zero]
  rintro u ⟨⟩

end CurvePoint
end Circuit

namespace Recursion
open Circuit Proofs Util
open Circuit.Sha256 (foldProg index)
variable {E E1 : CurveConsts} {F S : Type} [Field F] [DecidableEq F] [LawfulField F] [Field S] [DecidableEq S]
  [LawfulField S] {w : Var → F} {one : Var}

local notation s " ⋆ " A => LawfulField.val s • A

/-- If the circuit's commitment to the public inputs succeeds with the prover's values, it is right. -/
theorem kCommitment_must (gc : GoodCurve F E) (h1 : w one = 1) {gens : List (Proj F)} {g : ℕ → Pt (E.b : F)}
    (hg : Gens E gens g) (h2 : 2 ≤ gens.length) {bits : List AllocatedBit} {vs : List Bool}
    (hb : List.Forall₂ (fun b v => b.Honest w v) bits vs) (hl : vs.length ≤ gens.length - 2) :
    Must w (kCommitment E one gens bits) fun R => R.Honest w (inputSum g vs) := by
  have hlen := hb.length_eq
  rw [kCommitment, index, List.getElem?_eq_getElem (by omega)]
  refine Must.bind (P := fun r => r = gens[1]) (by exact rfl) ?_
  rintro _ rfl
  have := (Logic.must w).foldProg (f := fun (acc : CurvePoint F) (e : AllocatedBit × Proj F) =>
      CurvePoint.addConditionallyIncomplete E one acc (.const e.2.x e.2.y) (Boolean.is e.1))
    (xs := bits.zip (gens.drop 2)) (s := .const gens[1].x gens[1].y)
    (fun i R => R.Honest w (inputSum g (vs.take i)) ∧ inputSum g (vs.take i) ≠ 0) 0
    (by rw [List.take_zero, inputSum_nil]; exact const_honest (hg 1 _).1 (hg 1 _).2) ?_
  · rw [zero_add, List.length_zip, List.length_drop, hlen, min_eq_left hl, List.take_length] at this
    exact Must.mono this fun _ h => h.1
  · intro i e R he hR
    rw [zero_add] at hR ⊢
    obtain ⟨hi, he⟩ := List.getElem?_eq_some_iff.1 he
    rw [List.length_zip, List.length_drop] at hi
    have hi' : i < vs.length := by omega
    rw [List.getElem_zip, List.getElem_drop] at he
    subst he
    rw [inputSum_take_succ hi']
    obtain ⟨hz, hd⟩ := hg (2 + i) (by omega)
    obtain ⟨hh, hne⟩ := const_honest (w := w) hz hd
    rw [show g (2 + i) = g (i + 2) by rw [add_comm]] at hh hne
    obtain ⟨hR, h0⟩ := hR
    by_cases hap : inputSum g (vs.take i) ≠ g (i + 2) ∧ inputSum g (vs.take i) ≠ -g (i + 2)
    · refine Must.mono (must_of_complete (CurvePoint.addConditionallyIncomplete_complete gc h1 hR hh
        ((List.forall₂_iff_get.1 hb).2 i (by omega) hi') h0 hne hap.1 hap.2)) fun R hR => ?_
      simp only [List.get_eq_getElem] at hR
      refine ⟨hR, ?_⟩
      split
      · exact fun h => hap.2 (eq_neg_iff_add_eq_zero.2 h)
      · exact h0
    · exact Must.mono (CurvePoint.addConditionallyIncomplete_must hR hh) fun _ h => absurd h hap

/-- If the circuit's check of a deferred record succeeds with the prover's values, the record is true. -/
theorem verifyDeferred_must (h1 : w one = 1) {k : ℕ} {bits : List AllocatedBit} {vs : List Bool}
    (h : List.Forall₂ (fun b v => b.Honest w v) bits vs) :
    Must w (verifyDeferred one k bits : Prog F Unit) fun _ =>
      WellFormedDeferred k (deferredOf k vs : Deferred F) ∧ TrueDeferred k (deferredOf k vs : Deferred F) := by
  refine Must.given (verifyDeferred_holds (hon := false) h1 (bitsOk_false.2 (h.imp fun _ _ h => h.1)) nofun) ?_
  rintro ⟨hlen, hk, hx, hy, hloose⟩
  have hlo : (deferredOf k vs : Deferred F).challengesSqPackedOld.length = k := by simp [deferredOf]
  have hln : (deferredOf k vs : Deferred F).challengesSqPackedNew.length = k := by simp [deferredOf]
  have hsq : ∀ {ps us : List F}, AnyRoots ps us → ∀ p ∈ ps, IsSquare (Util.getChallengeScalar p : F) := by
    intro ps us h
    induction h with
    | nil => simp
    | @cons p u ps us hp _ ih =>
      intro q hq
      rcases List.mem_cons.1 hq with rfl | hq
      · exact ⟨u, hp.symm⟩
      · exact ih q hq
  have hwf : WellFormedDeferred k (deferredOf k vs : Deferred F) :=
    ⟨hk, hx, hy, fun e => by rw [e, List.length_nil] at hlo; omega, fun e => by rw [e, List.length_nil] at hln; omega,
      hsq hloose.old.choose_spec.1, hsq hloose.new.choose_spec.1⟩
  refine Must.bind (must_of_complete (unpackDeferred_holds (hon := true) h1 (bitsOk_true.2 h) fun _ => hlen))
    fun n ⟨_, hn⟩ => ?_
  revert hn hwf hloose
  generalize (deferredOf k vs : Deferred F) = d at *
  intro hloose hwf hn
  refine Must.bind (must_of_complete (deferredSides_holds (hon := true) h1 hn fun _ => ⟨hx, hy, hk⟩))
    fun r ⟨_, _, _, hxy, lhs, rhs, hl, hr, hrel⟩ => ?_
  refine Must.skip fun _ => ?_
  refine Must.bind (must_of_complete (rootsOf_holds (hon := true) h1 hn.challengesSqOld fun _ => hwf.old_sq))
    fun ro ⟨uo, o1, o2, o3, o4⟩ => ?_
  have huo : uo ≠ [] := by
    rintro rfl
    have := List.Forall₂.length_eq o1
    rw [List.length_nil] at this
    omega
  have enf : ∀ {a : Combination F} {n : AllocatedNum F} {u v : F}, CombIs true w a u → NumIs true w n v →
      Must w (enforceIs one a n) fun _ => v = u := by
    intro a n u v ha hn
    refine must_enforce fun he => ?_
    rw [LC.eval_subVar, Combination.eval_lc h1, ha.2, hn.2, sub_eq_zero] at he
    exact he.symm
  refine Must.bind (must_of_complete (collapse_holds (hon := true) h1 huo o3 o4 hn.x)) fun gx hgx => ?_
  refine Must.bind (enf hgx hn.gxOldOpening) fun _ egx => ?_
  refine Must.bind (must_of_complete (rootsOf_holds (hon := true) h1 hn.challengesSqNew fun _ => hwf.new_sq))
    fun rn ⟨un, n1, n2, n3, n4⟩ => ?_
  have hun : un ≠ [] := by
    rintro rfl
    have := List.Forall₂.length_eq n1
    rw [List.length_nil] at this
    omega
  refine Must.bind (must_of_complete (collapse_holds (hon := true) h1 hun n3 n4 hn.x)) fun c1 b1 => ?_
  refine Must.bind (must_of_complete (collapse_holds (hon := true) h1 hun n3 n4 hxy)) fun c2 b2 => ?_
  refine Must.bind (must_of_complete (collapse_holds (hon := true) h1 hun n3 n4 hn.yOld)) fun c3 b3 => ?_
  refine Must.bind (must_of_complete (collapse_holds (hon := true) h1 hun n3 n4 hn.yCur)) fun c4 b4 => ?_
  refine Must.bind (must_of_complete (collapse_holds (hon := true) h1 hun n3 n4 hn.yNew)) fun c5 b5 => ?_
  refine Must.bind (enf b1 hn.bX) fun _ f1 => ?_
  refine Must.bind (enf b2 hn.bXy) fun _ f2 => ?_
  refine Must.bind (enf b3 hn.bYOld) fun _ f3 => ?_
  refine Must.bind (enf b4 hn.bYCur) fun _ f4 => ?_
  refine (enf b5 hn.bYNew).mono fun _ f5 => ?_
  exact ⟨hwf, hloose.relation, ⟨uo, o2 rfl, egx⟩, un, n2 rfl, f1, f2, f3, f4, f5⟩

/-- Points with the same coordinates are the same. -/
theorem pt_eq (gc : GoodCurve F E) {A B : Pt (E.b : F)} (h : coordinates A = coordinates B) : A = B := by
  have key : ∀ C : Pt (E.b : F), C ≠ 0 → coordinates C ≠ (0, 0) := by
    intro C hC he
    have := coordinates_pt C hC
    rw [he] at this
    exact gc.no_two_torsion 0 (by simpa using this.symm)
  by_cases hA : A = 0
  · by_contra hB
    subst hA
    exact key B (fun e => hB e.symm) h.symm
  by_cases hB : B = 0
  · subst hB
    exact absurd h (key A hA)
  exact pt_ext hA hB h

/-- The scalar is determined by the multiple of the generator. -/
theorem smul_inj [HaloCurve E F S] {G : Pt (E.b : F)} (hG : G ≠ 0) {a b : S} (h : (a ⋆ G) = b ⋆ G) : a = b := by
  have e : ((a - b) ⋆ G) = 0 := by
    have := HaloCurve.smul_add_scalar (E := E) (F := F) (S := S) (a - b) b G
    rw [sub_add_cancel, h] at this
    exact add_eq_right.1 this.symm
  rw [CurvePoint.nsmul_eq_zero_iff S hG] at e
  have := Nat.eq_zero_of_dvd_of_lt e (LawfulField.val_lt _)
  exact sub_eq_zero.1 (LawfulField.val_inj (by rw [this, LawfulField.val_zero]))

theorem samePoint_must (gc : GoodCurve F E) (h1 : w one = 1) {b : AllocatedBit} (hb : b.Honest w false)
    {P Q : CurvePoint F} {A B : Pt (E.b : F)} (hP : PtOk True w P A) (hQ : PtOk True w Q B) :
    Must w (samePoint one b P Q) fun _ => A = B := by
  obtain ⟨A', hA, eA⟩ := hP
  obtain ⟨B', hB, eB⟩ := hQ
  obtain rfl := eA trivial
  obtain rfl := eB trivial
  refine must_of_sound (Sound.bind (numEqual_sound h1 hb.1 _ _) fun _ e1 =>
    (numEqual_sound h1 hb.1 _ _).mono fun _ e2 => pt_eq gc ?_)
  simp only [Bool.false_eq_true, false_or, Combination.wire_ofNum] at e1 e2
  rw [← hA.xy.xy, ← hB.xy.xy, e1, e2]

theorem checkEntry_must [HaloCurve E F S] (h1 : w one = 1) {c : VerificationCircuit F S} {b : AllocatedBit}
    (hb : b.Honest w false) {G GN : Pt (E.b : F)} (hG : G ≠ 0) {g gNew : CurvePoint F}
    (hg : PtOk True w g G) (hgn : PtOk True w gNew GN)
    {e : ((CurvePoint F × CurvePoint F) × List AllocatedBit) × ℕ} {a : S}
    (ha : finalScalar c.proof e.2 = (.pure a : Prog F S)) {y v : S} {A : Pt (E.b : F)}
    (hy : BsOk True w e.1.2 (bytesBits (bytes32 y))) (hp : PtOk True w e.1.1.1 A) (hq : PtOk True w e.1.1.2 (v ⋆ G)) :
    Must w (checkEntry E one c b gNew g e) fun _ => A = (a ⋆ GN) ∧ v = a * y := by
  have gc := HaloCurve.good E F S
  rw [checkEntry, ha]
  refine Must.bind (P := fun r => r = a) (by exact rfl) ?_
  rintro _ rfl
  refine Must.bind (must_of_complete (witnessBits_follow (N := True) _)) fun bits hbits => ?_
  refine Must.bind (must_of_complete (multiply_follow (S := S) h1 hgn hbits)) fun ag hag => ?_
  refine Must.bind (samePoint_must gc h1 hb hp hag) fun _ e1 => ?_
  refine Must.bind (must_of_complete (multiply_follow (S := S) h1 hg hbits)) fun tmp htmp => ?_
  refine Must.bind (must_of_complete (multiply_follow (S := S) h1 htmp hy)) fun abg habg => ?_
  refine (samePoint_must gc h1 hb hq habg).mono fun _ e2 => ⟨e1, ?_⟩
  rw [← HaloCurve.smul_mul_scalar, mul_comm] at e2
  exact smul_inj hG e2

end Recursion
end Halo
