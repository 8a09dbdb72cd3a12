import Verif.Lemmas.Cost.Circuit
/-! # The size of the verification circuit -/
set_option linter.unusedSectionVars false
namespace Halo
namespace Recursion
open Circuit RescueGadget Proofs
open Circuit.Sha256 (foldProg index)
variable {F S : Type} [Field F] [DecidableEq F] [FieldApi F] [Field S] [DecidableEq S] [FieldApi S] {one : Var}
  {E1 E2 : CurveConsts}

attribute [local irreducible] RescueGadget.new commitPoint commitWitness commitMultiple getChallenge

/-- What the second half of `verify_proof` needs to know about the first -/
def Committed.Sized (d : Committed F) : Prop := d.x.length = 128 ∧ d.yCur.length = 128 ∧ d.yNew.length = 128

theorem costs_commitAll {self : VerificationCircuit F S} {kc : CurvePoint F} (hk : kc.Allocated)
    {newDeferred : List AllocatedBit} : Costs (commitAll E2 one self kc newDeferred) 10777 49761 112087 fun r =>
      r.1.Sized ∧ At true 0 r.2 := by
  unfold commitAll
  have hs : ∀ {a : ℕ}, a + 256 - a = 256 := by omega
  refine Costs.free costs_new fun t h => ?_
  refine Costs.free (costs_commitPoint h (by omega) hk) fun t h => ?_
  refine Costs.bind (costs_commitWitness h (by omega)) (by omega) (by omega) (by omega) fun ⟨_, t⟩ ⟨_, h⟩ => ?_
  refine Costs.bind (costs_getChallenge h (by omega)) (by simp) (by simp) (by simp) fun ⟨_, t⟩ ⟨h, h1⟩ => ?_
  iterate 3 refine Costs.bind (costs_commitWitness h (by omega)) (by simp) (by simp) (by simp) fun ⟨_, t⟩ ⟨_, h⟩ => ?_
  refine Costs.bind (costs_getChallenge h (by omega)) (by simp) (by simp) (by simp) fun ⟨_, t⟩ ⟨h, h2⟩ => ?_
  refine Costs.bind (costs_commitWitness h (by omega)) (by simp) (by simp) (by simp) fun ⟨_, t⟩ ⟨_, h⟩ => ?_
  refine Costs.bind (costs_getChallenge h (by omega)) (by simp) (by simp) (by simp) fun ⟨_, t⟩ ⟨h, h3⟩ => ?_
  refine Costs.bind (costs_commitWitness h (by omega)) (by simp) (by simp) (by simp) fun ⟨_, t⟩ ⟨_, h⟩ => ?_
  refine Costs.free costs_generator fun g _ => ?_
  iterate 3
    refine Costs.free costs_slice fun bits hb => ?_
    refine Costs.bind (costs_commitMultiple h (by omega) (hb.trans hs)) (by simp) (by simp) (by simp) fun ⟨_, t⟩ ⟨_, h⟩ => ?_
  refine Costs.bind (costs_commitWitness h (by omega)) (by simp) (by simp) (by simp) fun ⟨_, t⟩ ⟨_, h⟩ => ?_
  refine Costs.free costs_slice fun bits hb => ?_
  refine Costs.bind (costs_commitMultiple h (by omega) (hb.trans hs)) (by simp) (by simp) (by simp) fun ⟨_, t⟩ ⟨_, h⟩ => ?_
  refine Costs.free costs_slice fun bits hb => ?_
  refine Costs.bind (costs_commitMultiple_full h (hb.trans hs)) (by simp) (by simp) (by simp) fun ⟨_, t⟩ ⟨_, h⟩ => ?_
  refine Costs.free costs_slice fun bits hb => ?_
  refine Costs.bind (costs_commitMultiple h (by omega) (hb.trans hs)) (by simp) (by simp) (by simp) fun ⟨_, t⟩ ⟨_, h⟩ => ?_
  refine Costs.bind (costs_commitWitness h (by omega)) (by simp) (by simp) (by simp) fun ⟨_, t⟩ ⟨_, h⟩ => ?_
  refine Costs.free costs_slice fun bits hb => ?_
  refine Costs.bind (costs_commitMultiple h (by omega) (hb.trans (by omega))) (by simp) (by simp) (by simp)
    fun ⟨_, t⟩ ⟨_, h⟩ => ?_
  refine Costs.bind (costs_getChallenge h (by omega)) (by simp) (by simp) (by simp) fun ⟨_, t⟩ ⟨h, _⟩ => ?_
  exact (costs_pure ⟨⟨h2, h1, h3⟩, h⟩).eq (by simp) (by simp) (by simp)

attribute [local irreducible] commitAll mulAdd slice generator

theorem costs_combineAll {k : ℕ} {kc sOld gOld : CurvePoint F} {d : Committed F} {newDeferred : List AllocatedBit} :
    Costs (combineAll E2 one k kc sOld gOld d newDeferred) 1848 6538 14896 fun is =>
      is.length = 5 ∧ ∀ e ∈ is, e.2.length = 256 := by
  unfold combineAll
  iterate 14 refine Costs.bind costs_mulAdd (by omega) (by omega) (by omega) fun _ _ => ?_
  refine Costs.free costs_slice fun b0 h0 => ?_
  refine Costs.free costs_slice fun b1 h1 => ?_
  refine Costs.free costs_slice fun b2 h2 => ?_
  refine Costs.free costs_slice fun b3 h3 => ?_
  refine Costs.free costs_slice fun b4 h4 => ?_
  rw [Nat.add_sub_cancel_left] at h0 h1 h2 h3 h4
  refine costs_pure ⟨rfl, fun e he => ?_⟩
  simp only [List.mem_cons, List.not_mem_nil, or_false] at he
  rcases he with rfl | rfl | rfl | rfl | rfl <;> assumption

theorem costs_challengeIs {k : ℕ} {b : AllocatedBit} {newDeferred newLeftovers : List AllocatedBit}
    {e : List AllocatedBit × ℕ} (he : e.1.length = 128) :
    Costs (challengeIs one k b newDeferred newLeftovers e : Prog F _) 0 2 6 fun _ => True := by
  unfold challengeIs
  exact Costs.then costs_slice fun _ _ => Costs.then (costs_equal he) fun _ _ => Costs.then costs_slice fun _ _ => costs_equal he

theorem costs_verifyProof {self : VerificationCircuit F S} {b : AllocatedBit} {kc : CurvePoint F} (hk : kc.Allocated)
    {oldLeftovers newDeferred newLeftovers : List AllocatedBit} :
    Costs (verifyProof E2 one self b kc oldLeftovers newDeferred newLeftovers) (35671 + 2706 * self.params.k)
      (155682 + 12868 * self.params.k) (352680 + 28394 * self.params.k) fun _ => True := by
  unfold verifyProof
  refine Costs.bind (costs_commitAll hk) (by omega) (by omega) (by omega) fun ⟨d, t⟩ ⟨⟨h1, h2, h3⟩, h⟩ => ?_
  refine Costs.bind CurvePoint.costs_witness (by omega) (by omega) (by omega) fun _ _ => ?_
  refine Costs.bind costs_pointIs (by omega) (by omega) (by omega) fun _ _ => ?_
  refine Costs.bind CurvePoint.costs_witness (by omega) (by omega) (by omega) fun _ _ => ?_
  refine Costs.bind costs_pointIs (by omega) (by omega) (by omega) fun _ _ => ?_
  refine Costs.bind costs_combineAll (by omega) (by omega) (by omega) fun is his => ?_
  refine Costs.bind (costs_verifyInnerProduct h his.1 his.2) (by omega) (by omega) (by omega) fun ⟨_, cs⟩ hcs => ?_
  refine Costs.bind costs_pointIs (by omega) (by omega) (by omega) fun _ _ => ?_
  refine Costs.free costs_slice fun _ _ => ?_
  refine Costs.bind (costs_equal h3) (by omega) (by omega) (by omega) fun _ _ => ?_
  refine Costs.bind costs_pointIs (by omega) (by omega) (by omega) fun _ _ => ?_
  refine Costs.bind (R := fun _ => True) ((costs_foldProg (fun _ e he _ => costs_challengeIs ?_) trivial).eq (a' := 0)
    (m' := 2 * self.params.k) (l' := 6 * self.params.k) ?_ ?_ ?_) (by omega) (by omega) (by omega) fun _ _ => ?_
  · exact hcs.2 _ (by rw [(List.mem_zipIdx he).2.2]; exact List.getElem_mem _)
  · simp
  · rw [List.length_zipIdx, hcs.1, mul_comm]
  · rw [List.length_zipIdx, hcs.1, mul_comm]
  refine Costs.free costs_slice fun _ _ => ?_
  refine Costs.bind (costs_equal h1) (by omega) (by omega) (by omega) fun _ _ => ?_
  refine Costs.free costs_slice fun _ _ => ?_
  refine Costs.bind (costs_equal h2) (by omega) (by omega) (by omega) fun _ _ => ?_
  refine Costs.free costs_slice fun _ _ => ?_
  exact (costs_equal h3).eq (by omega) (by omega) (by omega)

attribute [local irreducible] combineAll verifyInnerProduct verifyProof pointIs equalUnlessBaseCase

theorem costs_inputBits {bits : List Bool} {n : ℕ} (h : bits.length = n) :
    Costs (inputBits bits : Prog F _) n 0 n fun r => r.length = n :=
  ((costs_mapProg fun _ _ => AllocatedBit.costs_allocInputUnchecked).weaken fun _ hr => hr.1.trans h).eq (by omega) (by omega)
    (by omega)

theorem costs_privateBits {bits : List Bool} {n : ℕ} (h : bits.length = n) :
    Costs (privateBits bits : Prog F _) 0 n (2 * n) fun r => r.length = n :=
  ((costs_mapProg fun _ _ => AllocatedBit.costs_alloc).weaken fun _ hr => hr.1.trans h).eq (by omega) (by omega)
    (by omega)

theorem costs_checks {bits : List AllocatedBit} {n : ℕ} (h : bits.length = n) :
    Costs (foldProg (fun _ b => AllocatedBit.check b) bits () : Prog F _) 0 n (3 * n) fun _ => True :=
  (costs_foldProg (fun _ _ _ _ => AllocatedBit.costs_check) trivial).eq (by omega) (by omega) (by omega)

theorem costs_basePayloadIs {b : AllocatedBit} {e : Bool × AllocatedBit} :
    Costs (basePayloadIs one b e : Prog F _) 0 1 3 fun _ => True := by
  obtain ⟨_ | _, _⟩ := e <;> cost_leaf

theorem costs_kCommitment {gens : List (Proj F)} {bits : List AllocatedBit} {n : ℕ} (h : bits.length = n) (h0 : 0 < n)
    (hg : n + 2 ≤ gens.length) : Costs (kCommitment E2 one gens bits) (2 * n) (6 * n) (14 * n) CurvePoint.Allocated := by
  unfold kCommitment
  refine Costs.free (costs_index (R := fun _ => True) fun _ _ => trivial) fun g _ => ?_
  have hz : (bits.zip (gens.drop 2)).length = n := by rw [List.length_zip, List.length_drop]; omega
  refine (CurvePoint.costs_foldProg_last (fun _ _ _ => CurvePoint.costs_addConditionallyIncomplete) fun h => ?_).eq ?_ ?_ ?_
  · rw [h] at hz; exact absurd hz h0.ne
  all_goals rw [hz, mul_comm]

attribute [local irreducible] kCommitment inputBits privateBits leftoversBits deferredBits

/-- The circuit without values. `n` is the number of bits of the payload. -/
theorem above_synthesize {params : Params (Proj F)} {inner : RecursiveCircuit F} {payload : List (BitVec 8)} {n : ℕ}
    {Q : ℕ → ℕ → ℕ → Prop}
    (hk : 2 ≤ params.k) (hn : inner.basePayload.length = n) (hp : 8 * payload.length = n)
    (hg : n + 5890 + 512 * params.k ≤ params.generators.length)
    (hd : ∀ d, Deferred.dummy F params.k = some d → (bytesBits d.toBytes).length = deferredBits params.k)
    (hi : ∀ old new : List AllocatedBit, old.length = n → new.length = n → Asks (inner.synthesize one old new) Q) :
    Above ((blankCircuit params inner payload : VerificationCircuit F S).synthesize E1 E2 one)
      (53353 + 3 * n + 4248 * params.k) (201630 + 9 * n + 16992 * params.k + (128 * params.k + 249) / 250)
      (468154 + 23 * n + 38696 * params.k + 3 * ((128 * params.k + 249) / 250)) Q := by
  unfold VerificationCircuit.synthesize blankCircuit
  generalize hc : (128 * params.k + 249) / 250 = c
  simp only [Option.map_none, bitsOr, oldDeferredBytes]
  have hlo : leftoversBits params.k = 1152 + 128 * params.k := by unfold leftoversBits; omega
  have hdf : deferredBits params.k = 3584 + 256 * params.k := by unfold deferredBits; omega
  refine Above.after (costs_inputBits ((length_bytesBits _).trans hp)) (by omega) (by omega) (by omega) fun pb hpb => ?_
  refine Above.after (costs_inputBits (List.length_replicate.trans hlo)) (by omega) (by omega) (by omega) fun l1 hl1 => ?_
  refine Above.after (costs_inputBits (List.length_replicate.trans hlo)) (by omega) (by omega) (by omega) fun l2 hl2 => ?_
  refine Above.after (costs_inputBits (List.length_replicate.trans hdf)) (by omega) (by omega) (by omega) fun d hd' => ?_
  refine Above.after (costs_checks hpb) (by omega) (by omega) (by omega) fun _ _ => ?_
  refine Above.after (costs_checks hl1) (by omega) (by omega) (by omega) fun _ _ => ?_
  refine Above.after (costs_checks hl2) (by omega) (by omega) (by omega) fun _ _ => ?_
  refine Above.after (costs_checks hd') (by omega) (by omega) (by omega) fun _ _ => ?_
  refine Above.after AllocatedBit.costs_alloc (by omega) (by omega) (by omega) fun b _ => ?_
  rw [if_neg (by omega)]
  refine Above.after (costs_privateBits hn) (by omega) (by omega) (by omega) fun op hop => ?_
  refine Above.after (R := fun _ => True) ((costs_foldProg (fun _ _ _ _ => costs_basePayloadIs) trivial).eq (a' := 0)
    (m' := n) (l' := 3 * n) ?_ ?_ ?_) (by omega) (by omega) (by omega) fun _ _ => ?_
  · simp
  · rw [List.length_zip, hn, hop, Nat.min_self, mul_one]
  · rw [List.length_zip, hn, hop, Nat.min_self, mul_comm]
  refine Above.after (costs_privateBits (List.length_replicate.trans hlo)) (by omega) (by omega) (by omega) fun ol hol => ?_
  refine Above.free (R := fun bytes => (bytesBits bytes).length = 3584 + 256 * params.k) ?_ fun bytes hby => ?_
  · exact Costs.then (costs_orPanic (R := fun d => Deferred.dummy F params.k = some d) fun d h => h) fun d h =>
      costs_pure ((hd d h).trans hdf)
  refine Above.after (costs_privateBits hby) (by omega) (by omega) (by omega) fun od hod => ?_
  rw [if_neg (by rw [hod, hd']; exact not_not.2 rfl)]
  refine Above.after (costs_kCommitment (n := n + 5888 + 512 * params.k) ?_ (by omega) (by omega)) (by omega) (by omega)
    (by omega) fun kc hkc => ?_
  · simp only [List.length_append, hop, hol, hl1, hod]; ring
  refine Above.after costs_verifyDeferred (by omega) (by omega) (by omega) fun _ _ => ?_
  refine Above.after (costs_verifyProof hkc) (by simp only; omega) (by simp only; omega) (by simp only; omega) fun _ _ => ?_
  refine Above.free costs_slice fun s1 hs1 => Above.free costs_slice fun s2 _ => ?_
  refine Above.after (costs_equal (n := 128 * params.k) (by rw [hs1]; omega)) (by omega) (by simp only; omega)
    (by simp only; omega) fun _ _ => ?_
  refine Above.free costs_slice fun s3 hs3 => Above.free costs_slice fun s4 _ => ?_
  refine Above.after (costs_equal (n := 128) (by rw [hs3])) (by omega) (by simp only; omega) (by simp only; omega)
    fun _ _ => ?_
  exact (hi op pb hop hpb).above (by simp only; omega) (by simp only; omega) (by simp only; omega)

end Recursion
end Halo
