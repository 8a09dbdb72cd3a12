import Verif.Lemmas.Cost.Gadgets
import Verif.Model.Recursion.Proof
/-!
# The size of the verification circuit
-/
set_option linter.unusedSectionVars false
namespace Halo
namespace Recursion
open Circuit RescueGadget Proofs
open Circuit.Sha256 (foldProg index)
variable {F S : Type} [Field F] [DecidableEq F] [FieldApi F] [Field S] [DecidableEq S] [FieldApi S] {one : Var}
  {E1 E2 : CurveConsts}

theorem costs_commitWitness {b : Bool} {n : ℕ} {t : RescueGadget F} (h : At b n t) (hn : n < 11) {p : Proj F} :
    Costs (commitWitness E2 one t p) 2 5 11 fun r => r.1.Allocated ∧ At b (n + 2) r.2 := by
  unfold commitWitness
  exact Costs.then CurvePoint.costs_witness fun _ hp => Costs.then (costs_commitPoint h hn hp) fun _ ht => costs_pure ⟨hp, ht⟩

theorem costs_commitMultiple {b : Bool} {n : ℕ} {t : RescueGadget F} (h : At b n t) (hn : n < 11) {g : CurvePoint F}
    {bits : List AllocatedBit} (hb : bits.length = 256) :
    Costs (commitMultiple E2 one g bits t) 1536 6400 14592 fun r => r.1.Allocated ∧ At b (n + 2) r.2 := by
  unfold commitMultiple
  exact Costs.then (CurvePoint.costs_multiply hb) fun _ hp => Costs.then (costs_commitPoint h hn hp) fun _ ht =>
    costs_pure ⟨hp, ht⟩

theorem costs_commitMultiple_full {t : RescueGadget F} (h : At true 12 t) {g : CurvePoint F}
    {bits : List AllocatedBit} (hb : bits.length = 256) :
    Costs (commitMultiple E2 one g bits t) 1537 7180 16153 fun r => r.1.Allocated ∧ At true 2 r.2 := by
  unfold commitMultiple
  exact Costs.then (CurvePoint.costs_multiply hb) fun _ hp => Costs.then (costs_commitPoint_full h hp) fun _ ht =>
    costs_pure ⟨hp, ht⟩

theorem costs_generator : Costs (generator E2 : Prog F _) 0 0 0 fun _ => True := by
  unfold generator
  exact Costs.free (costs_orPanic (R := fun _ => True) fun _ _ => trivial) fun ⟨_, _⟩ _ => costs_pure trivial

theorem costs_pointIs {b : AllocatedBit} {p : CurvePoint F} {bits : List AllocatedBit} {i : ℕ} :
    Costs (pointIs one b p bits i) 0 516 1038 fun _ => True := by
  unfold pointIs
  exact Costs.then costs_unpackFe fun _ hx => Costs.then costs_unpackFe fun _ hy => Costs.then costs_slice fun _ _ =>
    Costs.then (costs_equal hx) fun _ _ => Costs.then costs_slice fun _ _ => costs_equal hy

theorem costs_mulAdd {z : List AllocatedBit} {p q : CurvePoint F} : Costs (mulAdd E2 one z p q) 132 467 1064 fun _ => True := by
  unfold mulAdd
  exact Costs.then CurvePoint.costs_multiplyEndo fun _ _ => CurvePoint.costs_add.weaken fun _ _ => trivial

theorem costs_foldEntry {z : List AllocatedBit} {pv : CurvePoint F × CurvePoint F}
    {e : CurvePoint F × CurvePoint F × CurvePoint F × CurvePoint F} :
    Costs (foldEntry E2 S one z pv e) 532 1878 4282 fun _ => True := by
  unfold foldEntry
  exact Costs.then CurvePoint.costs_multiplyEndo fun _ _ => Costs.then CurvePoint.costs_multiplyInvEndo fun _ _ =>
    Costs.then CurvePoint.costs_multiplyEndo fun _ _ => Costs.then CurvePoint.costs_multiplyInvEndo fun _ _ =>
    Costs.then CurvePoint.costs_add fun _ _ => Costs.then CurvePoint.costs_add fun _ _ =>
    Costs.then CurvePoint.costs_add fun _ _ => Costs.then CurvePoint.costs_add fun _ _ => costs_pure trivial

theorem costs_roundEntry {proof : Option (RecursiveProof F S)} {i j : ℕ} :
    Costs (roundEntry E2 proof i j) 0 0 0 fun _ => True := by
  unfold roundEntry
  have hi : ∀ {α : Type} {l : List α} {i : ℕ}, Costs (index l i : Prog F α) 0 0 0 fun _ => True :=
    costs_index fun _ _ => trivial
  split
  · exact costs_pure trivial
  · exact Costs.then hi fun _ _ => Costs.then hi fun _ _ => Costs.then hi fun _ _ => Costs.then hi fun _ _ =>
      Costs.then hi fun _ _ => costs_pure trivial

/-- `n'` is where the sponge is after eight values, and `d` whether it was full in between. -/
theorem costs_witnessEntry {proof : Option (RecursiveProof F S)} {i j n : ℕ}
    {s : List (CurvePoint F × CurvePoint F × CurvePoint F × CurvePoint F) × RescueGadget F} {m : ℕ} (hm : s.1.length = m)
    {n' d : ℕ} (h : At true n s.2) (hn : n = 0 ∧ n' = 8 ∧ d = 0 ∨ n = 8 ∧ n' = 4 ∧ d = 1 ∨ n = 4 ∧ n' = 12 ∧ d = 0 ∨
      n = 12 ∧ n' = 8 ∧ d = 1) :
    Costs (witnessEntry E2 one proof i s j) (8 + d) (20 + 780 * d) (44 + 1561 * d) fun r =>
      At true n' r.2 ∧ r.1.length = m + 1 := by
  unfold witnessEntry
  refine Costs.free costs_roundEntry fun ⟨_, _, _, _⟩ _ => ?_
  refine Costs.bind CurvePoint.costs_witness (by omega) (by omega) (by omega) fun L hL => ?_
  refine Costs.bind CurvePoint.costs_witness (by omega) (by omega) (by omega) fun R hR => ?_
  refine Costs.bind CurvePoint.costs_witness (by omega) (by omega) (by omega) fun l hl => ?_
  refine Costs.bind CurvePoint.costs_witness (by omega) (by omega) (by omega) fun r hr => ?_
  rcases hn with ⟨rfl, rfl, rfl⟩ | ⟨rfl, rfl, rfl⟩ | ⟨rfl, rfl, rfl⟩ | ⟨rfl, rfl, rfl⟩
  · exact Costs.then (costs_commitPoint h (by omega) hL) fun _ h => Costs.then (costs_commitPoint h (by omega) hR) fun _ h =>
      Costs.then (costs_commitPoint h (by omega) hl) fun _ h => Costs.then (costs_commitPoint h (by omega) hr) fun _ h =>
      costs_pure ⟨h, by simp [hm]⟩
  · exact Costs.then (costs_commitPoint h (by omega) hL) fun _ h => Costs.then (costs_commitPoint h (by omega) hR) fun _ h =>
      Costs.then (costs_commitPoint_full h hl) fun _ h => Costs.then (costs_commitPoint h (by omega) hr) fun _ h =>
      costs_pure ⟨h, by simp [hm]⟩
  · exact Costs.then (costs_commitPoint h (by omega) hL) fun _ h => Costs.then (costs_commitPoint h (by omega) hR) fun _ h =>
      Costs.then (costs_commitPoint h (by omega) hl) fun _ h => Costs.then (costs_commitPoint h (by omega) hr) fun _ h =>
      costs_pure ⟨h, by simp [hm]⟩
  · exact Costs.then (costs_commitPoint_full h hL) fun _ h => Costs.then (costs_commitPoint h (by omega) hR) fun _ h =>
      Costs.then (costs_commitPoint h (by omega) hl) fun _ h => Costs.then (costs_commitPoint h (by omega) hr) fun _ h =>
      costs_pure ⟨h, by simp [hm]⟩

theorem costs_forkValue {fs : Option (List ℕ)} {i : ℕ} : Costs (forkValue fs i : Prog F _) 0 0 0 fun _ => True := by
  unfold forkValue
  split
  · exact costs_pure trivial
  · exact Costs.then (costs_index (R := fun _ => True) fun _ _ => trivial) fun _ _ => costs_pure trivial

theorem costs_witnessEntries {proof : Option (RecursiveProof F S)} {i : ℕ} {t : RescueGadget F} (h : At true 0 t) :
    Costs (foldProg (witnessEntry E2 one proof i) (List.range 5) ([], t)) 43 2440 4903 fun r =>
      At true 4 r.2 ∧ r.1.length = 5 := by
  rw [show List.range 5 = [0, 1, 2, 3, 4] from rfl]
  unfold foldProg
  refine Costs.bind (costs_witnessEntry (m := 0) rfl (n' := 8) (d := 0) h (by omega)) (by omega) (by omega) (by omega)
    fun s hs => ?_
  unfold foldProg
  refine Costs.bind (costs_witnessEntry hs.2 (n' := 4) (d := 1) hs.1 (by omega)) (by omega) (by omega) (by omega)
    fun s hs => ?_
  unfold foldProg
  refine Costs.bind (costs_witnessEntry hs.2 (n' := 12) (d := 0) hs.1 (by omega)) (by omega) (by omega) (by omega)
    fun s hs => ?_
  unfold foldProg
  refine Costs.bind (costs_witnessEntry hs.2 (n' := 8) (d := 1) hs.1 (by omega)) (by omega) (by omega) (by omega)
    fun s hs => ?_
  unfold foldProg
  refine Costs.bind (costs_witnessEntry hs.2 (n' := 4) (d := 1) hs.1 (by omega)) (by omega) (by omega) (by omega)
    fun s hs => ?_
  exact costs_pure hs

/-- The state of the loop over the rounds, after `m` rounds -/
def RoundsDone (m : ℕ) (s : RoundState F) : Prop :=
  At true 0 s.transcript ∧ s.pv.length = 5 ∧ s.challenges.length = m ∧ ∀ c ∈ s.challenges, c.length = 128

theorem costs_verifyRound {self : VerificationCircuit F S} {s : RoundState F} {i m : ℕ} (h : RoundsDone m s) :
    Costs (verifyRound E2 one self s i) 2706 12866 28388 (RoundsDone (m + 1)) := by
  unfold verifyRound
  rw [h.2.1]
  refine Costs.bind (costs_witnessEntries h.1) (by omega) (by omega) (by omega) fun ⟨tmp, t⟩ ht => ?_
  refine Costs.free costs_forkValue fun v _ => ?_
  refine Costs.bind AllocatedNum.costs_alloc (by omega) (by omega) (by omega) fun f _ => ?_
  refine Costs.free (costs_absorb ht.1 (by omega) rfl) fun t hta => ?_
  refine Costs.bind (costs_getChallenge hta (by omega)) (by simp) (by simp) (by simp) fun ⟨c, t⟩ hc => ?_
  have hl : (s.pv.zip tmp).length = 5 := by rw [List.length_zip, h.2.1, ht.2]; rfl
  refine Costs.bind (costs_mapProg (R := fun _ => True) fun _ _ => costs_foldEntry) (by simp [hl]) (by simp [hl])
    (by simp [hl]) fun pv hpv => ?_
  rw [hl]
  refine costs_pure ⟨hc.1, hpv.1.trans hl, by simp [h.2.2.1], fun c' hc' => ?_⟩
  rcases List.mem_append.1 hc' with hc' | hc'
  · exact h.2.2.2 _ hc'
  · rw [List.mem_singleton.1 hc']; exact hc.2

theorem costs_samePoint {b : AllocatedBit} {p q : CurvePoint F} : Costs (samePoint one b p q) 0 2 6 fun _ => True := by
  unfold samePoint
  exact Costs.then costs_numEqual fun _ _ => costs_numEqual

theorem costs_finalScalar {proof : Option (RecursiveProof F S)} {j : ℕ} :
    Costs (finalScalar proof j) 0 0 0 fun _ => True := by
  unfold finalScalar
  split
  · exact costs_pure trivial
  · exact costs_index fun _ _ => trivial

theorem costs_checkEntry {self : VerificationCircuit F S} {b : AllocatedBit} {gNew g : CurvePoint F}
    {e : ((CurvePoint F × CurvePoint F) × List AllocatedBit) × ℕ} (he : e.1.2.length = 256) :
    Costs (checkEntry E2 one self b gNew g e) 4608 19460 44300 fun _ => True := by
  unfold checkEntry
  exact Costs.then costs_finalScalar fun _ _ => Costs.then costs_witnessBits fun _ ha =>
    Costs.then (CurvePoint.costs_multiply ha) fun _ _ => Costs.then costs_samePoint fun _ _ =>
    Costs.then (CurvePoint.costs_multiply ha) fun _ _ => Costs.then (CurvePoint.costs_multiply he) fun _ _ => costs_samePoint

theorem costs_rounds {self : VerificationCircuit F S} : ∀ {is : List ℕ} {s : RoundState F} {m : ℕ}, RoundsDone m s →
    Costs (foldProg (verifyRound E2 one self) is s) (2706 * is.length) (12866 * is.length) (28388 * is.length)
      (RoundsDone (m + is.length))
  | [], s, m, h => costs_pure h
  | i :: is, s, m, h => by
    unfold foldProg
    refine (Costs.then (costs_verifyRound h) fun s hs => (costs_rounds hs).weaken (R' := RoundsDone (m + (i :: is).length))
      fun s hs => ?_).eq ?_ ?_ ?_
    · rw [List.length_cons, ← Nat.add_assoc, Nat.add_right_comm]; exact hs
    all_goals rw [List.length_cons]; ring

theorem costs_verifyInnerProduct {self : VerificationCircuit F S} {b : AllocatedBit} {t : RescueGadget F} (ht : At true 0 t)
    {is : List ((CurvePoint F × CurvePoint F) × List AllocatedBit)} (hl : is.length = 5) (hb : ∀ e ∈ is, e.2.length = 256) :
    Costs (verifyInnerProduct E2 one self b t is) (23042 + 2706 * self.params.k) (97305 + 12866 * self.params.k)
      (221511 + 28388 * self.params.k) fun r => r.2.length = self.params.k ∧ ∀ c ∈ r.2, c.length = 128 := by
  unfold verifyInnerProduct
  refine (Costs.then (costs_rounds (m := 0) ⟨ht, by simpa using hl, rfl, fun _ h => by cases h⟩) fun s hs =>
    Costs.then CurvePoint.costs_witness fun gNew _ => Costs.then costs_generator fun g _ =>
    (Costs.then (R := fun _ => True) (a := 23040) (m := 97300) (l := 221500) ?_ fun _ _ =>
      costs_pure ⟨by simpa using hs.2.2.1, hs.2.2.2⟩)).eq ?_ ?_ ?_
  · have hz : ((s.pv.zip (is.map (·.2))).zipIdx).length = 5 := by simp [hs.2.1, hl]
    refine (costs_foldProg (R := fun _ => True) (fun _ e he _ => costs_checkEntry ?_) trivial).eq ?_ ?_ ?_
    · have h1 := (List.mem_zipIdx he)
      have h2 : e.1 ∈ s.pv.zip (is.map (·.2)) := by
        rw [h1.2.2]; exact List.getElem_mem _
      obtain ⟨x, hx, hx'⟩ := List.mem_map.1 (List.of_mem_zip (a := e.1.1) (b := e.1.2) h2).2
      rw [← hx']
      exact hb x hx
    all_goals rw [hz]
  all_goals rw [List.length_range]; ring

end Recursion
end Halo
