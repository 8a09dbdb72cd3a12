import Verif.Lemmas.Proofs.Challenge
/-!
# The deferred checks
-/
namespace Halo
namespace Proofs
open Util Circuit
variable {S : Type} [Field S]

theorem computeThing_eq (x : S) (m : ℕ) :
    computeThing x m = ∑ i ∈ Finset.range (2 ^ m), x ^ (i + 1) := by
  have key : ∀ m, (List.range m).foldl (fun (s : S × S) _ => (s.1 + s.1 * s.2, s.2 ^ 2)) (x, x) =
      (∑ i ∈ Finset.range (2 ^ m), x ^ (i + 1), x ^ 2 ^ m) := by
    intro m
    induction m with
    | zero => simp
    | succ m ih =>
      rw [List.range_succ, List.foldl_append, ih]
      simp only [List.foldl_cons, List.foldl_nil, Prod.mk.injEq]
      refine ⟨?_, by rw [← pow_mul, pow_succ]⟩
      rw [pow_succ, mul_two, Finset.sum_range_add, Finset.sum_mul]
      congr 1
      apply Finset.sum_congr rfl
      intro i _
      rw [← pow_add]
      congr 1
      omega
  rw [computeThing, key]

variable [DecidableEq S] [LawfulField S]

theorem compute_some {k : ℕ} (hk : 2 ≤ k) {d : Deferred S} (hx : d.x ≠ 0) (hy : d.yCur ≠ 0) :
    ∃ lhs rhs, d.compute k = some (lhs, rhs) ∧ (lhs = rhs ↔ DeferredRelation (2 ^ (k - 2)) d) := by
  have e : (1 <<< k) / 4 = 2 ^ (k - 2) := by
    rw [Nat.shiftLeft_eq, one_mul]
    obtain ⟨m, rfl⟩ : ∃ m, k = m + 2 := ⟨k - 2, by omega⟩
    rw [Nat.add_sub_cancel, pow_add]
    omega
  have h1 : 1 ≤ 2 ^ (k - 2) := Nat.one_le_two_pow
  refine ⟨_, _, by
    unfold Deferred.compute
    simp only [hx, hy, if_false, not_lt.2 hk, Option.bind_eq_bind, LawfulField.invert_eq _ hx,
      LawfulField.invert_eq _ hy, Option.bind_some, e]; rfl, ?_⟩
  unfold DeferredRelation
  rw [computeThing_eq, computeThing_eq]
  generalize 2 ^ (k - 2) = n at *
  rw [← Finset.sum_add_distrib]
  generalize ∑ i ∈ Finset.range n, ((d.x * d.yCur) ^ (i + 1) + (d.x * d.yCur⁻¹) ^ (i + 1)) = σ
  have e1 : ((d.x⁻¹ ^ n) ^ 2 * d.x⁻¹ ^ n) * d.x = d.x⁻¹ ^ (3 * n - 1) := by
    obtain ⟨m, hm⟩ : ∃ m, 3 * n = m + 1 := ⟨3 * n - 1, by omega⟩
    rw [← pow_mul, ← pow_add, show n * 2 + n = m + 1 by omega, hm, Nat.add_sub_cancel, pow_succ,
      mul_assoc, inv_mul_cancel₀ hx, mul_one]
  have e2 : ((d.x⁻¹ ^ n) ^ 2) ^ 2 = d.x⁻¹ ^ (4 * n) := by
    rw [← pow_mul, ← pow_mul]; congr 1; ring
  rw [e1, e2, mul_inv]
  constructor
  · intro h; linear_combination h
  · intro h; linear_combination h

theorem verify_some {k : ℕ} {d : Deferred S} (h : WellFormedDeferred k d) :
    ∃ b, d.verify k = some b ∧ (b = true ↔ TrueDeferred k d) := by
  obtain ⟨lhs, rhs, h1, h2⟩ := compute_some h.k_ge h.x_ne h.y_ne
  obtain ⟨uo, ho⟩ := (roots_iff _).2 h.old_sq
  obtain ⟨un, hn⟩ := (roots_iff _).2 h.new_sq
  have ho' : uo ≠ [] := by
    rw [← List.length_pos_iff, ho.length, List.length_pos_iff]; exact h.old_ne
  have hn' : un ≠ [] := by
    rw [← List.length_pos_iff, hn.length, List.length_pos_iff]; exact h.new_ne
  refine ⟨_, by
    unfold Deferred.verify
    simp only [h1, Option.bind_eq_bind, Option.bind_some, expandChallenges_eq ho,
      expandChallenges_eq hn, computeB_eq _ _ ho', computeB_eq _ _ hn']; rfl, ?_⟩
  simp only [Bool.and_eq_true, decide_eq_true_eq, h2]
  constructor
  · rintro ⟨⟨⟨⟨⟨⟨a1, a2⟩, a3⟩, a4⟩, a5⟩, a6⟩, a7⟩
    exact ⟨a1, ⟨uo, ho, a2.symm⟩, ⟨un, hn, a3, a4, a5, a6, a7⟩⟩
  · rintro ⟨a1, ⟨uo', b1, a2⟩, ⟨un', b2, a3, a4, a5, a6, a7⟩⟩
    cases ho.unique b1
    cases hn.unique b2
    exact ⟨⟨⟨⟨⟨⟨a1, a2.symm⟩, a3⟩, a4⟩, a5⟩, a6⟩, a7⟩

theorem verify_none {k : ℕ} {d : Deferred S} (h : ¬ WellFormedDeferred k d) : d.verify k = none := by
  by_cases h1 : d.x = 0
  · simp [Deferred.verify, Deferred.compute, h1]
  by_cases h2 : d.yCur = 0
  · simp [Deferred.verify, Deferred.compute, h1, h2]
  by_cases h3 : k < 2
  · simp [Deferred.verify, Deferred.compute, h1, h2, h3]
  obtain ⟨lhs, rhs, hc, -⟩ := compute_some (not_lt.1 h3) h1 h2
  unfold Deferred.verify
  simp only [hc, Option.bind_eq_bind, Option.bind_some]
  by_cases h4 : ∀ p ∈ d.challengesSqPackedOld, IsSquare (getChallengeScalar p : S)
  swap
  · rw [expandChallenges_none fun he => h4 ((roots_iff _).1 he)]; rfl
  obtain ⟨uo, ho⟩ := (roots_iff _).2 h4
  rw [expandChallenges_eq ho, Option.bind_some]
  by_cases h5 : d.challengesSqPackedOld = []
  · rw [h5] at ho
    cases ho
    rfl
  have ho' : uo ≠ [] := by
    rw [← List.length_pos_iff, ho.length, List.length_pos_iff]; exact h5
  simp only [computeB_eq _ _ ho', Option.bind_some]
  by_cases h6 : ∀ p ∈ d.challengesSqPackedNew, IsSquare (getChallengeScalar p : S)
  swap
  · rw [expandChallenges_none fun he => h6 ((roots_iff _).1 he)]; rfl
  obtain ⟨un, hn⟩ := (roots_iff _).2 h6
  rw [expandChallenges_eq hn, Option.bind_some]
  by_cases h7 : d.challengesSqPackedNew = []
  · rw [h7] at hn
    cases hn
    rfl
  exact (h ⟨not_lt.1 h3, h1, h2, h5, h7, h4, h6⟩).elim

end Proofs
end Halo
