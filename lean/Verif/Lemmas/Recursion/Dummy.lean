import Verif.Lemmas.Recursion.DeferredForge
import Verif.Props.Leftovers
/-!
# The dummy record
-/
namespace Halo

theorem IsHaloCurve.magic_ne {E : CurveConsts} {m n : ℕ} (h : IsHaloCurve E m n) :
    (Proofs.expandN n (if n = Q then fqConsts.betaRaw.toNat else fpConsts.betaRaw.toNat) 12#128 + 1) % n ≠ 0 := by
  cases h <;> decide +kernel

namespace Recursion
open Circuit Proofs
variable {E : CurveConsts} {F S : Type} [Field F] [LawfulField F] [Field S] [DecidableEq S] [LawfulField S]

omit [DecidableEq S] in
theorem magic_ne (h : HaloCurve E F S) : (Util.expandChallenge 12#128 : S) ≠ -1 := by
  intro e
  apply h.is.magic_ne
  rw [← h.betaScalar]
  have e' : ((expandN (modulus S) (LawfulField.val (FieldApi.beta : S)) 12#128 + 1 : ℕ) : S) = ((0 : ℕ) : S) := by
    push_cast
    rw [expandN_cast, e]
    ring
  have := (LawfulField.cast_eq_iff _ _).1 e'
  rwa [Nat.zero_mod] at this

omit [DecidableEq S] in
theorem magic_scalar : (Util.getChallengeScalar (FieldApi.fromU64 MAGIC : S) : S) = Util.expandChallenge 12#128 := by
  have e : FieldApi.lower128 (FieldApi.fromU64 MAGIC : S) = 12#128 := by
    apply BitVec.eq_of_toNat_eq
    have hS := (LawfulField.modulus_bound (F := S)).1
    have : LawfulField.val ((MAGIC.toNat : ℕ) : S) = 12 := LawfulField.val_of_lt (by
      have : MAGIC.toNat = 12 := rfl
      omega)
    rw [LawfulField.lower128_val, LawfulField.fromU64_eq, this]; rfl
  rw [Util.getChallengeScalar, e]

/-- more about the dummy record -/
theorem dummy_record [h : HaloCurve E F S] {k : ℕ} (hk : 2 ≤ k) :
    ∃ d : Deferred S, Deferred.dummy S k = some d ∧ WellFormedDeferred k d ∧ TrueDeferred k d ∧ d.Small ∧
      d.challengesSqPackedOld.length = k ∧ d.challengesSqPackedNew.length = k ∧ d.gxOldOpening ≠ 0 := by
  obtain ⟨us, hus, hl⟩ := magic_roots (E := E) (F := F) (S := S) k
  obtain ⟨d, hd, hw, ht⟩ := dummy_deferred (E := E) (F := F) (S := S) hk
  have hne : us ≠ [] := by rw [← List.length_pos_iff]; omega
  have hd' := hd
  unfold Deferred.dummy at hd'
  simp only [expandChallenges_eq hus, Option.bind_eq_bind, Option.bind_some, Util.computeB_eq _ _ hne,
    Option.some.injEq] at hd'
  have hval : LawfulField.val (FieldApi.fromU64 MAGIC : S) < 2 ^ 128 := by
    rw [LawfulField.fromU64_eq, LawfulField.val_of_lt]
    · exact MAGIC.isLt.trans_le (Nat.pow_le_pow_right (by omega) (by omega))
    · have := (LawfulField.modulus_bound (F := S)).1
      exact (MAGIC.isLt.trans_le (Nat.pow_le_pow_right (by omega) (by omega))).trans_le this.le
  have hone : LawfulField.val (1 : S) < 2 ^ 128 := by
    have := LawfulField.val_of_lt (F := S) (n := 1) (LawfulField.prime (F := S)).one_lt
    rw [Nat.cast_one] at this
    rw [this]
    norm_num
  have hnz : collapse us ((1 : S) ^ ·) ≠ 0 := by
    rw [collapse_eq_prodB]
    have hsq : ∀ u ∈ us, u * u = (Util.expandChallenge 12#128 : S) := by
      have := hus.sq
      rw [List.map_replicate, magic_scalar] at this
      intro u hu
      have hm : u ^ 2 ∈ us.map (· ^ 2) := List.mem_map_of_mem hu
      rw [← this] at hm
      rw [← pow_two, List.eq_of_mem_replicate hm]
    have hun := hus.ne
    clear hd' hus hl hne
    induction us with
    | nil => simp [Util.prodB]
    | cons u us ih =>
      rw [Util.prodB, one_pow, mul_one]
      refine mul_ne_zero (fun e => ?_) (ih (fun v hv => hsq v (by simp [hv])) fun v hv => hun v (by simp [hv]))
      have hu := hun u (by simp)
      have := hsq u (by simp)
      apply magic_ne h
      rw [← this]
      field_simp at e
      linear_combination e
  refine ⟨d, hd, hw, ht, ?_, ?_, ?_, ?_⟩
  · subst hd'
    refine ⟨⟨hone, hone, hone, hone⟩, ?_, ?_⟩ <;>
    · intro a ha
      rw [List.eq_of_mem_replicate ha]
      exact hval
  · subst hd'; simp
  · subst hd'; simp
  · subst hd'; exact hnz

/-- The dummy record with the wrong sign of `gx` -/
theorem negated_dummy [h : HaloCurve E F S] {k : ℕ} (hk : 2 ≤ k) :
    ∃ d : Deferred S, d.Small ∧ d.challengesSqPackedOld.length = k ∧ d.challengesSqPackedNew.length = k ∧
      WellFormedDeferred k d ∧ TrueUpToSigns k d ∧ ¬ TrueDeferred k d := by
  obtain ⟨d, -, hw, ht, hs, ho, hn, hnz⟩ := dummy_record (E := E) (F := F) (S := S) hk
  refine ⟨{ d with gxOldOpening := -d.gxOldOpening }, hs, ho, hn, ⟨hw.1, hw.2, hw.3, hw.4, hw.5, hw.6, hw.7⟩, ?_, ?_⟩
  · refine ⟨-1, 1, .inr rfl, .inl rfl, ?_⟩
    simpa using ht
  · rintro ⟨-, ⟨us', h1, h2⟩, -⟩
    obtain ⟨us'', h3, h4⟩ := ht.old
    cases h1.unique h3
    dsimp only at h2
    rw [← h4] at h2
    have h2' : (2 : S) * d.gxOldOpening = 0 := by linear_combination -h2
    rcases mul_eq_zero.1 h2' with h | h
    · exact LawfulField.two_ne_zero h
    · exact hnz h

end Recursion
end Halo
