import Verif.Spec.SoundnessError
import Verif.Lemmas.ChallengeInj
import Verif.Lemmas.Proofs.Inner
/-!
# The sets from which the code draws its challenges
-/
namespace Halo
namespace Proofs
open Util
set_option linter.constructorNameAsVariable false
variable {F : Type} [Field F] [LawfulField F] {S : Type} [Field S] [LawfulField S]

theorem or_top (c : BitVec 128) : (c ||| (1#128 <<< 127)).toNat = 2 ^ 127 + c.toNat % 2 ^ 127 := by
  have h := Nat.two_pow_add_eq_or_of_lt (b := c.toNat % 2 ^ 127) (i := 127) (Nat.mod_lt _ (by positivity)) 1
  rw [mul_one] at h
  rw [h]
  apply Nat.eq_of_testBit_eq
  intro i
  rw [BitVec.toNat_or, Nat.testBit_or, Nat.testBit_or, Nat.testBit_mod_two_pow, Nat.testBit_two_pow,
    show (1#128 <<< 127).toNat = 2 ^ 127 by decide +kernel, Nat.testBit_two_pow]
  by_cases h1 : i < 127
  · simp [h1, show ¬ 127 = i by omega]
  · by_cases h2 : 127 = i
    · simp [h2]
    · have : c.toNat.testBit i = false := Nat.testBit_lt_two_pow (c.isLt.trans_le (Nat.pow_le_pow_right (by norm_num) (by omega)))
      simp [h1, h2, this]

theorem getChallenge_eq {T : Type} {tr : Transcript T F} {t t' : T} {c : S} (h : getChallenge S tr t = some (c, t')) :
    ∃ r, tr.squeeze t = some (r, t') ∧ c = ((2 ^ 127 + (FieldApi.lower128 r).toNat % 2 ^ 127 : ℕ) : S) := by
  simp only [getChallenge, Option.bind_eq_bind, Option.bind_eq_some_iff, Option.some.injEq,
    Prod.mk.injEq] at h
  obtain ⟨r, h1, h2, h3⟩ := h
  refine ⟨r.1, by rw [h1, ← h3], ?_⟩
  rw [← h2, LawfulField.fromU128_eq, or_top]

/-- the scalar of a challenge -/
theorem scalar_eq {i : ℕ} (hi : i < 2 ^ 127) :
    (getChallengeScalar ((2 ^ 127 + i : ℕ) : S) : S) = expandChallenge (BitVec.ofNat 128 (2 ^ 127 + i)) := by
  have hm := (LawfulField.modulus_bound (F := S)).1
  have h128 : 2 ^ 127 + i < 2 ^ 128 := by omega
  have hlt : 2 ^ 127 + i < 2 ^ 254 := h128.trans_le (Nat.pow_le_pow_right (by norm_num) (by norm_num))
  rw [getChallengeScalar]
  congr 1
  apply BitVec.eq_of_toNat_eq
  rw [LawfulField.lower128_val, LawfulField.val_of_lt (hlt.trans hm), BitVec.toNat_ofNat]

theorem eisOf_congr {c c' : BitVec 128} (h : c >>> 2 = c' >>> 2) (m : ℕ) : eisOf c m = eisOf c' m := by
  have hb : ∀ j, 2 ≤ j → c.getLsbD j = c'.getLsbD j := fun j hj => by
    have := congrArg (fun b : BitVec 128 => b.getLsbD (j - 2)) h
    simpa [BitVec.getLsbD_ushiftRight, show 2 + (j - 2) = j by omega] using this
  induction m with
  | zero => rfl
  | succ m ih => rw [eisOf_succ, eisOf_succ, ih, eisStep, eisStep, hb _ (by omega), hb _ (by omega)]

theorem expandChallenge_iff {c c' : BitVec 128} :
    (expandChallenge c : S) = expandChallenge c' ↔ c >>> 2 = c' >>> 2 :=
  ⟨expandChallenge_inj, fun h => by rw [expandChallenge_eisOf, expandChallenge_eisOf, eisOf_congr h]⟩

theorem scalar_iff {i j : ℕ} (hi : i < 2 ^ 127) (hj : j < 2 ^ 127) :
    (getChallengeScalar ((2 ^ 127 + i : ℕ) : S) : S) = getChallengeScalar ((2 ^ 127 + j : ℕ) : S) ↔ i / 4 = j / 4 := by
  rw [scalar_eq hi, scalar_eq hj, expandChallenge_iff, ← BitVec.toNat_inj, BitVec.toNat_ushiftRight,
    BitVec.toNat_ushiftRight, BitVec.toNat_ofNat, BitVec.toNat_ofNat, Nat.mod_eq_of_lt (by omega),
    Nat.mod_eq_of_lt (by omega), Nat.shiftRight_eq_div_pow, Nat.shiftRight_eq_div_pow]
  omega

variable [DecidableEq S]

theorem challengeSpace_card : (challengeSpace S).card = 2 ^ 127 := by
  have hS := (LawfulField.modulus_bound (F := S)).1
  rw [challengeSpace, Finset.card_image_of_injOn, Finset.card_range]
  intro i hi j hj h
  have hi := Finset.mem_range.1 (Finset.mem_coe.1 hi)
  have hj := Finset.mem_range.1 (Finset.mem_coe.1 hj)
  have hpow : 2 ^ 128 ≤ 2 ^ 254 := Nat.pow_le_pow_right (by norm_num) (by norm_num)
  have := (LawfulField.cast_eq_iff (F := S) _ _).1 h
  rw [Nat.mod_eq_of_lt (by omega), Nat.mod_eq_of_lt (by omega)] at this
  omega

theorem scalarSpace_card : (scalarSpace S).card = 2 ^ 125 := by
  have he : scalarSpace S = (Finset.range (2 ^ 125)).image fun j => getChallengeScalar ((2 ^ 127 + 4 * j : ℕ) : S) := by
    ext a
    simp only [scalarSpace, challengeSpace, Finset.mem_image, Finset.mem_range]
    constructor
    · rintro ⟨c, ⟨i, hi, rfl⟩, rfl⟩
      exact ⟨i / 4, by omega, (scalar_iff (by omega) hi).2 (by omega)⟩
    · rintro ⟨j, hj, rfl⟩
      exact ⟨_, ⟨4 * j, by omega, rfl⟩, rfl⟩
  rw [he, Finset.card_image_of_injOn, Finset.card_range]
  intro i hi j hj h
  have hi := Finset.mem_range.1 (Finset.mem_coe.1 hi)
  have hj := Finset.mem_range.1 (Finset.mem_coe.1 hj)
  have := (scalar_iff (S := S) (by omega) (by omega)).1 h
  omega

theorem rootSpace_unique : ∀ u ∈ rootSpace S, ∀ v ∈ rootSpace S, u ^ 2 = v ^ 2 → u = v := by
  intro u hu v hv h
  simp only [rootSpace, Finset.mem_biUnion, Option.mem_toFinset, Option.mem_def] at hu hv
  obtain ⟨c, -, hu⟩ := hu
  obtain ⟨c', -, hv⟩ := hv
  rw [sq, sq, sqrt_mul hu, sqrt_mul hv] at h
  rw [h, hv] at hu
  exact (Option.some.inj hu).symm

end Proofs
end Halo
