import Verif.Lemmas.LawfulField
import Mathlib.Tactic.LinearCombination
import Mathlib.Tactic.Linarith
/-!
# The scalars of the endomorphism ladder

The ladder computes with numbers `a + b β`.  Their norm `a² - ab + b²` stays between 9 and the order
of the group, so no exceptional case of the incomplete addition formulas occurs.
-/
namespace Halo
open FieldApi

/-- The norm of `a + bω` -/
def eisNorm (a b : ℤ) : ℤ := a ^ 2 - a * b + b ^ 2

theorem eisNorm_sq (a b : ℤ) : (2 * a - b) ^ 2 ≤ 4 * eisNorm a b := by
  rw [eisNorm]; nlinarith [sq_nonneg b]

/-- `2z ± 1`, `z ± 1` -/
theorem eisNorm_bounds {a b : ℤ} (h : 9 ≤ eisNorm a b) :
    |2 * a - b| ≤ eisNorm a b - 1 := by
  have hs := eisNorm_sq a b
  generalize eisNorm a b = N at *
  by_contra hc
  push Not at hc
  have : N * N ≤ |2 * a - b| * |2 * a - b| := mul_self_le_mul_self (by omega) (by omega)
  rw [abs_mul_abs_self] at this
  nlinarith

variable {S : Type} [Field S] [LawfulField S]

theorem beta_sq : (beta : S) ^ 2 = -1 - beta := by
  have h1 : (beta : S) ^ 3 = 1 := by rw [← LawfulField.beta_order (F := S)]; exact pow_orderOf_eq_one _
  have h2 : (beta : S) - 1 ≠ 0 := by
    intro h
    have := LawfulField.beta_order (F := S)
    rw [sub_eq_zero.1 h, orderOf_one] at this
    omega
  have : ((beta : S) - 1) * (beta ^ 2 + beta + 1) = 0 := by linear_combination h1
  have := (mul_eq_zero.1 this).resolve_left h2
  linear_combination this

theorem eis_ne_zero {a b : ℤ} (h0 : 0 < eisNorm a b) (h : eisNorm a b < modulus S) :
    (a : S) + b * beta ≠ 0 := by
  intro he
  have hN : ((eisNorm a b : ℤ) : S) = 0 := by
    rw [eisNorm]; push_cast
    have := beta_sq (S := S)
    linear_combination ((a : S) - b - b * beta) * he + (b : S) ^ 2 * this
  have := LawfulField.charP (F := S)
  rw [CharP.intCast_eq_zero_iff S (modulus S)] at hN
  have := Int.le_of_dvd h0 hN
  omega

/-- The scalar is a number of norm between 9 and `9 * 7 ^ n`. -/
def Moderate (n : ℕ) (s : S) : Prop :=
  ∃ a b : ℤ, s = a + b * beta ∧ 9 ≤ eisNorm a b ∧ eisNorm a b ≤ 9 * 7 ^ n

theorem Moderate.three : Moderate 0 (1 + 1 + 1 : S) :=
  ⟨3, 0, by push_cast; ring, by decide, by decide⟩

theorem Moderate.mono {n m : ℕ} {s : S} (h : Moderate n s) (hm : n ≤ m) : Moderate m s := by
  obtain ⟨a, b, e, h9, hu⟩ := h
  have : (7 : ℤ) ^ n ≤ 7 ^ m := pow_le_pow_right₀ (by norm_num) hm
  exact ⟨a, b, e, h9, by omega⟩

theorem Moderate.step {n : ℕ} {s : S} (h : Moderate n s) (v : Bool) :
    Moderate (n + 1) (s + (s + if v then -1 else 1)) := by
  obtain ⟨a, b, rfl, h9, hu⟩ := h
  have hb := eisNorm_bounds h9
  rw [abs_le] at hb
  cases v with
  | false =>
    refine ⟨2 * a + 1, 2 * b, by simp; ring, ?_, ?_⟩ <;>
    · rw [show eisNorm (2 * a + 1) (2 * b) = 4 * eisNorm a b + 2 * (2 * a - b) + 1 by
        simp only [eisNorm]; ring]
      try rw [pow_succ]
      linarith
  | true =>
    refine ⟨2 * a - 1, 2 * b, by simp; ring, ?_, ?_⟩ <;>
    · rw [show eisNorm (2 * a - 1) (2 * b) = 4 * eisNorm a b - 2 * (2 * a - b) + 1 by
        simp only [eisNorm]; ring]
      try rw [pow_succ]
      linarith

theorem Moderate.endo {n : ℕ} {s : S} (h : Moderate n s) : Moderate n (s * beta) := by
  obtain ⟨a, b, rfl, h9, hu⟩ := h
  have e : eisNorm (-b) (a - b) = eisNorm a b := by simp only [eisNorm]; ring
  refine ⟨-b, a - b, ?_, by rw [e]; exact h9, by rw [e]; exact hu⟩
  push_cast
  linear_combination (b : S) * beta_sq (S := S)

theorem seven_pow {n : ℕ} (hn : n ≤ 80) : (9 * 7 ^ n : ℤ) < 2 ^ 254 := by
  calc (9 * 7 ^ n : ℤ) ≤ 9 * 7 ^ 80 := by
        have : (7 : ℤ) ^ n ≤ 7 ^ 80 := pow_le_pow_right₀ (by norm_num) hn
        omega
    _ < 2 ^ 254 := by norm_num

theorem Moderate.ne_zero {n : ℕ} {s : S} (h : Moderate n s) (hn : n ≤ 80) : s ≠ 0 := by
  obtain ⟨a, b, rfl, h9, hu⟩ := h
  have := seven_pow hn
  have := (LawfulField.modulus_bound (F := S)).1
  exact eis_ne_zero (by omega) (by zify at *; linarith)

theorem Moderate.ne_one {n : ℕ} {s : S} (h : Moderate n s) (hn : n < 80) (v : Bool) :
    s + (if v then -1 else 1) ≠ 0 := by
  obtain ⟨a, b, rfl, h9, hu⟩ := h
  have hp := seven_pow (n := n + 1) hn
  rw [pow_succ] at hp
  have hm := (LawfulField.modulus_bound (F := S)).1
  have hb := eisNorm_bounds h9
  rw [abs_le] at hb
  cases v with
  | false =>
    have e : eisNorm (a + 1) b = eisNorm a b + (2 * a - b) + 1 := by simp only [eisNorm]; ring
    have := eis_ne_zero (S := S) (a := a + 1) (b := b) (by rw [e]; linarith) (by rw [e]; zify at *; linarith)
    refine fun h => this ?_
    have h : (a : S) + b * beta + 1 = 0 := h
    rw [← h]; push_cast; ring
  | true =>
    have e : eisNorm (a - 1) b = eisNorm a b - (2 * a - b) + 1 := by simp only [eisNorm]; ring
    have := eis_ne_zero (S := S) (a := a - 1) (b := b) (by rw [e]; linarith) (by rw [e]; zify at *; linarith)
    refine fun h => this ?_
    have h : (a : S) + b * beta + -1 = 0 := h
    rw [← h]; push_cast; ring

end Halo
