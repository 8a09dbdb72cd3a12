import Verif.Spec.Collapse
import Verif.Lemmas.Multiexp
import Mathlib.Tactic.Module
/-!
# `compute_b` and `compute_g_coeffs_for_inner_product`
-/
namespace Halo
namespace Util
open Mem

section
variable {F : Type} [Field F]

/-- coefficient of the folded vector -/
def sCoef : List F → ℕ → F
  | [], _ => 1
  | u :: us, i => (if i.testBit us.length then u else u⁻¹) * sCoef us i

theorem sCoef_congr : ∀ (us : List F) (i j : ℕ), (∀ b < us.length, i.testBit b = j.testBit b) →
    sCoef us i = sCoef us j
  | [], _, _, _ => rfl
  | u :: us, i, j, h => by
    rw [sCoef, sCoef, h us.length (by simp), sCoef_congr us i j fun b hb => h b (by simp; omega)]

theorem sCoef_zero : ∀ us : List F, sCoef us 0 = (us.map (·⁻¹)).prod
  | [] => rfl
  | u :: us => by simp [sCoef, sCoef_zero us]

theorem sCoef_add_pow (us : List F) (i : ℕ) :
    sCoef us (i + 2 ^ us.length) = sCoef us i := by
  apply sCoef_congr
  intro b hb
  rw [add_comm, Nat.testBit_two_pow_add_gt hb]

theorem collapse_eq {G : Type} [AddCommGroup G] [Module F G] : ∀ (us : List F) (g : ℕ → G),
    collapse us g = ∑ i ∈ Finset.range (2 ^ us.length), sCoef us i • g i
  | [], g => by simp [collapse, sCoef]
  | u :: us, g => by
    rw [collapse, collapse_eq us, List.length_cons, pow_succ, mul_two, Finset.sum_range_add,
      ← Finset.sum_add_distrib]
    apply Finset.sum_congr rfl
    intro i hi
    rw [Finset.mem_range] at hi
    have h1 : i.testBit us.length = false := Nat.testBit_lt_two_pow hi
    have h2 : (2 ^ us.length + i).testBit us.length = true := by
      rw [Nat.testBit_two_pow_add_eq, h1]; rfl
    rw [sCoef, sCoef, h1, h2, add_comm (2 ^ _) i, sCoef_add_pow us i]
    simp only [if_true, Bool.false_eq_true, if_false]
    module

theorem collapse_congr {G : Type} [AddCommGroup G] [Module F G] (us : List F) (g g' : ℕ → G)
    (h : ∀ i < 2 ^ us.length, g i = g' i) : collapse us g = collapse us g' := by
  rw [collapse_eq, collapse_eq]
  exact Finset.sum_congr rfl fun i hi => by rw [h i (Finset.mem_range.1 hi)]

/-- product form of `compute_b` -/
def prodB : List F → F → F
  | [], _ => 1
  | u :: us, x => (u⁻¹ + u * x ^ 2 ^ us.length) * prodB us x

theorem prodB_append (us : List F) (u x : F) :
    prodB (us ++ [u]) x = (u⁻¹ + u * x) * prodB us (x ^ 2) := by
  induction us with
  | nil => simp [prodB]
  | cons v us ih =>
    simp only [List.cons_append, prodB, ih, List.length_append, List.length_singleton]
    rw [← pow_mul, ← pow_succ']
    ring

theorem collapse_pow : ∀ (us : List F) (c x : F),
    collapse us (fun i => c * x ^ i) = c * prodB us x
  | [], c, x => by simp [collapse, prodB]
  | u :: us, c, x => by
    rw [collapse, prodB]
    have : (fun i => u⁻¹ • (c * x ^ i) + u • (c * x ^ (i + 2 ^ us.length))) =
        fun i => (c * (u⁻¹ + u * x ^ 2 ^ us.length)) * x ^ i := by
      funext i; simp only [smul_eq_mul, pow_add]; ring
    rw [this, collapse_pow us]; ring

theorem computeBRev_eq : ∀ (rus : List F) (x : F), rus ≠ [] →
    computeBRev x rus (rus.map (·⁻¹)) = some (prodB rus.reverse x)
  | [], _, h => (h rfl).elim
  | [u], x, _ => by simp [computeBRev, prodB]
  | u :: v :: us, x, _ => by
    have := computeBRev_eq (v :: us) (x ^ 2) (by simp)
    simp only [List.map_cons] at this ⊢
    rw [computeBRev.eq_2 x _ _ _ _ (by simp), this, Option.map_some, List.reverse_cons (a := u), prodB_append]

theorem computeB_eq (us : List F) (x : F) (h : us ≠ []) :
    computeB x us (us.map (·⁻¹)) = some (collapse us fun i => x ^ i) := by
  unfold computeB
  rw [if_neg (by simpa using h), if_neg (by simp), ← List.map_reverse,
    computeBRev_eq _ _ (by simpa using h), List.reverse_reverse]
  have := collapse_pow us 1 x
  simp only [one_mul] at this
  rw [this]

theorem sCoef_bit : ∀ (us : List F) (b j : ℕ), (∀ u ∈ us, u ≠ 0) → (hb : b < us.length) → j < 2 ^ b →
    sCoef us (2 ^ b + j) = sCoef us j * us[us.length - 1 - b] ^ 2
  | [], _, _, _, hb, _ => by simp at hb
  | u :: us, b, j, h0, hb, hj => by
    rw [List.length_cons] at hb
    have hu := h0 u (by simp)
    by_cases hbl : b = us.length
    · subst hbl
      have h1 : j.testBit us.length = false := Nat.testBit_lt_two_pow hj
      have h2 : (2 ^ us.length + j).testBit us.length = true := by
        rw [Nat.testBit_two_pow_add_eq, h1]; rfl
      rw [sCoef, sCoef, h1, h2, add_comm (2 ^ _) j, sCoef_add_pow us j]
      simp
      field_simp
    · have hlt : b < us.length := by omega
      have hp : 2 ^ (b + 1) ≤ 2 ^ us.length := Nat.pow_le_pow_right (by norm_num) hlt
      rw [pow_succ] at hp
      have h1 : j.testBit us.length = false := Nat.testBit_lt_two_pow (by omega)
      have h2 : (2 ^ b + j).testBit us.length = false := Nat.testBit_lt_two_pow (by omega)
      have hidx : (u :: us).length - 1 - b = (us.length - 1 - b) + 1 := by
        rw [List.length_cons]; omega
      rw [sCoef, sCoef, h1, h2, sCoef_bit us b j (fun v hv => h0 v (by simp [hv])) hlt hj]
      simp only [hidx, List.getElem_cons_succ]
      ring

theorem computeGCoeffs_eq (us : List F) (h0 : ∀ u ∈ us, u ≠ 0) :
    computeGCoeffs (us.map (· ^ 2)) (us.map (·⁻¹)).prod =
      some (arr (2 ^ us.length) (sCoef us)) := by
  unfold computeGCoeffs
  simp only [List.length_map, Nat.shiftLeft_eq, one_mul]
  have key : ∀ n, n + 1 ≤ 2 ^ us.length →
      (List.range' 1 n).foldlM (fun (s : Array F) i => do
        let u ← (us.map (· ^ 2))[(us.length - 1) - Nat.log2 i]?
        let v ← Mem.get s (i - 2 ^ Nat.log2 i)
        some (s.push (v * u))) #[(us.map (·⁻¹)).prod] = some (arr (n + 1) (sCoef us)) := by
    intro n
    induction n with
    | zero =>
      intro _
      apply congrArg some
      apply Array.ext
      · simp [arr]
      · intro i h1 h2
        have : i = 0 := by simpa using h1
        subst this
        simp [arr, sCoef_zero]
    | succ n ih =>
      intro hn
      rw [List.range'_1_concat, List.foldlM_append, ih (by omega)]
      have hne : 1 + n ≠ 0 := by omega
      have hlo := Nat.log2_self_le hne
      have hhi := Nat.lt_log2_self (n := 1 + n)
      have hb : Nat.log2 (1 + n) < us.length := by
        rw [Nat.log2_lt hne]; omega
      simp only [Option.bind_eq_bind, Option.bind_some, List.foldlM_cons, List.foldlM_nil,
        List.getElem?_map]
      generalize Nat.log2 (1 + n) = b at *
      rw [pow_succ] at hhi
      have hidx : us.length - 1 - b < us.length := by omega
      simp only [List.getElem?_eq_getElem hidx, Option.map_some, Option.bind_some]
      have hpos := Nat.two_pow_pos b
      have hg : Mem.get (arr (n + 1) (sCoef us)) (1 + n - 2 ^ b) =
          some (sCoef us (1 + n - 2 ^ b)) := get_arr (sCoef us) (by omega)
      rw [hg]
      simp only [Option.bind_some, pure]
      have hb2 := sCoef_bit us b (1 + n - 2 ^ b) h0 hb (by omega)
      rw [show 2 ^ b + (1 + n - 2 ^ b) = n + 1 by omega] at hb2
      rw [← hb2]
      congr 1
      apply Array.ext
      · simp [arr]
      · intro i h1 h2
        simp only [arr, Array.getElem_push, Array.size_ofFn, Array.getElem_ofFn]
        split
        · rfl
        · have : i = n + 1 := by simp [arr] at h1; omega
          rw [this]
  have := key (2 ^ us.length - 1) (by have := Nat.two_pow_pos us.length; omega)
  rw [Nat.sub_add_cancel (Nat.two_pow_pos _)] at this
  exact this

end
end Util
end Halo
