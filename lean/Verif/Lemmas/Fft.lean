import Verif.Lemmas.Mem
import Verif.Model.Util
import Verif.Spec.Dft
import Mathlib.Algebra.BigOperators.Intervals
import Mathlib.Tactic.LinearCombination
import Mathlib.Tactic.Ring
/-!
# The FFT code computes the DFT
-/
namespace Halo
namespace Util
open Finset Mem
variable {F : Type} [Field F]

/-! ## bit reversal -/

/-- recursive form -/
def rev : ℕ → ℕ → ℕ
  | 0, _ => 0
  | l + 1, n => 2 ^ l * (n % 2) + rev l (n / 2)

theorem bitreverse_aux (l : ℕ) : ∀ (L : List ℕ), L.length = l → ∀ r n : ℕ,
    (L.foldl (fun (s : ℕ × ℕ) _ => ((s.1 <<< 1) ||| (s.2 &&& 1), s.2 >>> 1)) (r, n)).1 =
      2 ^ l * r + rev l n := by
  induction l with
  | zero => intro L hL r n; simp at hL; subst hL; simp [rev]
  | succ l ih =>
    intro L hL r n
    cases L with
    | nil => simp at hL
    | cons a L =>
      rw [List.foldl_cons, ih L (by simpa using hL)]
      have h1 : r <<< 1 ||| n &&& 1 = 2 * r + n % 2 := by
        rw [Nat.and_one_is_mod, ← Nat.shiftLeft_add_eq_or_of_lt (by omega), Nat.shiftLeft_eq]; ring
      simp only
      rw [h1, Nat.shiftRight_eq_div_pow, rev]
      ring

theorem bitreverse_eq (n l : ℕ) : bitreverse n l = rev l n := by
  rw [bitreverse, bitreverse_aux l _ (by simp)]; simp

theorem rev_lt (l n : ℕ) : rev l n < 2 ^ l := by
  induction l generalizing n with
  | zero => simp [rev]
  | succ l ih =>
    have := ih (n / 2)
    rw [rev, pow_succ]
    rcases Nat.mod_two_eq_zero_or_one n with h | h <;> rw [h] <;> omega

theorem rev_top (l n : ℕ) : rev (l + 1) n = 2 * rev l (n % 2 ^ l) + n / 2 ^ l % 2 := by
  induction l generalizing n with
  | zero => simp [rev]
  | succ l ih =>
    rw [rev, ih, rev]
    have h1 : n % 2 ^ (l + 1) % 2 = n % 2 := Nat.mod_mod_of_dvd _ (Dvd.intro_left _ rfl)
    have h2 : n % 2 ^ (l + 1) / 2 = n / 2 % 2 ^ l := by
      rw [pow_succ, mul_comm, Nat.mod_mul_right_div_self]
    have h3 : n / 2 / 2 ^ l = n / 2 ^ (l + 1) := by
      rw [Nat.div_div_eq_div_mul, pow_succ, mul_comm]
    rw [h1, h2, h3]; ring

theorem rev_rev (l n : ℕ) (h : n < 2 ^ l) : rev l (rev l n) = n := by
  induction l generalizing n with
  | zero => simp at h; simp [rev, h]
  | succ l ih =>
    rw [rev_top]
    have hl := rev_lt l (n / 2)
    have h1 : rev (l + 1) n % 2 ^ l = rev l (n / 2) := by
      rw [rev, Nat.mul_add_mod, Nat.mod_eq_of_lt hl]
    have h2 : rev (l + 1) n / 2 ^ l % 2 = n % 2 := by
      rw [rev, Nat.mul_add_div (Nat.two_pow_pos l), Nat.div_eq_of_lt hl, add_zero, Nat.mod_mod]
    rw [h1, h2, ih _ (by rw [pow_succ] at h; omega)]
    omega

omit [Field F] in
/-- the swap loop permutes by bit reversal -/
theorem swapLoop (L : ℕ) (f : ℕ → F) (K : ℕ) (hK : K ≤ 2 ^ L) :
    (List.range K).foldlM (fun a k =>
      let rk := bitreverse k L
      if k < rk then Mem.swap a rk k else some a) (arr (2 ^ L) f) =
    some (arr (2 ^ L) fun i => if i < K ∨ rev L i < K then f (rev L i) else f i) := by
  induction K with
  | zero => simp
  | succ K ih =>
    rw [List.range_succ, List.foldlM_append, ih (by omega)]
    simp only [Option.bind_eq_bind, Option.bind_some, List.foldlM_cons, List.foldlM_nil,
      bitreverse_eq]
    have hK' : K < 2 ^ L := hK
    have hr := rev_lt L K
    have hrr := rev_rev L K hK'
    have key : ∀ i < 2 ^ L, (rev L i = K ↔ i = rev L K) := by
      intro i hi
      constructor
      · rintro rfl; exact (rev_rev L i hi).symm
      · rintro rfl; exact hrr
    split
    · rename_i hlt
      rw [swap_arr _ hr hK']
      simp only [Option.pure_def, Option.bind_some, Option.some.injEq]
      apply arr_congr
      intro i hi
      simp only [Function.update_apply, hrr]
      by_cases h1 : i = K
      · subst h1
        simp [hlt.not_gt]
      · by_cases h2 : i = rev L K
        · subst h2
          have : ¬ rev L K < K := hlt.not_gt
          simp [h1, hrr, this]
        · have h3 : rev L i ≠ K := fun h => h2 ((key i hi).1 h)
          simp only [h1, h2, if_false]
          have : (i < K ∨ rev L i < K) ↔ (i < K + 1 ∨ rev L i < K + 1) := by omega
          simp only [this]
    · rename_i hge
      simp only [Option.pure_def, Option.bind_some, Option.some.injEq]
      apply arr_congr
      intro i hi
      by_cases h1 : i = K
      · subst h1
        by_cases h2 : rev L i = i
        · simp [h2]
        · have : rev L i < i := by omega
          simp [this]
      · by_cases h2 : i = rev L K
        · subst h2
          have : rev L K < K := by omega
          simp [hrr, this, Nat.lt_succ_of_lt this]
        · have h3 : rev L i ≠ K := fun h => h2 ((key i hi).1 h)
          have : (i < K ∨ rev L i < K) ↔ (i < K + 1 ∨ rev L i < K + 1) := by omega
          simp only [this]

/-! ## butterflies -/

/-- effect of the first `J` iterations of the inner loop at `k` -/
def blockFn (k m : ℕ) (wm : F) (J : ℕ) (f : ℕ → F) (i : ℕ) : F :=
  if k ≤ i ∧ i < k + J then f i + f (i + m) * wm ^ (i - k)
  else if k + m ≤ i ∧ i < k + m + J then f (i - m) - f i * wm ^ (i - m - k)
  else f i

theorem fftBlock_aux {n k m : ℕ} (wm : F) (f : ℕ → F) (hn : k + 2 * m ≤ n) (J : ℕ) (hJ : J ≤ m) :
    (List.range J).foldlM (fun (s : Array F × F) j => do
      let (a, w) := s
      let t ← Mem.get a (k + j + m)
      let t := t * w
      let u ← Mem.get a (k + j)
      let a ← Mem.set a (k + j + m) (u - t)
      let u ← Mem.get a (k + j)
      let a ← Mem.set a (k + j) (u + t)
      let w := w * wm
      some (a, w)) (arr n f, 1) = some (arr n (blockFn k m wm J f), wm ^ J) := by
  induction J with
  | zero =>
    simp only [List.range_zero, List.foldlM_nil, pow_zero]
    show some _ = _
    congr 2
    apply arr_congr
    intro i _
    simp only [blockFn]
    rw [if_neg (by omega), if_neg (by omega)]
  | succ J ih =>
    rw [List.range_succ, List.foldlM_append, ih (by omega)]
    have i1 : k + J + m < n := by omega
    have i2 : k + J < n := by omega
    simp only [Option.bind_eq_bind, Option.bind_some, List.foldlM_cons, List.foldlM_nil,
      get_arr _ i1, get_arr _ i2, set_arr _ _ i1, set_arr _ _ i2]
    simp only [Option.pure_def, Option.some.injEq, Prod.mk.injEq, pow_succ, and_true]
    apply arr_congr
    intro i hi
    have hne : k + J ≠ k + J + m := by omega
    have e1 : blockFn k m wm J f (k + J) = f (k + J) := by
      simp only [blockFn]; rw [if_neg (by omega), if_neg (by omega)]
    have e2 : blockFn k m wm J f (k + J + m) = f (k + J + m) := by
      simp only [blockFn]; rw [if_neg (by omega), if_neg (by omega)]
    simp only [Function.update_apply, e1, e2, hne, if_false]
    by_cases h1 : i = k + J
    · subst h1
      rw [if_pos rfl]
      simp only [blockFn]
      rw [if_pos (by omega)]; simp
    · rw [if_neg h1]
      by_cases h2 : i = k + J + m
      · subst h2
        rw [if_pos rfl]
        simp only [blockFn]
        rw [if_neg (by omega), if_pos (by omega)]
        simp
      · rw [if_neg h2]
        simp only [blockFn]
        have a1 : (k ≤ i ∧ i < k + J) ↔ (k ≤ i ∧ i < k + (J + 1)) := by omega
        have a2 : (k + m ≤ i ∧ i < k + m + J) ↔ (k + m ≤ i ∧ i < k + m + (J + 1)) := by omega
        simp only [a1, a2]

theorem fftBlock_arr {n k m : ℕ} (wm : F) (f : ℕ → F) (hn : k + 2 * m ≤ n) :
    fftBlock k m wm (arr n f) = some (arr n (blockFn k m wm m f), wm ^ m) :=
  fftBlock_aux wm f hn m le_rfl

/-- effect of one whole pass -/
def passFn (m : ℕ) (wm : F) (f : ℕ → F) (i : ℕ) : F :=
  if i % (2 * m) < m then f i + f (i + m) * wm ^ (i % (2 * m))
  else f (i - m) - f i * wm ^ (i % (2 * m) - m)

theorem fftPass_aux {n m T : ℕ} (hm : 0 < m) (wm : F) (f : ℕ → F) (hn : T * (2 * m) ≤ n) :
    (List.range T).foldlM (fun a t => (fftBlock (t * (2 * m)) m wm a).map Prod.fst) (arr n f) =
      some (arr n fun i => if i < T * (2 * m) then passFn m wm f i else f i) := by
  induction T with
  | zero => simp
  | succ T ih =>
    have hT : T * (2 * m) + 2 * m ≤ n := by rw [← Nat.succ_mul]; exact hn
    rw [List.range_succ, List.foldlM_append, ih (by omega)]
    simp only [Option.bind_eq_bind, Option.bind_some, List.foldlM_cons, List.foldlM_nil]
    rw [fftBlock_arr _ _ hT]
    simp only [Option.map_some, Option.bind_some, Option.pure_def, Option.some.injEq]
    apply arr_congr
    intro i hi
    rw [Nat.succ_mul T (2 * m)]
    generalize hB : T * (2 * m) = B at *
    have hmod : ∀ i, B ≤ i → i < B + 2 * m → i % (2 * m) = i - B := by
      intro i h1 h2
      obtain ⟨d, rfl⟩ := Nat.exists_eq_add_of_le h1
      rw [← hB, Nat.mul_add_mod_self_right, Nat.mod_eq_of_lt (by omega)]; omega
    simp only [blockFn]
    by_cases h1 : i < B
    · rw [if_neg (by omega), if_neg (by omega), if_pos h1, if_pos (by omega)]
    · by_cases h2 : i < B + m
      · rw [if_pos (by omega), if_neg h1, if_neg (by omega), if_pos (by omega), passFn,
          hmod i (by omega) (by omega), if_pos (by omega)]
      · by_cases h3 : i < B + 2 * m
        · rw [if_neg (by omega), if_pos (by omega), if_neg (by omega), if_neg h1, if_pos h3, passFn,
            hmod i (by omega) (by omega), if_neg (by omega)]
          congr 3; omega
        · rw [if_neg (by omega), if_neg (by omega), if_neg h1, if_neg h3]

theorem fftPass_arr {n m t : ℕ} (hm : 0 < m) (ω : F) (f : ℕ → F) (hn : n = t * (2 * m)) :
    fftPass n m ω (arr n f) = some (arr n (passFn m (ω ^ t) f)) := by
  have h1 : n / (2 * m) = t := by rw [hn]; exact Nat.mul_div_cancel _ (by omega)
  have h2 : (n + 2 * m - 1) / (2 * m) = t := by
    rw [hn, Nat.add_sub_assoc (by omega), Nat.mul_comm t, Nat.mul_add_div (by omega),
      Nat.div_eq_of_lt (by omega), add_zero]
  rw [fftPass, h1, h2, fftPass_aux hm _ _ hn.ge]
  congr 1
  apply arr_congr
  intro i hi
  rw [if_pos (by omega)]

theorem sum_range_two_mul (g : ℕ → F) (m : ℕ) :
    ∑ i ∈ range (2 * m), g i = ∑ i ∈ range m, g (2 * i) + ∑ i ∈ range m, g (2 * i + 1) := by
  induction m with
  | zero => simp
  | succ m ih =>
    rw [Nat.mul_succ, Finset.sum_range_succ, Finset.sum_range_succ, ih, Finset.sum_range_succ,
      Finset.sum_range_succ]
    ring

/-- invariant: after `s` passes the blocks of length `2^s` hold the transforms of the interleaved
subsequences -/
def Inv (L s : ℕ) (ω : F) (f g : ℕ → F) : Prop :=
  ∀ B < 2 ^ (L - s), ∀ j < 2 ^ s,
    g (B * 2 ^ s + j) = ∑ i ∈ range (2 ^ s), f (i * 2 ^ (L - s) + rev (L - s) B) *
      (ω ^ 2 ^ (L - s)) ^ (i * j)

theorem inv_step {L s : ℕ} (hs : s < L) {ω : F} (hω : ω ^ 2 ^ (L - 1) = -1) {f g : ℕ → F}
    (h : Inv L s ω f g) : Inv L (s + 1) ω f (passFn (2 ^ s) (ω ^ 2 ^ (L - (s + 1))) g) := by
  intro B hB j hj
  obtain ⟨d, hd⟩ : ∃ d, L - s = d + 1 := ⟨L - s - 1, by omega⟩
  have hd' : L - (s + 1) = d := by omega
  rw [hd'] at hB ⊢
  have hI := h
  unfold Inv at hI
  rw [hd] at hI
  have hw : ω ^ 2 ^ (d + 1) = (ω ^ 2 ^ d) ^ 2 := by rw [← pow_mul, ← pow_succ]
  rw [hw] at hI
  have hhalf : (ω ^ 2 ^ d) ^ 2 ^ s = -1 := by
    rw [← pow_mul, ← pow_add, ← hω]; congr 2; omega
  generalize ω ^ 2 ^ d = v at *
  rw [pow_succ 2 s, mul_comm (2 ^ s) 2] at hj ⊢
  have hm : 0 < 2 ^ s := Nat.two_pow_pos s
  generalize hM : 2 ^ s = m at *
  have ev : ∀ j' < m, g (B * (2 * m) + j') = ∑ i ∈ range m, f (i * 2 ^ (d + 1) + rev d B) *
      (v ^ 2) ^ (i * j') := by
    intro j' hj'
    have := hI (2 * B) (by rw [pow_succ]; omega) j' hj'
    rw [show rev (d + 1) (2 * B) = rev d B by simp [rev]] at this
    rw [← this]; congr 1; ring
  have od : ∀ j' < m, g (B * (2 * m) + m + j') = ∑ i ∈ range m,
      f (i * 2 ^ (d + 1) + (2 ^ d + rev d B)) * (v ^ 2) ^ (i * j') := by
    intro j' hj'
    have := hI (2 * B + 1) (by rw [pow_succ]; omega) j' hj'
    rw [show rev (d + 1) (2 * B + 1) = 2 ^ d + rev d B by
      simp [rev, show (2 * B + 1) / 2 = B by omega]] at this
    rw [← this]; congr 1; ring
  rw [sum_range_two_mul]
  have hsplit : ∀ j : ℕ, (∑ i ∈ range m, f ((2 * i) * 2 ^ d + rev d B) * v ^ (2 * i * j)) =
      ∑ i ∈ range m, f (i * 2 ^ (d + 1) + rev d B) * (v ^ 2) ^ (i * j) := by
    intro j
    apply Finset.sum_congr rfl
    intro i _
    rw [← pow_mul]; congr 2 <;> ring
  have hsplit' : ∀ j : ℕ, (∑ i ∈ range m, f ((2 * i + 1) * 2 ^ d + rev d B) * v ^ ((2 * i + 1) * j))
      = (∑ i ∈ range m, f (i * 2 ^ (d + 1) + (2 ^ d + rev d B)) * (v ^ 2) ^ (i * j)) * v ^ j := by
    intro j
    rw [Finset.sum_mul]
    apply Finset.sum_congr rfl
    intro i _
    rw [mul_assoc, ← pow_mul, ← pow_add]; congr 2 <;> ring
  rw [hsplit, hsplit']
  have hmod : (B * (2 * m) + j) % (2 * m) = j := by
    rw [Nat.mul_add_mod_self_right, Nat.mod_eq_of_lt hj]
  simp only [passFn, hmod]
  split
  · rename_i hlt
    rw [ev j hlt, show B * (2 * m) + j + m = B * (2 * m) + m + j by ring, od j hlt]
  · rename_i hge
    obtain ⟨j', rfl⟩ : ∃ j', j = m + j' := ⟨j - m, by omega⟩
    have hj' : j' < m := by omega
    rw [show B * (2 * m) + (m + j') - m = B * (2 * m) + j' by omega,
      show B * (2 * m) + (m + j') = B * (2 * m) + m + j' by ring, ev j' hj', od j' hj',
      Nat.add_sub_cancel_left]
    have p1 : ∀ i, (v ^ 2) ^ (i * (m + j')) = (v ^ 2) ^ (i * j') := by
      intro i
      rw [Nat.mul_add, pow_add, ← pow_mul v, show 2 * (i * m) = m * (2 * i) by ring, pow_mul, hhalf,
        pow_mul (-1 : F)]
      simp
    simp only [p1]
    rw [pow_add v m, hhalf]; ring

theorem passes {L : ℕ} {ω : F} (hω : 0 < L → ω ^ 2 ^ (L - 1) = -1) {f g0 : ℕ → F}
    (h0 : Inv L 0 ω f g0) (s : ℕ) (hs : s ≤ L) :
    ∃ g, (List.range s).foldlM (fun (st : Array F × ℕ) _ => do
      let a ← fftPass (2 ^ L) st.2 ω st.1
      some (a, st.2 * 2)) (arr (2 ^ L) g0, 1) = some (arr (2 ^ L) g, 2 ^ s) ∧ Inv L s ω f g := by
  induction s with
  | zero => exact ⟨g0, rfl, h0⟩
  | succ s ih =>
    obtain ⟨g, hg, hI⟩ := ih (by omega)
    refine ⟨_, ?_, inv_step hs (hω (by omega)) hI⟩
    rw [List.range_succ, List.foldlM_append, hg]
    simp only [Option.bind_eq_bind, Option.bind_some, List.foldlM_cons, List.foldlM_nil]
    rw [fftPass_arr (t := 2 ^ (L - (s + 1))) (Nat.two_pow_pos s) ω g (by
      rw [← pow_succ', ← pow_add]; congr 1; omega)]
    simp [pow_succ]

/-- `serial_fft` computes the transform -/
theorem serialFft_arr {L : ℕ} {ω : F} (hω : 0 < L → ω ^ 2 ^ (L - 1) = -1) (f : ℕ → F) :
    serialFft (arr (2 ^ L) f) ω L = some (arr (2 ^ L) (dft (2 ^ L) ω f)) := by
  have hsw := swapLoop L f (2 ^ L) le_rfl
  have hcongr : arr (2 ^ L) (fun i => if i < 2 ^ L ∨ rev L i < 2 ^ L then f (rev L i) else f i) =
      arr (2 ^ L) fun i => f (rev L i) := by
    apply arr_congr; intro i hi; rw [if_pos (Or.inl hi)]
  rw [hcongr] at hsw
  have h0 : Inv L 0 ω f fun i => f (rev L i) := by
    intro B hB j hj
    simp at hj
    subst hj
    simp
  obtain ⟨g, hg, hI⟩ := passes hω h0 L le_rfl
  simp only [serialFft, size_arr, Nat.shiftLeft_eq, one_mul, ne_eq, not_true_eq_false, if_false]
  simp only [Option.bind_eq_bind]
  rw [hsw]
  simp only [Option.bind_some]
  simp only [Option.bind_eq_bind] at hg
  rw [hg]
  simp only [Option.bind_some, Option.some.injEq]
  apply arr_congr
  intro j hj
  have := hI 0 (Nat.two_pow_pos _) j hj
  simp only [Nat.sub_self, pow_zero, mul_one, pow_one, zero_mul, zero_add, rev, add_zero] at this
  rw [this, dft]
  apply Finset.sum_congr rfl
  intro i _
  rw [← pow_mul, mul_comm j i]

theorem serialFft_size {a : Array F} {ω : F} {L : ℕ} (h : a.size ≠ 2 ^ L) :
    serialFft a ω L = none := by
  simp [serialFft, Nat.shiftLeft_eq, h]

end Util
end Halo
