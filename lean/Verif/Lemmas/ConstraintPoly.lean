import Verif.Lemmas.EvalPoly
import Verif.Lemmas.PolyMul
import Mathlib.Algebra.Polynomial.Roots
/-!
# The constant coefficient of `t(X, y)`
-/
namespace Halo
namespace Circuit
open Util
variable {F : Type} [Field F]

/-- `r(X, 1)` shifted by `X^{2n}` -/
def rVec (n : ℕ) (w : Var → F) : List F :=
  (col (fun i => w (.C i)) n).reverse ++ (col (fun i => w (.B i)) n).reverse ++ [0] ++
    col (fun i => w (.A i)) n

theorem rPoly_wiresOf {w : Var → F} {g : ℕ} (n : ℕ) (h : ∀ v : Var, g < v.index → w v = 0) :
    rPoly n (wiresOf w g) = rVec n w := by
  unfold rPoly rVec wiresOf
  rw [resize_col, resize_col, resize_col]
  · exact fun i hi => h (.A i) hi
  · exact fun i hi => h (.B i) hi
  · exact fun i hi => h (.C i) hi

@[simp] theorem rVec_length (n : ℕ) (w : Var → F) : (rVec n w).length = 3 * n + 1 := by
  simp [rVec]; omega

@[simp] theorem sxVec_length (n : ℕ) (lcs : List (LC F)) (y : F) :
    (sxVec n lcs y).length = 3 * n + 1 := by
  simp [sxVec]; omega

theorem getD_eq_getElem' (l : List F) {i : ℕ} (h : i < l.length) : l.getD i 0 = l[i] := by
  simp [List.getD, h]

omit [Field F] in
theorem col_getElem (f : ℕ → F) (n i : ℕ) (h : i < (col f n).length) : (col f n)[i] = f (i + 1) := by
  simp [col]

omit [Field F] in
theorem col_rev_getElem (f : ℕ → F) (n i : ℕ) (h : i < (col f n).reverse.length) :
    (col f n).reverse[i] = f (n - i) := by
  simp only [List.length_reverse, col_length] at h
  rw [List.getElem_reverse, col_getElem, col_length]
  congr 1; omega

theorem rVec_c {n : ℕ} (w : Var → F) {i : ℕ} (hi : i < n) :
    (rVec n w).getD (n - (i + 1)) 0 = w (.C (i + 1)) := by
  rw [getD_eq_getElem' _ (by simp; omega)]
  unfold rVec
  rw [List.getElem_append_left (by simp; omega), List.getElem_append_left (by simp; omega),
    List.getElem_append_left (by simp; omega), col_rev_getElem]
  congr 2; omega

theorem rVec_b {n : ℕ} (w : Var → F) {i : ℕ} (hi : i < n) :
    (rVec n w).getD (2 * n - (i + 1)) 0 = w (.B (i + 1)) := by
  rw [getD_eq_getElem' _ (by simp; omega)]
  unfold rVec
  rw [List.getElem_append_left (by simp; omega), List.getElem_append_left (by simp; omega),
    List.getElem_append_right (by simp; omega), col_rev_getElem]
  congr 2; simp; omega

theorem rVec_mid (n : ℕ) (w : Var → F) : (rVec n w).getD (2 * n) 0 = 0 := by
  rw [getD_eq_getElem' _ (by simp; omega)]
  unfold rVec
  rw [List.getElem_append_left (by simp; omega), List.getElem_append_right (by simp; omega)]
  simp

theorem rVec_a {n : ℕ} (w : Var → F) {i : ℕ} (hi : i < n) :
    (rVec n w).getD (2 * n + (i + 1)) 0 = w (.A (i + 1)) := by
  rw [getD_eq_getElem' _ (by simp; omega)]
  unfold rVec
  rw [List.getElem_append_right (by simp; omega), col_getElem]
  congr 2; simp; omega

theorem sxVec_u {n : ℕ} (lcs : List (LC F)) (y : F) {i : ℕ} (hi : i < n) :
    (sxVec n lcs y).getD (n - (i + 1)) 0 = sCoeff lcs y (.A (i + 1)) := by
  rw [getD_eq_getElem' _ (by simp; omega)]
  unfold sxVec
  have hb : n - (i + 1) < n := by omega
  rw [List.getElem_append_left (by simp; omega), List.getElem_append_left (by simp),
    List.getElem_append_left (by simpa using hb), col_rev_getElem]
  congr 2; omega

theorem sxVec_v {n : ℕ} (lcs : List (LC F)) (y : F) {i : ℕ} (hi : i < n) :
    (sxVec n lcs y).getD (n + (i + 1)) 0 = sCoeff lcs y (.B (i + 1)) := by
  rw [getD_eq_getElem' _ (by simp; omega)]
  unfold sxVec
  rw [List.getElem_append_left (by simp; omega), List.getElem_append_right (by simp),
    col_getElem]
  congr 2; simp; omega

theorem sxVec_w {n : ℕ} (lcs : List (LC F)) (y : F) {i : ℕ} (hi : i < n) :
    (sxVec n lcs y).getD (2 * n + (i + 1)) 0 = sCoeff lcs y (.C (i + 1)) := by
  rw [getD_eq_getElem' _ (by simp; omega)]
  unfold sxVec
  rw [List.getElem_append_right (by simp; omega), col_getElem]
  congr 2; simp; omega

/-- scaling from the last coefficient -/
theorem scaleRev_eq (z : F) (l : List F) : ∀ (out : List F) (cur : F),
    l.reverse.foldl (fun (p : List F × F) c => (c * p.2 :: p.1, p.2 * z)) (out, cur) =
      (l.mapIdx (fun j c => c * (cur * z ^ (l.length - 1 - j))) ++ out, cur * z ^ l.length) := by
  induction l using List.reverseRecOn with
  | nil => intro out cur; simp
  | append_singleton l c ih =>
    intro out cur
    simp only [List.reverse_append, List.reverse_cons, List.reverse_nil, List.nil_append,
      List.singleton_append, List.foldl_cons, ih, Prod.mk.injEq]
    refine ⟨?_, by simp [pow_succ]; ring⟩
    simp only [List.mapIdx_append, List.mapIdx_cons, List.mapIdx_nil, List.length_append,
      List.length_singleton, List.append_assoc, List.singleton_append]
    congr 1
    · apply List.ext_getElem
      · simp
      · intro j h1 h2
        simp only [List.length_mapIdx] at h1
        simp only [List.getElem_mapIdx]
        have : l.length + 1 - 1 - j = (l.length - 1 - j) + 1 := by omega
        rw [this, pow_succ]; ring
    · simp

theorem rxyPoly_getD {n : ℕ} {rx : List F} (hrx : rx.length = 3 * n + 1) (y yInv : F) (j : ℕ) :
    (rxyPoly n rx y yInv).getD j 0 = rx.getD j 0 * (y ^ n * yInv ^ (3 * n - j)) := by
  have : rxyPoly n rx y yInv = rx.mapIdx (fun j c => c * (y ^ n * yInv ^ (rx.length - 1 - j))) := by
    have := scaleRev_eq yInv rx [] (y ^ n)
    simp only [rxyPoly, this, List.append_nil]
  rw [this]
  by_cases hj : j < rx.length
  · have h2 : rx.length - 1 - j = 3 * n - j := by omega
    simp [List.getD, hj, h2]
  · simp [List.getD, hj]

@[simp] theorem rxyPoly_length (n : ℕ) (rx : List F) (y yInv : F) :
    (rxyPoly n rx y yInv).length = rx.length := by
  have := scaleRev_eq yInv rx [] (y ^ n)
  simp [rxyPoly, this]

theorem subPowers_eq (y yInv : F) (l : List F) : ∀ pos neg : F,
    subPowers y yInv l pos neg = l.mapIdx fun i c => c - pos * y ^ i - neg * yInv ^ i := by
  induction l with
  | nil => intro pos neg; rfl
  | cons c l ih =>
    intro pos neg
    simp only [subPowers, ih, List.mapIdx_cons, pow_zero, mul_one]
    congr 1
    apply List.ext_getElem
    · simp
    · intro i h1 h2
      simp only [List.getElem_mapIdx, pow_succ]
      ring

theorem sPrime_length {n : ℕ} {sx : List F} (h : sx.length = 3 * n + 1) (y yInv : F) :
    (sPrime n sx y yInv).length = 3 * n + 1 := by
  simp [sPrime, subPowers_eq, h]; omega

theorem sPrime_low {n : ℕ} {sx : List F} (h : sx.length = 3 * n + 1) (y yInv : F) {j : ℕ}
    (hj : j ≤ 2 * n) : (sPrime n sx y yInv).getD j 0 = sx.getD j 0 * y ^ n := by
  rw [getD_eq_getElem' _ (by rw [sPrime_length h]; omega), getD_eq_getElem' _ (by omega)]
  unfold sPrime
  simp only
  rw [List.getElem_append_left (by simp; omega)]
  simp

theorem sPrime_high {n : ℕ} {sx : List F} (h : sx.length = 3 * n + 1) (y yInv : F) {i : ℕ}
    (hi : i < n) : (sPrime n sx y yInv).getD (2 * n + (i + 1)) 0 =
      sx.getD (2 * n + (i + 1)) 0 * y ^ n - y ^ (i + 1) - yInv ^ (i + 1) := by
  rw [getD_eq_getElem' _ (by rw [sPrime_length h]; omega), getD_eq_getElem' _ (by omega)]
  unfold sPrime
  simp only [subPowers_eq]
  have hl : (List.take (2 * n + 1) (List.map (fun x => x * y ^ n) sx)).length = 2 * n + 1 := by
    simp; omega
  have hi' : 2 * n + (i + 1) - (2 * n + 1) = i := by omega
  rw [List.getElem_append_right (by rw [hl]; omega)]
  simp only [hl, hi', List.getElem_mapIdx, List.getElem_drop, List.getElem_map]
  have : 2 * n + 1 + i = 2 * n + (i + 1) := by omega
  simp only [this, pow_succ]
  ring

theorem resize_getD (l : List F) {n : ℕ} (h : l.length ≤ n) (j : ℕ) :
    (resize l n).getD j 0 = l.getD j 0 := by
  unfold resize
  rw [List.take_of_length_le h]
  by_cases hj : j < l.length
  · rw [List.getD, List.getElem?_append_left hj]; rfl
  · rw [List.getD, List.getElem?_append_right (by omega)]
    rw [List.getElem?_replicate]
    split <;> simp [List.getD, hj]

theorem resize_length (l : List F) (n : ℕ) : (resize l n).length = n := by
  simp [resize]; omega

theorem rPrime_length {n : ℕ} {sp : List F} (rxy : List F) (h : sp.length = 3 * n + 1) :
    (rPrime n rxy sp).length = 4 * n + 1 := by
  simp [rPrime, resize_length, h]; omega

theorem rPrime_getD {n : ℕ} {rxy sp : List F} (hr : rxy.length = 3 * n + 1)
    (hs : sp.length = 3 * n + 1) {j : ℕ} (hj : n ≤ j) (hj' : j ≤ 4 * n) :
    (rPrime n rxy sp).getD j 0 = rxy.getD j 0 + sp.getD (j - n) 0 := by
  rw [getD_eq_getElem' _ (by rw [rPrime_length _ hs]; omega), ← resize_getD rxy (n := 4 * n + 1) (by omega),
    getD_eq_getElem' _ (by rw [resize_length]; omega), getD_eq_getElem' _ (by omega)]
  unfold rPrime
  have hl : (List.take n (resize rxy (4 * n + 1))).length = n := by
    simp [resize_length]; omega
  rw [List.getElem_append_right (by rw [hl]; omega)]
  simp only [hl, List.getElem_zipWith, List.getElem_drop]
  have : n + (j - n) = j := by omega
  simp only [this]

theorem rPrime_low {n : ℕ} {rxy sp : List F} (hr : rxy.length = 3 * n + 1) {j : ℕ} (hj : j < n) :
    (rPrime n rxy sp).getD j 0 = rxy.getD j 0 := by
  have hl : (List.take n (resize rxy (4 * n + 1))).length = n := by
    simp [resize_length]; omega
  rw [← resize_getD rxy (n := 4 * n + 1) (by omega)]
  unfold rPrime
  simp only
  rw [List.getD, List.getElem?_append_left (by omega), List.getElem?_take_of_lt hj]
  rfl

/-- `r'(X, y) = r(X, y) + s'(X, y)` as the code computes it -/
def rPrimeVec (n : ℕ) (w : Var → F) (lcs : List (LC F)) (y : F) : List F :=
  rPrime n (rxyPoly n (rVec n w) y y⁻¹) (sPrime n (sxVec n lcs y) y y⁻¹)

theorem rPrimeVec_length (n : ℕ) (w : Var → F) (lcs : List (LC F)) (y : F) :
    (rPrimeVec n w lcs y).length = 4 * n + 1 := rPrime_length _ (sPrime_length (by simp) _ _)

/-- The constant coefficient of `r(X, 1) r'(X, y)` -/
theorem conv_const (n : ℕ) (w : Var → F) {lcs : List (LC F)} (hl : InScope n lcs) {y : F}
    (hy : y ≠ 0) :
    conv (fun i => (rVec n w).getD i 0) (fun i => (rPrimeVec n w lcs y).getD i 0) (4 * n) =
      ∑ i ∈ Finset.range n, (w (.A (i + 1)) * w (.B (i + 1)) - w (.C (i + 1))) *
          (y ^ (i + 1) + (y ^ (i + 1))⁻¹) +
        y ^ n * (lcs.mapIdx fun q lc => y ^ (q + 1) * lc.eval w).sum := by
  have hrl := rVec_length n w
  have hsl := sxVec_length n lcs y
  have hspl := sPrime_length hsl y y⁻¹
  have hxl : (rxyPoly n (rVec n w) y y⁻¹).length = 3 * n + 1 := by simp
  have hz : ∀ j, 3 * n < j → (rVec n w).getD j 0 = 0 := fun j hj => by
    simp [List.getD, List.getElem?_eq_none (show (rVec n w).length ≤ j by simp; omega)]
  have hR : ∀ j, j ≤ 3 * n → (rPrimeVec n w lcs y).getD (4 * n - j) 0 =
      (rVec n w).getD (4 * n - j) 0 * (y ^ n * y⁻¹ ^ (3 * n - (4 * n - j))) +
        (sPrime n (sxVec n lcs y) y y⁻¹).getD (3 * n - j) 0 := fun j hj => by
    rw [rPrimeVec, rPrime_getD hxl hspl (by omega) (by omega), rxyPoly_getD hrl]
    congr 2; omega
  rw [conv, Finset.Nat.sum_antidiagonal_eq_sum_range_succ
    (fun a b => (rVec n w).getD a 0 * (rPrimeVec n w lcs y).getD b 0)]
  have e1 : (4 * n).succ = (n + n + (1 + n)) + n := by omega
  rw [e1, Finset.sum_range_add, Finset.sum_eq_zero (s := Finset.range n)
    (f := fun x => (rVec n w).getD (n + n + (1 + n) + x) 0 * _), add_zero]
  rotate_left
  · intro j hj
    rw [hz _ (by omega), zero_mul]
  rw [Finset.sum_range_add, Finset.sum_range_add, Finset.sum_range_add]
  rw [← Finset.sum_range_reflect (n := n) (f := fun x => (rVec n w).getD x 0 * _),
    ← Finset.sum_range_reflect (n := n) (f := fun x => (rVec n w).getD (n + x) 0 * _)]
  rw [sEval_eq_sum hl, Finset.mul_sum]
  simp only [Finset.sum_range_one, add_zero]
  rw [show n + n = 2 * n by ring, rVec_mid, zero_mul, zero_add]
  rw [← Finset.sum_add_distrib, ← Finset.sum_add_distrib, ← Finset.sum_add_distrib]
  apply Finset.sum_congr rfl
  intro i hi
  simp only [Finset.mem_range] at hi
  have i1 : n - 1 - i = n - (i + 1) := by omega
  have i2 : n + (n - (i + 1)) = 2 * n - (i + 1) := by omega
  have i3 : 2 * n + (1 + i) = 2 * n + (i + 1) := by omega
  rw [i1, i2, i3, hR _ (by omega), hR _ (by omega), hR _ (by omega), rVec_c w hi, rVec_b w hi,
    rVec_a w hi, hz (4 * n - (n - (i + 1))) (by omega)]
  have j1 : 3 * n - (n - (i + 1)) = 2 * n + (i + 1) := by omega
  have j2 : 4 * n - (2 * n - (i + 1)) = 2 * n + (i + 1) := by omega
  have j3 : 3 * n - (2 * n - (i + 1)) = n + (i + 1) := by omega
  have j4 : 4 * n - (2 * n + (i + 1)) = 2 * n - (i + 1) := by omega
  have j5 : 3 * n - (2 * n + (i + 1)) = n - (i + 1) := by omega
  have j6 : n = (n - (i + 1)) + (i + 1) := by omega
  have j7 : 3 * n - (2 * n - (i + 1)) = n + (i + 1) := by omega
  rw [j1, j2, j3, j4, j5, j7, sPrime_high hsl _ _ hi, sPrime_low hsl _ _ (by omega),
    sPrime_low hsl _ _ (by omega), sxVec_u _ _ hi, sxVec_v _ _ hi, sxVec_w _ _ hi, rVec_a w hi,
    rVec_b w hi]
  have k1 : y ^ n * y⁻¹ ^ (n - (i + 1)) = y ^ (i + 1) := by
    have : y ^ n = y ^ (i + 1) * y ^ (n - (i + 1)) := by rw [← pow_add]; congr 1; omega
    rw [this, mul_assoc, ← mul_pow, mul_inv_cancel₀ hy, one_pow, mul_one]
  have k2 : y ^ n * y⁻¹ ^ (n + (i + 1)) = (y ^ (i + 1))⁻¹ := by
    rw [pow_add, ← mul_assoc, ← mul_pow, mul_inv_cancel₀ hy, one_pow, one_mul, inv_pow]
  rw [k1, k2, inv_pow]
  ring

open Polynomial in
/-- If a gate or a linear constraint fails, the identity holds only for few values of `y`. -/
theorem few_roots (n Q : ℕ) (d e : ℕ → F) (h : (∃ i, i < n ∧ d i ≠ 0) ∨ ∃ q, q < Q ∧ e q ≠ 0) :
    ∃ s : Finset F, s.card ≤ 2 * n + Q ∧ ∀ y, y ≠ 0 →
      ∑ i ∈ Finset.range n, d i * (y ^ (i + 1) + (y ^ (i + 1))⁻¹) +
        y ^ n * ∑ q ∈ Finset.range Q, y ^ (q + 1) * e q = 0 → y ∈ s := by
  classical
  let P : F[X] := ∑ i ∈ Finset.range n, C (d i) * (X ^ (n + (i + 1)) + X ^ (n - (i + 1))) +
    ∑ q ∈ Finset.range Q, C (e q) * X ^ (2 * n + (q + 1))
  have hdeg : P.natDegree ≤ 2 * n + Q := by
    apply natDegree_add_le_of_degree_le
    · apply natDegree_sum_le_of_forall_le
      intro i hi
      simp only [Finset.mem_range] at hi
      refine (natDegree_C_mul_le _ _).trans (natDegree_add_le_of_degree_le ?_ ?_) <;>
      · rw [natDegree_X_pow]; omega
    · apply natDegree_sum_le_of_forall_le
      intro q hq
      simp only [Finset.mem_range] at hq
      refine (natDegree_C_mul_le _ _).trans ?_
      rw [natDegree_X_pow]; omega
  have hP : P ≠ 0 := by
    intro h0
    have hc : ∀ m, P.coeff m = 0 := by simp [h0]
    simp only [P, coeff_add, finsetSum_coeff, coeff_C_mul, coeff_X_pow] at hc
    rcases h with ⟨i, hi, hd⟩ | ⟨q, hq, he⟩
    · have := hc (n + (i + 1))
      rw [Finset.sum_eq_single_of_mem i (by simpa using hi), Finset.sum_eq_zero] at this
      · have h1 : ¬ (n + (i + 1) = n - (i + 1)) := by omega
        simp [h1, hd] at this
      · intro q _
        have : ¬ (n + (i + 1) = 2 * n + (q + 1)) := by omega
        simp [this]
      · intro j hj hne
        have h1 : ¬ (n + (i + 1) = n + (j + 1)) := by omega
        have h2 : ¬ (n + (i + 1) = n - (j + 1)) := by omega
        rw [if_neg h1, if_neg h2, add_zero, mul_zero]
    · have := hc (2 * n + (q + 1))
      rw [Finset.sum_eq_zero, Finset.sum_eq_single_of_mem q (by simpa using hq)] at this
      · simp [he] at this
      · intro j hj hne
        have h1 : ¬ (2 * n + (q + 1) = 2 * n + (j + 1)) := by omega
        rw [if_neg h1, mul_zero]
      · intro i hi
        simp only [Finset.mem_range] at hi
        have h1 : ¬ (2 * n + (q + 1) = n + (i + 1)) := by omega
        have h2 : ¬ (2 * n + (q + 1) = n - (i + 1)) := by omega
        rw [if_neg h1, if_neg h2, add_zero, mul_zero]
  refine ⟨P.roots.toFinset, (Multiset.toFinset_card_le _).trans ((card_roots' P).trans hdeg), ?_⟩
  intro y hy h0
  rw [Multiset.mem_toFinset, mem_roots hP, IsRoot.def]
  have : P.eval y = y ^ n * (∑ i ∈ Finset.range n, d i * (y ^ (i + 1) + (y ^ (i + 1))⁻¹) +
        y ^ n * ∑ q ∈ Finset.range Q, y ^ (q + 1) * e q) := by
    simp only [P, eval_add, eval_finsetSum, eval_mul, eval_C, eval_pow, eval_X, mul_add,
      Finset.mul_sum, Finset.sum_add_distrib]
    congr 1
    · congr 1
      · apply Finset.sum_congr rfl
        intro i _
        rw [pow_add]; ring
      · apply Finset.sum_congr rfl
        intro i hi
        simp only [Finset.mem_range] at hi
        have : y ^ n = y ^ (n - (i + 1)) * y ^ (i + 1) := by rw [← pow_add]; congr 1; omega
        have hne : y ^ (i + 1) ≠ 0 := pow_ne_zero _ hy
        rw [this, mul_left_comm, mul_assoc, mul_inv_cancel₀ hne, mul_one]
    · apply Finset.sum_congr rfl
      intro q _
      ring
  rw [this, h0, mul_zero]

/-! ### The polynomial `k(Y)` -/

/-- The inputs are exposed by constraints with increasing positive numbers. -/
structure KOk (l : List (ℕ × F)) : Prop where
  sorted : (l.map Prod.fst).Pairwise (· < ·)
  pos : ∀ p ∈ l, 0 < p.1

theorem resize_set_getD {l : List F} {i : ℕ} (h : l.length ≤ i) (v : F) (j : ℕ) :
    ((resize l (i + 1)).set i v).getD j 0 = if j = i then v else l.getD j 0 := by
  by_cases hj : j = i
  · subst hj
    have : j < (resize l (j + 1)).length := by rw [resize_length]; omega
    simp [List.getD, this]
  · rw [if_neg hj, ← resize_getD l (n := i + 1) (by omega)]
    have : ¬ i = j := fun h => hj h.symm
    simp [List.getD, this]

theorem rhs_concat {l : List (ℕ × F)} {i : ℕ} {v : F} (h : ∀ p ∈ l, p.1 < i) (q : ℕ) :
    rhs (l ++ [(i, v)]) q = if q = i then v else rhs l q := by
  unfold rhs
  rw [List.find?_append]
  by_cases hq : q = i
  · subst hq
    have : l.find? (fun p => decide (p.1 = q)) = none := by
      rw [List.find?_eq_none]
      intro p hp hpq
      have := h p hp
      simp only [decide_eq_true_eq] at hpq
      omega
    simp [this]
  · have hq' : ¬ i = q := fun h => hq h.symm
    cases l.find? (fun p => decide (p.1 = q)) <;> simp [hq, hq']

theorem kPoly_spec (l : List (ℕ × F)) (h : KOk l) :
    (∀ q, (kPoly l).getD q 0 = rhs l q) ∧
      (kPoly l).length = ((l.map Prod.fst).getLast?.getD 0) + 1 := by
  induction l using List.reverseRecOn with
  | nil =>
    refine ⟨fun q => ?_, rfl⟩
    cases q <;> simp [kPoly, rhs]
  | append_singleton l p ih =>
    obtain ⟨h1, h2⟩ := h
    rw [List.map_append, List.pairwise_append] at h1
    obtain ⟨h1, -, h3⟩ := h1
    have hp : ∀ p' ∈ l, p'.1 < p.1 := fun p' hp' =>
      h3 p'.1 (List.mem_map.2 ⟨p', hp', rfl⟩) p.1 (by simp)
    obtain ⟨i1, i2⟩ := ih ⟨h1, fun p' hp' => h2 p' (by simp [hp'])⟩
    have hlen : (kPoly l).length ≤ p.1 := by
      rw [i2]
      cases hl : (l.map Prod.fst).getLast? with
      | none => have := h2 p (by simp); simp; omega
      | some x =>
        have hx := List.mem_of_getLast? hl
        obtain ⟨p', hp', rfl⟩ := List.mem_map.1 hx
        exact hp p' hp'
    have hk : kPoly (l ++ [p]) = (resize (kPoly l) (p.1 + 1)).set p.1 p.2 := by
      simp [kPoly, List.foldl_append]
    refine ⟨fun q => ?_, ?_⟩
    · rw [hk, resize_set_getD hlen, rhs_concat hp, i1]
    · rw [hk]; simp [resize_length]

theorem rhs_zero {l : List (ℕ × F)} (h : KOk l) : rhs l 0 = 0 := by
  unfold rhs
  have : l.find? (fun p => decide (p.1 = 0)) = none := by
    rw [List.find?_eq_none]
    intro p hp hpq
    have := h.pos p hp
    simp only [decide_eq_true_eq] at hpq
    omega
  simp [this]

/-- `k(y)` -/
theorem opening_kPoly {l : List (ℕ × F)} (h : KOk l) {Q : ℕ} (hQ : ∀ p ∈ l, p.1 ≤ Q) (y : F) :
    opening (kPoly l) y = ∑ q ∈ Finset.range Q, y ^ (q + 1) * rhs l (q + 1) := by
  obtain ⟨h1, h2⟩ := kPoly_spec l h
  have hlen : (kPoly l).length ≤ Q + 1 := by
    rw [h2]
    cases hl : (l.map Prod.fst).getLast? with
    | none => simp
    | some x =>
      have hx := List.mem_of_getLast? hl
      obtain ⟨p', hp', rfl⟩ := List.mem_map.1 hx
      have := hQ p' hp'
      simpa using this
  rw [opening_sum]
  have : ∑ i ∈ Finset.range (kPoly l).length, (kPoly l).getD i 0 * y ^ i =
      ∑ i ∈ Finset.range (Q + 1), (kPoly l).getD i 0 * y ^ i := by
    apply Finset.sum_subset
    · intro i hi
      simp only [Finset.mem_range] at hi ⊢
      omega
    · intro i _ hi
      simp only [Finset.mem_range, not_lt] at hi
      simp [List.getD, List.getElem?_eq_none hi]
  rw [this, Finset.sum_range_succ', h1, rhs_zero h, zero_mul, add_zero]
  apply Finset.sum_congr rfl
  intro q _
  rw [h1, mul_comm]

theorem sum_mapIdx (l : List (LC F)) (g : ℕ → LC F → F) :
    (l.mapIdx g).sum = ∑ q ∈ Finset.range l.length, g q (l.getD q LC.zero) := by
  induction l using List.reverseRecOn with
  | nil => simp
  | append_singleton l lc ih =>
    simp only [List.mapIdx_append, List.sum_append, ih, List.mapIdx_cons, List.mapIdx_nil,
      List.sum_cons, List.sum_nil, zero_add, add_zero, List.length_append, List.length_singleton,
      Finset.sum_range_succ]
    congr 1
    · apply Finset.sum_congr rfl
      intro q hq
      simp only [Finset.mem_range] at hq
      simp [List.getD, List.getElem?_append_left hq]
    · simp [List.getD]

end Circuit
end Halo
