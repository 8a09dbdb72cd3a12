import Verif.Lemmas.FftPar
import Verif.Lemmas.LawfulField
import Mathlib.Algebra.Polynomial.Eval.Degree
import Mathlib.Algebra.Field.GeomSum
import Mathlib.RingTheory.RootsOfUnity.PrimitiveRoots
/-!
# `multiply_polynomials`
-/
namespace Halo
namespace Util
open Finset Mem Polynomial
variable {F : Type} [Field F]

/-- coefficient `k` of the product -/
def conv (a b : ℕ → F) (k : ℕ) : F := ∑ p ∈ antidiagonal k, a p.1 * b p.2

theorem geom_orth {ω : F} {m : ℕ} (h : IsPrimitiveRoot ω m) {j k : ℕ} (hj : j < m) (hk : k < m) :
    ∑ i ∈ range m, (ω ^ j * (ω⁻¹) ^ k) ^ i = if j = k then (m : F) else 0 := by
  have h0 : ω ≠ 0 := h.ne_zero (by omega)
  split
  · rename_i h'; subst h'
    rw [inv_pow, mul_inv_cancel₀ (pow_ne_zero _ h0)]; simp
  · rename_i hne
    set x := ω ^ j * (ω⁻¹) ^ k with hx
    have hx1 : x ≠ 1 := by
      intro h1
      apply hne
      apply h.pow_inj hj hk
      rw [hx, inv_pow] at h1
      exact (mul_inv_eq_one₀ (pow_ne_zero _ h0)).1 h1
    have hxm : x ^ m = 1 := by
      rw [hx, mul_pow, ← pow_mul, ← pow_mul, mul_comm j, mul_comm k, pow_mul, pow_mul, inv_pow,
        h.pow_eq_one]; simp
    rw [geom_sum_eq hx1, hxm, sub_self, zero_div]

theorem dft_inv {ω : F} {m : ℕ} (h : IsPrimitiveRoot ω m) (c : ℕ → F) {k : ℕ} (hk : k < m) :
    dft m ω⁻¹ (dft m ω c) k = m * c k := by
  rw [dft]
  simp only [dft, Finset.sum_mul]
  rw [Finset.sum_comm]
  have : ∀ j ∈ range m, ∑ i ∈ range m, c j * (ω ^ i) ^ j * ((ω⁻¹) ^ k) ^ i =
      if j = k then (m : F) * c k else 0 := by
    intro j hj
    have := geom_orth h (Finset.mem_range.1 hj) hk
    have e : ∀ i, c j * (ω ^ i) ^ j * ((ω⁻¹) ^ k) ^ i = c j * (ω ^ j * (ω⁻¹) ^ k) ^ i := by
      intro i; rw [mul_pow, mul_assoc, ← pow_mul ω i j, mul_comm i j, pow_mul]
    simp only [e]
    rw [← Finset.mul_sum, this]
    split
    · rename_i h; rw [h]; ring
    · simp
  rw [Finset.sum_congr rfl this, Finset.sum_ite_eq' , if_pos (Finset.mem_range.2 hk)]

/-- the polynomial with coefficients `a 0 … a (n-1)` -/
noncomputable def ofCoeffs (n : ℕ) (a : ℕ → F) : F[X] := ∑ i ∈ range n, C (a i) * X ^ i

theorem ofCoeffs_coeff {n : ℕ} (a : ℕ → F) (ha : ∀ i, n ≤ i → a i = 0) (k : ℕ) :
    (ofCoeffs n a).coeff k = a k := by
  rw [ofCoeffs, finsetSum_coeff]
  simp only [coeff_C_mul_X_pow]
  rw [Finset.sum_ite_eq]
  split
  · rfl
  · rename_i h; exact (ha k (by simpa using h)).symm

theorem ofCoeffs_natDegree {n : ℕ} (hn : 0 < n) (a : ℕ → F) (ha : ∀ i, n ≤ i → a i = 0) :
    (ofCoeffs n a).natDegree ≤ n - 1 := by
  rw [natDegree_le_iff_coeff_eq_zero]
  intro k hk
  rw [ofCoeffs_coeff a ha, ha k (by omega)]

theorem dft_ofCoeffs {n m : ℕ} (hnm : n ≤ m) (ω : F) (a : ℕ → F) (ha : ∀ i, n ≤ i → a i = 0)
    (k : ℕ) : dft m ω a k = (ofCoeffs n a).eval (ω ^ k) := by
  rw [dft, ofCoeffs, eval_finsetSum]
  simp only [eval_mul, eval_C, eval_pow, eval_X]
  symm
  apply Finset.sum_subset (Finset.range_subset_range.2 hnm)
  intro i _ hi
  rw [ha i (by simpa using hi), zero_mul]

theorem conv_high {na nb : ℕ} (ha0 : 0 < na) (hb0 : 0 < nb) (a b : ℕ → F)
    (ha : ∀ i, na ≤ i → a i = 0) (hb : ∀ i, nb ≤ i → b i = 0) {k : ℕ}
    (hk : na + nb - 1 ≤ k) : conv a b k = 0 := by
  apply Finset.sum_eq_zero
  intro p hp
  have := Finset.mem_antidiagonal.1 hp
  by_cases h : na ≤ p.1
  · rw [ha _ h, zero_mul]
  · rw [hb _ (by omega), mul_zero]

/-- transforms multiply -/
theorem dft_conv {na nb m : ℕ} (ha0 : 0 < na) (hb0 : 0 < nb) (hm : na + nb - 1 ≤ m) (ω : F)
    (a b : ℕ → F) (ha : ∀ i, na ≤ i → a i = 0) (hb : ∀ i, nb ≤ i → b i = 0) (k : ℕ) :
    dft m ω a k * dft m ω b k = dft m ω (conv a b) k := by
  rw [dft_ofCoeffs (n := na) (by omega) ω a ha, dft_ofCoeffs (n := nb) (by omega) ω b hb,
    ← eval_mul]
  have hdeg : (ofCoeffs na a * ofCoeffs nb b).natDegree < m := by
    have h1 := ofCoeffs_natDegree ha0 a ha
    have h2 := ofCoeffs_natDegree hb0 b hb
    have h3 := natDegree_mul_le (p := ofCoeffs na a) (q := ofCoeffs nb b)
    omega
  rw [eval_eq_sum_range' hdeg, dft]
  apply Finset.sum_congr rfl
  intro i _
  rw [coeff_mul, conv]
  congr 1
  apply Finset.sum_congr rfl
  intro p _
  rw [ofCoeffs_coeff a ha, ofCoeffs_coeff b hb]

/-! ## the size of the domain -/

theorem domainSizeAux_spec (coeffs fuel m exp : ℕ) (hm : m = 2 ^ exp) (hf : exp + fuel = 33)
    (he : exp < 32) :
    (coeffs ≤ 2 ^ 31 → exp = 0 ∨ 2 ^ (exp - 1) < coeffs →
      ∃ e, domainSizeAux coeffs fuel m exp = some (2 ^ e, e) ∧ e < 32 ∧ coeffs ≤ 2 ^ e ∧
      (e = 0 ∨ 2 ^ (e - 1) < coeffs)) ∧
    (2 ^ 31 < coeffs → domainSizeAux coeffs fuel m exp = none) := by
  induction fuel generalizing m exp with
  | zero => omega
  | succ fuel ih =>
    subst hm
    rw [domainSizeAux]
    constructor
    · intro h1 h2
      split
      · rename_i hlt
        have : exp + 1 < 32 := by
          by_contra hge
          have : exp = 31 := by omega
          subst this; omega
        simp only [ge_iff_le]
        rw [if_neg (by omega)]
        exact (ih (2 ^ exp * 2) (exp + 1) (by rw [pow_succ]) (by omega) this).1 h1
          (Or.inr (by simpa using hlt))
      · rename_i hge
        exact ⟨exp, rfl, he, not_lt.1 hge, h2⟩
    · intro h1
      have : 2 ^ exp ≤ 2 ^ 31 := Nat.pow_le_pow_right (by norm_num) (by omega)
      rw [if_pos (by omega)]
      simp only [ge_iff_le]
      split
      · rfl
      · exact (ih (2 ^ exp * 2) (exp + 1) (by rw [pow_succ]) (by omega) (by omega)).2 h1

theorem sq_fold (n : ℕ) (x : F) : (List.range n).foldl (fun alpha _ => alpha ^ 2) x = x ^ 2 ^ n := by
  induction n with
  | zero => simp
  | succ n ih => rw [List.range_succ, List.foldl_append, ih]; simp [pow_succ, pow_mul]

theorem flatten_map_map {α β : Type} (f : α → β) (l : List (List α)) :
    (l.map fun c => c.map f).flatten = l.flatten.map f := by
  induction l <;> simp_all

theorem mulPairwise_eq [FieldApi F] {cpus : ℕ} (hc : 0 < cpus) {a b : List F} (h : a.length = b.length) :
    mulPairwise cpus a b = some (List.zipWith (· * ·) a b) := by
  unfold mulPairwise
  split
  · rename_i hlt
    have hq : a.length / cpus ≠ 0 := (Nat.div_pos hlt.le hc).ne'
    simp only [chunks, if_neg hq, Option.bind_eq_bind, Option.bind_some, Option.some.injEq]
    rw [← chunksAux_zipWith _ (Nat.pos_of_ne_zero hq) a.length a b le_rfl h, ← h]
    rw [← List.map_uncurry_zip_eq_zipWith]; rfl
  · rfl

theorem scaleAll_eq [FieldApi F] {cpus : ℕ} (hc : 0 < cpus) (a : List F) (v : F) :
    scaleAll cpus a v = some (a.map (· * v)) := by
  unfold scaleAll
  split
  · rename_i hlt
    have hq : a.length / cpus ≠ 0 := (Nat.div_pos hlt.le hc).ne'
    simp only [chunks, if_neg hq, Option.bind_eq_bind, Option.bind_some, Option.some.injEq]
    rw [flatten_map_map, chunksAux_flatten (Nat.pos_of_ne_zero hq) _ _ le_rfl]
  · rfl

theorem toArray_pad (a : List F) (m : ℕ) (h : a.length ≤ m) :
    (a ++ List.replicate (m - a.length) 0).toArray = arr m fun i => a.getD i 0 := by
  apply Array.ext
  · simp; omega
  · intro i h1 h2
    simp only [arr, Array.getElem_ofFn, List.getElem_toArray, List.getElem_append]
    split
    · rename_i hi; simp [hi]
    · rename_i hi; simp [hi]

theorem arr_toList {α : Type} (n : ℕ) (f : ℕ → α) : (arr n f).toList = (List.range n).map f := by
  apply List.ext_getElem
  · simp
  · intro i h1 h2; simp [arr]

theorem range_map_toArray {α : Type} (n : ℕ) (f : ℕ → α) : ((List.range n).map f).toArray = arr n f := by
  rw [← arr_toList]

variable [LawfulField F]

theorem alpha_root (e : ℕ) (he : e ≤ 32) :
    IsPrimitiveRoot ((FieldApi.alpha : F) ^ 2 ^ (32 - e)) (2 ^ e) := by
  have h1 : IsPrimitiveRoot (FieldApi.alpha : F) (2 ^ 32) := by
    rw [← LawfulField.alpha_order (F := F)]; exact IsPrimitiveRoot.orderOf _
  apply h1.pow (Nat.two_pow_pos 32)
  rw [← pow_add]; congr 1; omega

omit [LawfulField F] in
theorem sq_eq_one_iff_of_side {x : F} (h : x ^ 2 = 1) : x = 1 ∨ x = -1 := by
  have : (x - 1) * (x + 1) = 0 := by linear_combination h
  rcases mul_eq_zero.1 this with h | h
  · exact Or.inl (sub_eq_zero.1 h)
  · exact Or.inr (eq_neg_of_add_eq_zero_left h)

omit [LawfulField F] in
theorem root_half {e : ℕ} {ω : F} (h : IsPrimitiveRoot ω (2 ^ e)) (he : 0 < e) :
    ω ^ 2 ^ (e - 1) = -1 := by
  have h2 : (ω ^ 2 ^ (e - 1)) ^ 2 = 1 := by
    rw [← pow_mul, ← pow_succ, show e - 1 + 1 = e by omega, h.pow_eq_one]
  rcases sq_eq_one_iff_of_side h2 with h3 | h3
  · exfalso
    have := h.dvd_of_pow_eq_one _ h3
    have := Nat.le_of_dvd (Nat.two_pow_pos _) this
    have : 2 ^ (e - 1) < 2 ^ e := Nat.pow_lt_pow_right (by norm_num) (by omega)
    omega
  · exact h3
theorem two_pow_ne_zero (e : ℕ) : ((2 ^ e : ℕ) : F) ≠ 0 := by
  rw [Nat.cast_pow]; exact pow_ne_zero _ (by exact_mod_cast LawfulField.two_ne_zero)

/-- `multiply_polynomials` returns the coefficients of the product -/
theorem multiplyPolynomials_spec {cpus : ℕ} (hc : 0 < cpus) (a b : List F)
    (ha : a ≠ []) (hb : b ≠ []) (hlen : a.length + b.length - 1 ≤ 2 ^ 31) :
    multiplyPolynomials cpus a b = some ((List.range (a.length + b.length - 1)).map
      (conv (fun i => a.getD i 0) fun i => b.getD i 0)) := by
  have ha0 : 0 < a.length := List.length_pos_iff.2 ha
  have hb0 : 0 < b.length := List.length_pos_iff.2 hb
  have hcf : (a.length - 1) + (b.length - 1) + 1 = a.length + b.length - 1 := by omega
  obtain ⟨e, hd, he, hle, -⟩ := (domainSizeAux_spec (a.length + b.length - 1) 33 1 0 rfl rfl
    (by norm_num)).1 hlen (Or.inl rfl)
  have hroot := alpha_root (F := F) e he.le
  set ω : F := (FieldApi.alpha : F) ^ 2 ^ (32 - e) with hω
  have hω0 : ω ≠ 0 := hroot.ne_zero (Nat.two_pow_pos e).ne'
  have hinv : IsPrimitiveRoot ω⁻¹ (2 ^ e) := hroot.inv
  set A : ℕ → F := fun i => a.getD i 0 with hA
  set B : ℕ → F := fun i => b.getD i 0 with hB
  have hA0 : ∀ i, a.length ≤ i → A i = 0 := fun i hi => by simp [hA, List.getElem?_eq_none hi]
  have hB0 : ∀ i, b.length ≤ i → B i = 0 := fun i hi => by simp [hB, List.getElem?_eq_none hi]
  unfold multiplyPolynomials
  rw [if_neg (by omega)]
  simp only [hcf, hd, Option.bind_eq_bind, Option.bind_some]
  rw [sq_fold, ← hω, toArray_pad a _ (by omega), toArray_pad b _ (by omega),
    bestFft_arr hc (root_half hroot) hroot.pow_eq_one, Option.bind_some,
    bestFft_arr hc (root_half hroot) hroot.pow_eq_one, Option.bind_some,
    mulPairwise_eq hc (by simp), Option.bind_some, LawfulField.invert_eq _ hω0, Option.bind_some]
  have hz : (List.zipWith (· * ·) (arr (2 ^ e) (dft (2 ^ e) ω A)).toList
      (arr (2 ^ e) (dft (2 ^ e) ω B)).toList).toArray =
      arr (2 ^ e) (dft (2 ^ e) ω (conv A B)) := by
    rw [arr_toList, arr_toList, List.zipWith_map, List.zipWith_self, range_map_toArray]
    apply arr_congr
    intro i _
    exact dft_conv ha0 hb0 hle ω A B hA0 hB0 i
  rw [hz, bestFft_arr hc (root_half hinv) hinv.pow_eq_one, Option.bind_some, LawfulField.fromU64_eq]
  have hm : (BitVec.ofNat 64 (2 ^ e)).toNat = 2 ^ e := by
    rw [BitVec.toNat_ofNat]
    apply Nat.mod_eq_of_lt
    exact Nat.pow_lt_pow_right (by norm_num) (by omega)
  rw [hm, LawfulField.invert_eq _ (two_pow_ne_zero e), Option.bind_some, scaleAll_eq hc,
    Option.bind_some, Option.some.injEq, arr_toList, ← List.map_take, ← List.map_take,
    List.take_range, min_eq_left hle, List.map_map]
  apply List.map_congr_left
  intro k hk
  have hk' : k < 2 ^ e := (List.mem_range.1 hk).trans_le hle
  simp only [Function.comp]
  rw [dft_inv hroot _ hk', mul_comm, ← mul_assoc, inv_mul_cancel₀ (two_pow_ne_zero e), one_mul]

theorem multiplyPolynomials_none {cpus : ℕ} (a b : List F)
    (h : a = [] ∨ b = [] ∨ 2 ^ 31 < a.length + b.length - 1) :
    multiplyPolynomials cpus a b = none := by
  unfold multiplyPolynomials
  by_cases h0 : a.length = 0 ∨ b.length = 0
  · rw [if_pos h0]; rfl
  · rw [if_neg h0]
    have hlt : 2 ^ 31 < (a.length - 1) + (b.length - 1) + 1 := by
      rcases h with rfl | rfl | h
      · simp at h0
      · simp at h0
      · omega
    have := (domainSizeAux_spec _ 33 1 0 rfl rfl (by norm_num)).2 hlt
    simp only [this, Option.bind_eq_bind, Option.bind_none]

end Util
end Halo
