import Verif.Lemmas.ConstraintPoly
import Mathlib.LinearAlgebra.Lagrange
/-!
# Polynomials that agree at many points

The algebra behind the soundness of proofs: what the deferred relation says if it holds for many `x`, and
what its constant coefficient says if that is right for many `y`.
-/
namespace Halo
namespace Proofs
open Polynomial Circuit
variable {S : Type} [Field S]

/-- the value of the polynomial with the first `d` coefficients `v` -/
def value (d : ℕ) (v : ℕ → S) (x : S) : S := ∑ m ∈ Finset.range d, v m * x ^ m

/-- the polynomial itself -/
noncomputable def toPoly (d : ℕ) (v : ℕ → S) : S[X] := ∑ m ∈ Finset.range d, C (v m) * X ^ m

theorem eval_toPoly (d : ℕ) (v : ℕ → S) (x : S) : (toPoly d v).eval x = value d v x := by
  simp [toPoly, value, eval_finsetSum]

theorem coeff_toPoly (d : ℕ) (v : ℕ → S) (m : ℕ) : (toPoly d v).coeff m = if m < d then v m else 0 := by
  simp only [toPoly, finsetSum_coeff, coeff_C_mul, coeff_X_pow, mul_ite, mul_one, mul_zero]
  rw [Finset.sum_ite_eq]
  simp

theorem degree_toPoly (d : ℕ) (v : ℕ → S) : (toPoly d v).degree < d := by
  rw [degree_lt_iff_coeff_zero]
  intro m hm
  rw [coeff_toPoly, if_neg (by omega)]

theorem natDegree_toPoly (d : ℕ) (v : ℕ → S) : (toPoly d v).natDegree ≤ d - 1 := by
  rw [natDegree_le_iff_coeff_eq_zero]
  intro m hm
  rw [coeff_toPoly, if_neg (by omega)]

/-- polynomials that agree at as many points as they have coefficients -/
theorem vec_eq {d : ℕ} {v w : ℕ → S} {xs : Finset S} (hx : d ≤ xs.card)
    (h : ∀ x ∈ xs, value d v x = value d w x) {m : ℕ} (hm : m < d) : v m = w m := by
  have : toPoly d v = toPoly d w := by
    refine eq_of_degrees_lt_of_eval_finset_eq xs ?_ ?_ fun x hx => by
      rw [eval_toPoly, eval_toPoly, h x hx]
    · exact (degree_toPoly d v).trans_le (by exact_mod_cast hx)
    · exact (degree_toPoly d w).trans_le (by exact_mod_cast hx)
  have := congrArg (coeff · m) this
  simpa [coeff_toPoly, hm] using this

theorem value_zero {d : ℕ} {v : ℕ → S} (h : ∀ m < d, v m = 0) (x : S) : value d v x = 0 :=
  Finset.sum_eq_zero fun m hm => by rw [h m (Finset.mem_range.1 hm), zero_mul]

theorem value_congr {d : ℕ} {v w : ℕ → S} (h : ∀ m < d, v m = w m) (x : S) : value d v x = value d w x :=
  Finset.sum_congr rfl fun m hm => by rw [h m (Finset.mem_range.1 hm)]

/-- The deferred relation, for polynomials with `4n` coefficients -/
def Rel (n : ℕ) (r s tp tn : ℕ → S) (y ky x : S) : Prop :=
  value (4 * n) r x * x⁻¹ ^ (3 * n - 1) *
    (value (4 * n) r (x * y) * (x * y)⁻¹ ^ (3 * n - 1) +
      (y ^ n * value (4 * n) s x * x⁻¹ ^ n - x ^ n *
        ∑ i ∈ Finset.range n, ((x * y) ^ (i + 1) + (x * y⁻¹) ^ (i + 1)))) =
    value (4 * n) tp x * x + ky * y ^ n + value (4 * n) tn x * x⁻¹ ^ (4 * n)

/-- `r(X)·(r(XY) + s'(X, y))`, without denominators -/
noncomputable def relPoly (n : ℕ) (r s : ℕ → S) (y : S) : S[X] :=
  toPoly (4 * n) r * (toPoly (4 * n) (fun m => r m * (y ^ m * (y ^ (3 * n - 1))⁻¹)) +
    toPoly (4 * n) (fun m => y ^ n * s m) * X ^ (2 * n - 1) -
    toPoly n (fun i => y ^ (i + 1) + (y ^ (i + 1))⁻¹) * X ^ (4 * n))

/-- `t(X)`, without denominators -/
noncomputable def tPoly (n : ℕ) (tp tn : ℕ → S) (c : S) : S[X] :=
  toPoly (4 * n) tp * X ^ (6 * n - 1) + C c * X ^ (6 * n - 2) + toPoly (4 * n) tn * X ^ (2 * n - 2)

theorem rel_eval {n : ℕ} (hn : 0 < n) {r s tp tn : ℕ → S} {y ky x : S} (hx : x ≠ 0)
    (h : Rel n r s tp tn y ky x) : (relPoly n r s y).eval x = (tPoly n tp tn (ky * y ^ n)).eval x := by
  have e1 : (toPoly (4 * n) fun m => r m * (y ^ m * (y ^ (3 * n - 1))⁻¹)).eval x =
      value (4 * n) r (x * y) * (y ^ (3 * n - 1))⁻¹ := by
    rw [eval_toPoly, value, value, Finset.sum_mul]
    refine Finset.sum_congr rfl fun m _ => ?_
    rw [mul_pow]
    ring
  have e2 : (toPoly (4 * n) fun m => y ^ n * s m).eval x = y ^ n * value (4 * n) s x := by
    rw [eval_toPoly, value, value, Finset.mul_sum]
    refine Finset.sum_congr rfl fun m _ => ?_
    ring
  have e3 : (toPoly n fun i => y ^ (i + 1) + (y ^ (i + 1))⁻¹).eval x * x =
      ∑ i ∈ Finset.range n, ((x * y) ^ (i + 1) + (x * y⁻¹) ^ (i + 1)) := by
    rw [eval_toPoly, value, Finset.sum_mul]
    refine Finset.sum_congr rfl fun m _ => ?_
    rw [mul_pow, mul_pow, inv_pow]
    ring
  unfold Rel at h
  rw [← e3] at h
  unfold relPoly tPoly
  simp only [eval_mul, eval_add, eval_sub, eval_pow, eval_X, eval_C, e1, e2]
  rw [eval_toPoly, eval_toPoly (4 * n) tp, eval_toPoly (4 * n) tn]
  generalize value (4 * n) r x = a at *
  generalize value (4 * n) r (x * y) = b at *
  generalize value (4 * n) s x = c at *
  generalize value (4 * n) tp x = p at *
  generalize value (4 * n) tn x = q at *
  generalize (toPoly n fun i => y ^ (i + 1) + (y ^ (i + 1))⁻¹).eval x = f at *
  obtain ⟨m, rfl⟩ : ∃ m, n = m + 1 := ⟨n - 1, by omega⟩
  rw [show 6 * (m + 1) - 1 = 6 * m + 5 by omega, show 6 * (m + 1) - 2 = 6 * m + 4 by omega,
    show 2 * (m + 1) - 1 = 2 * m + 1 by omega, show 2 * (m + 1) - 2 = 2 * m by omega,
    show 3 * (m + 1) - 1 = 3 * m + 2 by omega] at *
  have hx3 : x ^ (3 * m + 2) * x⁻¹ ^ (3 * m + 2) = 1 := by rw [← mul_pow, mul_inv_cancel₀ hx, one_pow]
  have hx1 : x ^ (m + 1) * x⁻¹ ^ (m + 1) = 1 := by rw [← mul_pow, mul_inv_cancel₀ hx, one_pow]
  have hx4 : x ^ (4 * (m + 1)) * x⁻¹ ^ (4 * (m + 1)) = 1 := by rw [← mul_pow, mul_inv_cancel₀ hx, one_pow]
  have hxy : (x * y)⁻¹ ^ (3 * m + 2) = x⁻¹ ^ (3 * m + 2) * (y ^ (3 * m + 2))⁻¹ := by
    rw [mul_inv, mul_pow, inv_pow y]
  rw [hxy] at h
  generalize (y ^ (3 * m + 2))⁻¹ = yi at *
  generalize y ^ (m + 1) = yn at *
  generalize x⁻¹ ^ (3 * m + 2) = i3 at *
  generalize x⁻¹ ^ (m + 1) = i1 at *
  generalize x⁻¹ ^ (4 * (m + 1)) = i4 at *
  have l : x ^ (6 * m + 4) = x ^ (3 * m + 2) * x ^ (3 * m + 2) := by ring
  have l1 : x ^ (2 * m + 1) * x ^ (m + 1) = x ^ (3 * m + 2) := by ring
  have l2 : x ^ (2 * m) * x ^ (4 * (m + 1)) = x ^ (6 * m + 4) := by ring
  have l3 : x ^ (6 * m + 5) = x ^ (6 * m + 4) * x := by ring
  have l4 : x ^ (4 * (m + 1)) = x ^ (3 * m + 2) * x ^ (m + 1) * x := by ring
  have hh := congrArg (x ^ (6 * m + 4) * ·) h
  have lhs : x ^ (6 * m + 4) * (a * i3 * (b * (i3 * yi) + (yn * c * i1 - x ^ (m + 1) * (f * x)))) =
      a * (b * yi + yn * c * x ^ (2 * m + 1) - f * x ^ (4 * (m + 1))) := by
    rw [l4, l]
    have k1 : x ^ (3 * m + 2) * i1 = x ^ (2 * m + 1) := by
      rw [← l1, mul_assoc, hx1, mul_one]
    have : x ^ (3 * m + 2) * x ^ (3 * m + 2) *
        (a * i3 * (b * (i3 * yi) + (yn * c * i1 - x ^ (m + 1) * (f * x)))) =
        a * (x ^ (3 * m + 2) * i3) * (b * yi * (x ^ (3 * m + 2) * i3) + (yn * c * (x ^ (3 * m + 2) * i1) -
          f * (x ^ (3 * m + 2) * x ^ (m + 1) * x))) := by ring
    rw [this, hx3, k1]
    ring
  have rhs : x ^ (6 * m + 4) * (p * x + ky * yn + q * i4) =
      p * x ^ (6 * m + 5) + ky * yn * x ^ (6 * m + 4) + q * x ^ (2 * m) := by
    have : x ^ (6 * m + 4) * i4 = x ^ (2 * m) := by rw [← l2, mul_assoc, hx4, mul_one]
    rw [l3]
    linear_combination q * this
  exact lhs.symm.trans (hh.trans rhs)

theorem natDegree_relPoly {n : ℕ} (hn : 0 < n) (r s : ℕ → S) (y : S) :
    (relPoly n r s y).natDegree < 10 * n := by
  have h1 : (toPoly (4 * n) r).natDegree ≤ 4 * n - 1 := natDegree_toPoly _ _
  have h2 : (toPoly (4 * n) (fun m => r m * (y ^ m * (y ^ (3 * n - 1))⁻¹)) +
    toPoly (4 * n) (fun m => y ^ n * s m) * X ^ (2 * n - 1) -
    toPoly n (fun i => y ^ (i + 1) + (y ^ (i + 1))⁻¹) * X ^ (4 * n) : S[X]).natDegree ≤ 6 * n - 1 := by
    refine (natDegree_sub_le _ _).trans (max_le ((natDegree_add_le _ _).trans (max_le ?_ ?_)) ?_)
    · exact (natDegree_toPoly _ _).trans (by omega)
    · refine (natDegree_mul_le_of_le (natDegree_toPoly _ _) (natDegree_X_pow_le _)).trans (by omega)
    · refine (natDegree_mul_le_of_le (natDegree_toPoly _ _) (natDegree_X_pow_le _)).trans (by omega)
  exact (natDegree_mul_le_of_le h1 h2).trans_lt (by omega)

theorem natDegree_tPoly {n : ℕ} (hn : 0 < n) (tp tn : ℕ → S) (c : S) :
    (tPoly n tp tn c).natDegree < 10 * n := by
  have : (tPoly n tp tn c).natDegree ≤ 10 * n - 1 := by
    refine natDegree_add_le_of_degree_le (natDegree_add_le_of_degree_le ?_ ?_) ?_
    · exact (natDegree_mul_le_of_le (natDegree_toPoly _ _) (natDegree_X_pow_le _)).trans (by omega)
    · exact (natDegree_C_mul_X_pow_le _ _).trans (by omega)
    · exact (natDegree_mul_le_of_le (natDegree_toPoly _ _) (natDegree_X_pow_le _)).trans (by omega)
  omega

theorem coeff_tPoly {n : ℕ} (hn : 0 < n) (tp tn : ℕ → S) (c : S) :
    (tPoly n tp tn c).coeff (6 * n - 2) = c := by
  simp only [tPoly, coeff_add, coeff_mul_X_pow', coeff_toPoly]
  rw [if_neg (by omega), if_pos le_rfl, if_pos (by omega), if_neg (by omega), Nat.sub_self, coeff_C_zero]
  ring

theorem coeff_relPoly {n : ℕ} (hn : 0 < n) (r s : ℕ → S) {y : S} (hy : y ≠ 0) :
    (relPoly n r s y).coeff (6 * n - 2) = r (3 * n - 1) ^ 2 +
      ∑ i ∈ Finset.range n, (r (3 * n + i) * r (3 * n - 2 - i) - r (2 * n - 2 - i)) *
        (y ^ (i + 1) + (y ^ (i + 1))⁻¹) +
      y ^ n * ∑ m ∈ Finset.range (4 * n), s m * r (4 * n - 1 - m) := by
  unfold relPoly
  rw [mul_sub, mul_add, ← mul_assoc, ← mul_assoc, coeff_sub, coeff_add, coeff_mul_X_pow', coeff_mul_X_pow',
    if_pos (by omega), if_pos (by omega)]
  have c1 : (toPoly (4 * n) r * toPoly (4 * n) (fun m => r m * (y ^ m * (y ^ (3 * n - 1))⁻¹))).coeff
      (6 * n - 2) = r (3 * n - 1) ^ 2 +
      ∑ i ∈ Finset.range n, r (3 * n + i) * r (3 * n - 2 - i) * (y ^ (i + 1) + (y ^ (i + 1))⁻¹) := by
    rw [coeff_mul, Finset.Nat.sum_antidiagonal_eq_sum_range_succ
      (fun a b => (toPoly (4 * n) r).coeff a *
        (toPoly (4 * n) (fun m => r m * (y ^ m * (y ^ (3 * n - 1))⁻¹))).coeff b)]
    simp only [coeff_toPoly]
    have e : (6 * n - 2).succ = (2 * n - 1) + ((n + (1 + n)) + (2 * n - 1)) := by omega
    rw [e, Finset.sum_range_add, Finset.sum_eq_zero (s := Finset.range (2 * n - 1)), zero_add,
      Finset.sum_range_add, Finset.sum_eq_zero (s := Finset.range (2 * n - 1)), add_zero,
      Finset.sum_range_add, Finset.sum_range_add, Finset.sum_range_one,
      ← Finset.sum_range_reflect (n := n) (f := fun x => (if 2 * n - 1 + x < 4 * n then _ else _) * _),
      add_left_comm]
    · have hy0 : ∀ m, y ^ m ≠ 0 := fun m => pow_ne_zero _ hy
      congr 1
      · rw [if_pos (by omega), if_pos (by omega), show 6 * n - 2 - (2 * n - 1 + (n + 0)) = 3 * n - 1 by omega,
          show 2 * n - 1 + (n + 0) = 3 * n - 1 by omega, mul_inv_cancel₀ (hy0 _)]
        ring
      · rw [← Finset.sum_add_distrib]
        refine Finset.sum_congr rfl fun i hi => ?_
        have hi := Finset.mem_range.1 hi
        rw [if_pos (by omega), if_pos (by omega), if_pos (by omega), if_pos (by omega),
          show 6 * n - 2 - (2 * n - 1 + (n - 1 - i)) = 3 * n + i by omega,
          show 2 * n - 1 + (n - 1 - i) = 3 * n - 2 - i by omega,
          show 6 * n - 2 - (2 * n - 1 + (n + (1 + i))) = 3 * n - 2 - i by omega,
          show 2 * n - 1 + (n + (1 + i)) = 3 * n + i by omega]
        have e1 : y ^ (3 * n + i) = y ^ (3 * n - 1) * y ^ (i + 1) := by
          rw [← pow_add]; congr 1; omega
        have e2 : y ^ (3 * n - 1) = y ^ (3 * n - 2 - i) * y ^ (i + 1) := by
          rw [← pow_add]; congr 1; omega
        have e3 : y ^ (3 * n + i) * (y ^ (3 * n - 1))⁻¹ = y ^ (i + 1) := by
          rw [e1, mul_comm, ← mul_assoc, inv_mul_cancel₀ (hy0 _), one_mul]
        have e4 : y ^ (3 * n - 2 - i) * (y ^ (3 * n - 1))⁻¹ = (y ^ (i + 1))⁻¹ := by
          rw [e2, mul_inv, ← mul_assoc, mul_inv_cancel₀ (hy0 _), one_mul]
        rw [e3, e4]
        ring
    · intro a _
      rw [if_neg (show ¬ 2 * n - 1 + (n + (1 + n) + a) < 4 * n by omega), zero_mul]
    · intro a ha
      have ha := Finset.mem_range.1 ha
      rw [if_neg (show ¬ 6 * n - 2 - a < 4 * n by omega), mul_zero]
  have c2 : (toPoly (4 * n) r * toPoly (4 * n) (fun m => y ^ n * s m)).coeff (6 * n - 2 - (2 * n - 1)) =
      y ^ n * ∑ m ∈ Finset.range (4 * n), s m * r (4 * n - 1 - m) := by
    rw [show 6 * n - 2 - (2 * n - 1) = 4 * n - 1 by omega, mul_comm, coeff_mul,
      Finset.Nat.sum_antidiagonal_eq_sum_range_succ
      (fun a b => (toPoly (4 * n) (fun m => y ^ n * s m)).coeff a * (toPoly (4 * n) r).coeff b),
      show (4 * n - 1).succ = 4 * n by omega, Finset.mul_sum]
    refine Finset.sum_congr rfl fun m hm => ?_
    have hm := Finset.mem_range.1 hm
    rw [coeff_toPoly, coeff_toPoly, if_pos hm, if_pos (by omega)]
    ring
  have c3 : (toPoly (4 * n) r * toPoly n (fun i => y ^ (i + 1) + (y ^ (i + 1))⁻¹)).coeff
      (6 * n - 2 - 4 * n) = ∑ i ∈ Finset.range n, r (2 * n - 2 - i) * (y ^ (i + 1) + (y ^ (i + 1))⁻¹) := by
    rw [show 6 * n - 2 - 4 * n = 2 * n - 2 by omega, mul_comm, coeff_mul,
      Finset.Nat.sum_antidiagonal_eq_sum_range_succ
      (fun a b => (toPoly n (fun i => y ^ (i + 1) + (y ^ (i + 1))⁻¹)).coeff a * (toPoly (4 * n) r).coeff b),
      show (2 * n - 2).succ = n + (n - 1) by omega, Finset.sum_range_add, Finset.sum_eq_zero (s := Finset.range (n - 1)),
      add_zero]
    · refine Finset.sum_congr rfl fun m hm => ?_
      have hm := Finset.mem_range.1 hm
      rw [coeff_toPoly, coeff_toPoly, if_pos hm, if_pos (by omega)]
      ring
    · intro a _
      rw [coeff_toPoly, if_neg (by omega), zero_mul]
  rw [c1, c2, c3]
  simp only [sub_mul, Finset.sum_sub_distrib]
  ring

/-- The constant coefficient, if the relation holds for enough `x` -/
theorem const_of_rel {n : ℕ} (hn : 0 < n) {r s tp tn : ℕ → S} {y ky : S} (hy : y ≠ 0) {xs : Finset S}
    (hx : 10 * n ≤ xs.card) (h : ∀ x ∈ xs, x ≠ 0 ∧ Rel n r s tp tn y ky x) :
    r (3 * n - 1) ^ 2 +
      ∑ i ∈ Finset.range n, (r (3 * n + i) * r (3 * n - 2 - i) - r (2 * n - 2 - i)) *
        (y ^ (i + 1) + (y ^ (i + 1))⁻¹) +
      y ^ n * ∑ m ∈ Finset.range (4 * n), s m * r (4 * n - 1 - m) = ky * y ^ n := by
  have : relPoly n r s y = tPoly n tp tn (ky * y ^ n) := by
    refine eq_of_degrees_lt_of_eval_finset_eq xs ?_ ?_ fun x hx => rel_eval hn (h x hx).1 (h x hx).2
    · exact degree_le_natDegree.trans_lt (by exact_mod_cast (natDegree_relPoly hn r s y).trans_le hx)
    · exact degree_le_natDegree.trans_lt (by exact_mod_cast (natDegree_tPoly hn tp tn _).trans_le hx)
  rw [← coeff_relPoly hn r s hy, this, coeff_tPoly hn]

/-- What the constant coefficient says if it is right for enough `y` -/
theorem all_of_const {n Q : ℕ} (hn : 0 < n) {e0 : S} {d e : ℕ → S} {ys : Finset S} (hc : 2 * n + Q < ys.card)
    (h : ∀ y ∈ ys, y ≠ 0 ∧ e0 + ∑ i ∈ Finset.range n, d i * (y ^ (i + 1) + (y ^ (i + 1))⁻¹) +
      y ^ n * ∑ q ∈ Finset.range Q, y ^ (q + 1) * e q = 0) :
    e0 = 0 ∧ (∀ i < n, d i = 0) ∧ ∀ q < Q, e q = 0 := by
  have h0 : e0 = 0 := by
    let P : S[X] := C e0 * X ^ n + ∑ i ∈ Finset.range n, C (d i) * (X ^ (n + (i + 1)) + X ^ (n - (i + 1))) +
      ∑ q ∈ Finset.range Q, C (e q) * X ^ (2 * n + (q + 1))
    have hdeg : P.natDegree ≤ 2 * n + Q := by
      apply natDegree_add_le_of_degree_le
      · apply natDegree_add_le_of_degree_le
        · exact (natDegree_C_mul_X_pow_le _ _).trans (by omega)
        apply natDegree_sum_le_of_forall_le
        intro i hi
        simp only [Finset.mem_range] at hi
        refine (natDegree_C_mul_le _ _).trans (natDegree_add_le_of_degree_le ?_ ?_) <;>
        · rw [natDegree_X_pow]; omega
      · apply natDegree_sum_le_of_forall_le
        intro q hq
        simp only [Finset.mem_range] at hq
        refine (natDegree_C_mul_le _ _).trans ?_
        rw [natDegree_X_pow]; omega
    have hz : P = 0 := by
      refine eq_of_degrees_lt_of_eval_finset_eq ys ?_ ?_ fun y hy => ?_
      · exact degree_le_natDegree.trans_lt (by exact_mod_cast hdeg.trans_lt hc)
      · rw [degree_zero]; exact WithBot.bot_lt_coe _
      · obtain ⟨hy0, hy⟩ := h y hy
        rw [eval_zero]
        have : P.eval y = y ^ n * (e0 + ∑ i ∈ Finset.range n, d i * (y ^ (i + 1) + (y ^ (i + 1))⁻¹) +
            y ^ n * ∑ q ∈ Finset.range Q, y ^ (q + 1) * e q) := by
          simp only [P, eval_add, eval_finsetSum, eval_mul, eval_C, eval_pow, eval_X, mul_add,
            Finset.mul_sum, Finset.sum_add_distrib]
          congr 1
          · congr 1
            · ring
            congr 1
            · apply Finset.sum_congr rfl
              intro i _
              rw [pow_add]; ring
            · apply Finset.sum_congr rfl
              intro i hi
              simp only [Finset.mem_range] at hi
              have : y ^ n = y ^ (n - (i + 1)) * y ^ (i + 1) := by rw [← pow_add]; congr 1; omega
              have hne : y ^ (i + 1) ≠ 0 := pow_ne_zero _ hy0
              rw [this, mul_left_comm, mul_assoc, mul_inv_cancel₀ hne, mul_one]
          · apply Finset.sum_congr rfl
            intro q _
            ring
        rw [this, hy, mul_zero]
    have := congrArg (coeff · n) hz
    simp only [P, coeff_add, finsetSum_coeff, coeff_C_mul, coeff_X_pow, coeff_zero] at this
    rw [Finset.sum_eq_zero, Finset.sum_eq_zero] at this
    · simpa using this
    · intro q _
      rw [if_neg (by omega), mul_zero]
    · intro i hi
      rw [if_neg (by omega), if_neg (by omega), add_zero, mul_zero]
  subst h0
  by_contra hcon
  have hd : (∃ i, i < n ∧ d i ≠ 0) ∨ ∃ q, q < Q ∧ e q ≠ 0 := by
    by_contra hno
    push Not at hno
    exact hcon ⟨rfl, hno⟩
  obtain ⟨T, hT, hTy⟩ := few_roots n Q d e hd
  have : ys ⊆ T := fun y hy => by
    obtain ⟨h1, h2⟩ := h y hy
    exact hTy y h1 (by rw [zero_add] at h2; exact h2)
  have := Finset.card_le_card this
  omega

end Proofs
end Halo
