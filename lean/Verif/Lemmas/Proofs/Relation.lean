import Verif.Lemmas.Proofs.Commit
import Verif.Lemmas.PolyMul
import Verif.Lemmas.ConstraintPoly
/-!
# Values of the polynomials of the prover, and combinations of vectors
-/
namespace Halo
namespace Proofs
open Util Circuit
variable {S G : Type} [Field S] [AddCommGroup G] [Module S G]

/-! ## combinations -/

theorem combine_cons (g : ℕ → G) (o : ℕ) (c : S) (v : List S) :
    combine g o (c :: v) = c • g o + combine g (o + 1) v := by
  rw [combine, List.length_cons, Finset.sum_range_succ', add_comm]
  congr 1
  · simp
  · rw [combine]
    apply Finset.sum_congr rfl
    intro i _
    rw [List.getD_cons_succ, show i + 1 + o = i + (o + 1) by omega]

@[simp] theorem combine_nil (g : ℕ → G) (o : ℕ) : combine g o ([] : List S) = 0 := by simp [combine]

theorem combine_addTo (g : ℕ → G) : ∀ (o : ℕ) (a b : List S), b.length ≤ a.length →
    combine g o (addTo a b) = combine g o a + combine g o b
  | _, [], [], _ => by simp [addTo]
  | _, _ :: _, [], _ => by simp [addTo]
  | o, a :: as, b :: bs, h => by
    rw [addTo, combine_cons, combine_cons, combine_cons,
      combine_addTo g (o + 1) as bs (by simpa using h)]
    module
  | _, [], _ :: _, h => by simp at h

theorem combine_map_mul (g : ℕ → G) (z : S) : ∀ (o : ℕ) (a : List S),
    combine g o (a.map (· * z)) = z • combine g o a
  | _, [] => by simp
  | o, a :: as => by
    rw [List.map_cons, combine_cons, combine_cons, combine_map_mul g z (o + 1) as]
    module

theorem combine_replicate (g : ℕ → G) (v : List S) : ∀ m o : ℕ,
    combine g o (List.replicate m 0 ++ v) = combine g (o + m) v
  | 0, _ => by simp
  | m + 1, o => by
    rw [List.replicate_succ, List.cons_append, combine_cons, combine_replicate g v m, zero_smul,
      zero_add, show o + 1 + m = o + (m + 1) by omega]

/-! ## values -/

theorem opening_conv {a b : List S} (ha : a ≠ []) (hb : b ≠ []) (x : S) :
    opening ((List.range (a.length + b.length - 1)).map
      (conv (fun i => a.getD i 0) fun i => b.getD i 0)) x = opening a x * opening b x := by
  have h0 : ∀ (l : List S) i, l.length ≤ i → l.getD i 0 = 0 := fun l i hi => by
    simp [List.getD, List.getElem?_eq_none hi]
  have hla := List.length_pos_iff.2 ha
  have hlb := List.length_pos_iff.2 hb
  have ho : ∀ l : List S, l.length ≤ a.length + b.length - 1 →
      opening l x = dft (a.length + b.length - 1) x (fun i => l.getD i 0) 1 := by
    intro l hl
    rw [opening_sum, dft, pow_one]
    apply Finset.sum_subset (Finset.range_subset_range.2 hl)
    intro i _ hi
    rw [h0 l i (by simpa using hi), zero_mul]
  rw [ho a (by omega), ho b (by omega), dft_conv hla hlb le_rfl x _ _ (h0 a) (h0 b) 1, opening_sum,
    dft, pow_one]
  simp only [List.length_map, List.length_range]
  apply Finset.sum_congr rfl
  intro i hi
  have hi := Finset.mem_range.1 hi
  simp [List.getD, hi]

theorem opening_rxyPoly {n : ℕ} {rx : List S} (hrx : rx.length = 3 * n + 1) {y : S} (hy : y ≠ 0)
    (x : S) : opening (rxyPoly n rx y y⁻¹) x = (y ^ (2 * n))⁻¹ * opening rx (x * y) := by
  have hl : (rxyPoly n rx y y⁻¹).length = 3 * n + 1 := by simp [hrx]
  rw [opening_sum, opening_sum, hl, hrx, Finset.mul_sum]
  apply Finset.sum_congr rfl
  intro j hj
  have hj : j ≤ 3 * n := by have := Finset.mem_range.1 hj; omega
  rw [rxyPoly_getD hrx]
  obtain ⟨m, hm⟩ : ∃ m, 3 * n = j + m := ⟨3 * n - j, by omega⟩
  have e : y ^ n * y ^ (2 * n) = y ^ j * y ^ m := by
    rw [← pow_add, ← pow_add, show n + 2 * n = j + m by omega]
  have hp : ∀ i, y ^ i ≠ 0 := fun i => pow_ne_zero i hy
  rw [show 3 * n - j = m by omega, inv_pow, mul_pow]
  field_simp [hp]
  linear_combination (rx.getD j 0 * x ^ j) * e

theorem opening_zipWith : ∀ {a b : List S}, a.length = b.length → ∀ x : S,
    opening (List.zipWith (· + ·) a b) x = opening a x + opening b x
  | [], [], _, _ => by simp
  | a :: as, b :: bs, h, x => by
    rw [List.zipWith_cons_cons, opening_cons, opening_cons, opening_cons,
      opening_zipWith (by simpa using h)]
    ring
  | [], _ :: _, h, _ => by simp at h
  | _ :: _, [], h, _ => by simp at h

theorem opening_zeros (m : ℕ) (x : S) : opening (List.replicate m (0 : S)) x = 0 := by
  induction m with
  | zero => simp
  | succ m ih => rw [List.replicate_succ, opening_cons, ih]; ring

theorem opening_resize {l : List S} {m : ℕ} (h : l.length ≤ m) (x : S) :
    opening (resize l m) x = opening l x := by
  rw [resize, List.take_of_length_le h, opening_append, opening_zeros, mul_zero, add_zero]

theorem opening_subPowers (y yInv x : S) : ∀ (l : List S) (p q : S),
    opening (subPowers y yInv l p q) x = opening l x -
      ∑ i ∈ Finset.range l.length, (p * (x * y) ^ i + q * (x * yInv) ^ i)
  | [], _, _ => by simp [subPowers]
  | c :: l, p, q => by
    rw [subPowers, opening_cons, opening_cons, opening_subPowers y yInv x l, List.length_cons,
      Finset.sum_range_succ', mul_sub, Finset.mul_sum]
    have : ∀ i, x * (p * y * (x * y) ^ i + q * yInv * (x * yInv) ^ i) =
        p * (x * y) ^ (i + 1) + q * (x * yInv) ^ (i + 1) := fun i => by ring
    simp only [this]
    ring

theorem opening_sPrime {n : ℕ} {sx : List S} (h : sx.length = 3 * n + 1) (x y yInv : S) :
    opening (sPrime n sx y yInv) x = y ^ n * opening sx x -
      x ^ (2 * n) * ∑ i ∈ Finset.range n, ((x * y) ^ (i + 1) + (x * yInv) ^ (i + 1)) := by
  unfold sPrime
  simp only
  have e := opening_append ((sx.map (· * y ^ n)).take (2 * n + 1))
    ((sx.map (· * y ^ n)).drop (2 * n + 1)) x
  rw [List.take_append_drop, opening_map_mul] at e
  have hl : ((sx.map (· * y ^ n)).take (2 * n + 1)).length = 2 * n + 1 := by simp; omega
  have hl2 : ((sx.map (· * y ^ n)).drop (2 * n + 1)).length = n := by simp; omega
  rw [opening_append, opening_subPowers, hl, hl2]
  rw [hl] at e
  have : ∑ i ∈ Finset.range n, ((x * y) ^ (i + 1) + (x * yInv) ^ (i + 1)) =
      x * ∑ i ∈ Finset.range n, (y * (x * y) ^ i + yInv * (x * yInv) ^ i) := by
    rw [Finset.mul_sum]
    apply Finset.sum_congr rfl
    intro i _
    ring
  rw [this]
  linear_combination -e

theorem opening_rPrime {n : ℕ} {rxy sp : List S} (hr : rxy.length = 3 * n + 1)
    (hs : sp.length = 3 * n + 1) (x : S) :
    opening (rPrime n rxy sp) x = opening rxy x + x ^ n * opening sp x := by
  unfold rPrime
  simp only
  have e := opening_append ((resize rxy (4 * n + 1)).take n) ((resize rxy (4 * n + 1)).drop n) x
  have hl : ((resize rxy (4 * n + 1)).take n).length = n := by simp [resize_length]; omega
  rw [List.take_append_drop, opening_resize (by omega), hl] at e
  rw [opening_append, hl, opening_zipWith (by simp [resize_length, hs]; omega), e]
  ring

/-- The relation between the openings that the prover claims -/
theorem deferred_relation {n : ℕ} (hn : 0 < n) {rx sx tx : List S} (hrx : rx.length = 3 * n + 1)
    (hsx : sx.length = 3 * n + 1) {x y : S} (hx : x ≠ 0) (hy : y ≠ 0) {ky t0 : S}
    (htx : tx = (List.range (rx.length + (rPrime n (rxyPoly n rx y y⁻¹) (sPrime n sx y y⁻¹)).length - 1)).map
      (conv (fun i => rx.getD i 0)
        fun i => (rPrime n (rxyPoly n rx y y⁻¹) (sPrime n sx y y⁻¹)).getD i 0))
    (ht0 : tx[4 * n]? = some t0) (hky : t0 = ky * y ^ n) :
    opening rx x * x ^ (n - 1) * x⁻¹ ^ (3 * n - 1) *
      (opening rx (x * y) * (x * y) ^ (n - 1) * (x * y)⁻¹ ^ (3 * n - 1) +
        (y ^ n * opening sx x * x⁻¹ ^ n - x ^ n *
          ∑ i ∈ Finset.range n, ((x * y) ^ (i + 1) + (x * y⁻¹) ^ (i + 1)))) =
    opening (tx.drop (4 * n + 1)) x * x + ky * y ^ n + opening (tx.take (4 * n)) x * x⁻¹ ^ (4 * n) := by
  have hrxy : (rxyPoly n rx y y⁻¹).length = 3 * n + 1 := by simp [hrx]
  have hsp := sPrime_length hsx y y⁻¹
  have hrp := rPrime_length (rxyPoly n rx y y⁻¹) hsp
  have e1 : opening tx x = opening rx x * (((y ^ (2 * n))⁻¹ * opening rx (x * y)) +
      x ^ n * (y ^ n * opening sx x -
      x ^ (2 * n) * ∑ i ∈ Finset.range n, ((x * y) ^ (i + 1) + (x * y⁻¹) ^ (i + 1)))) := by
    rw [htx, opening_conv (by rw [← List.length_pos_iff]; omega)
      (by rw [← List.length_pos_iff]; omega), opening_rPrime hrxy hsp, opening_rxyPoly hrx hy,
      opening_sPrime hsx]
  have e2 : opening tx x = opening (tx.take (4 * n)) x + x ^ (4 * n) *
      (ky * y ^ n + x * opening (tx.drop (4 * n + 1)) x) := by
    obtain ⟨h1, h2⟩ := List.getElem?_eq_some_iff.1 ht0
    have h3 : tx = tx.take (4 * n) ++ t0 :: tx.drop (4 * n + 1) := by
      rw [← h2, List.cons_getElem_drop_succ, List.take_append_drop]
    conv_lhs => rw [h3]
    rw [opening_append, opening_cons, List.length_take_of_le h1.le, hky]
  generalize opening rx x = r at *
  generalize opening rx (x * y) = ry at *
  generalize opening sx x = s at *
  generalize ∑ i ∈ Finset.range n, ((x * y) ^ (i + 1) + (x * y⁻¹) ^ (i + 1)) = σ at *
  generalize opening (tx.take (4 * n)) x = tn at *
  generalize opening (tx.drop (4 * n + 1)) x = tp at *
  rw [e1] at e2
  have p : ∀ z : S, z ≠ 0 → z ^ (n - 1) * z⁻¹ ^ (3 * n - 1) = (z ^ (2 * n))⁻¹ := by
    intro z hz
    rw [inv_pow, show 3 * n - 1 = (n - 1) + 2 * n by omega, pow_add, mul_inv, ← mul_assoc,
      mul_inv_cancel₀ (pow_ne_zero _ hz), one_mul]
  have hxn : x ^ n ≠ 0 := pow_ne_zero _ hx
  have hyn : y ^ n ≠ 0 := pow_ne_zero _ hy
  have hxy : x * y ≠ 0 := mul_ne_zero hx hy
  have e3 : r * x ^ (n - 1) * x⁻¹ ^ (3 * n - 1) = r * (x ^ (2 * n))⁻¹ := by rw [mul_assoc, p x hx]
  have e4 : ry * (x * y) ^ (n - 1) * (x * y)⁻¹ ^ (3 * n - 1) = ry * ((x * y) ^ (2 * n))⁻¹ := by
    rw [mul_assoc, p _ hxy]
  rw [e3, e4]
  simp only [mul_pow, inv_pow, pow_mul'] at e2 ⊢
  generalize x ^ n = X at *
  generalize y ^ n = Y at *
  field_simp at e2 ⊢
  linear_combination e2

end Proofs
end Halo
