import Verif.Lemmas.Proofs.SoundPoly
import Verif.Lemmas.Exposed
import Verif.Spec.Soundness
/-!
# From the constant coefficient to the circuit
-/
namespace Halo
namespace Proofs
open Circuit
variable {S : Type} [Field S]

theorem value_getD {d : ℕ} {l : List S} (h : l.length ≤ d) (x : S) :
    value d (fun m => l.getD m 0) x = opening l x := by
  rw [opening_sum, value]
  symm
  apply Finset.sum_subset (Finset.range_subset_range.2 h)
  intro i _ hi
  simp only [Finset.mem_range, not_lt] at hi
  simp [List.getD, List.getElem?_eq_none hi]

theorem sum_getD {G : Type} [AddCommGroup G] [Module S G] {d : ℕ} {l : List S} (h : l.length ≤ d) (g : ℕ → G) :
    ∑ m ∈ Finset.range d, l.getD m 0 • g m = combine g 0 l := by
  rw [combine]
  symm
  refine (Finset.sum_congr rfl fun i _ => by rw [add_zero]).trans
    (Finset.sum_subset (Finset.range_subset_range.2 h) ?_)
  intro i _ hi
  simp only [Finset.mem_range, not_lt] at hi
  simp [List.getD, List.getElem?_eq_none hi]

theorem sxVec_mid (n : ℕ) (lcs : List (LC S)) (y : S) : (sxVec n lcs y).getD n 0 = 0 := by
  rw [getD_eq_getElem' _ (by simp; omega)]
  unfold sxVec
  rw [List.getElem_append_left (by simp), List.getElem_append_left (by simp),
    List.getElem_append_right (by simp)]
  simp

/-- the part of the constant coefficient that comes from the linear constraints -/
theorem sum_sxVec {n : ℕ} (hn : 0 < n) {lcs : List (LC S)} (hl : InScope n lcs) (y : S) (r : ℕ → S) :
    ∑ m ∈ Finset.range (4 * n), (sxVec n lcs y).getD m 0 * r (4 * n - 1 - m) =
      ∑ q ∈ Finset.range lcs.length, y ^ (q + 1) * (lcs.getD q LC.zero).eval (wires n r) := by
  rw [← sum_mapIdx lcs fun q lc => y ^ (q + 1) * lc.eval (wires n r), sEval_eq_sum hl]
  rw [show 4 * n = (n + (1 + (n + n))) + (n - 1) by omega, Finset.sum_range_add,
    Finset.sum_eq_zero (s := Finset.range (n - 1)), add_zero, Finset.sum_range_add, Finset.sum_range_add,
    Finset.sum_range_add, Finset.sum_range_one,
    ← Finset.sum_range_reflect (n := n) (f := fun x => (sxVec n lcs y).getD x 0 * _)]
  · rw [add_zero, sxVec_mid, zero_mul, zero_add, ← Finset.sum_add_distrib, ← Finset.sum_add_distrib]
    refine Finset.sum_congr rfl fun i hi => ?_
    have hi := Finset.mem_range.1 hi
    rw [show n - 1 - i = n - (i + 1) by omega, show n + (1 + i) = n + (i + 1) by omega,
      show n + (1 + (n + i)) = 2 * n + (i + 1) by omega, sxVec_u _ _ hi, sxVec_v _ _ hi, sxVec_w _ _ hi]
    simp only [wires]
    rw [show n + (1 + (n + n)) + (n - 1) - 1 - (n - (i + 1)) = 3 * n - 1 + (i + 1) by omega,
      show n + (1 + (n + n)) + (n - 1) - 1 - (n + (i + 1)) = 3 * n - 1 - (i + 1) by omega,
      show n + (1 + (n + n)) + (n - 1) - 1 - (2 * n + (i + 1)) = 2 * n - 1 - (i + 1) by omega, add_assoc]
  · intro m _
    rw [List.getD, List.getElem?_eq_none (by simp; omega), Option.getD_none, zero_mul]

/-- The first constraint exposes the constant one. -/
theorem first_constraint {known : Bool} {α : Type} {circuit : Var → Prog S α} {a : α} {s : System S}
    (h : circuitSystem known circuit = .ok (a, s)) :
    (∃ lcs, s.lcs = ⟨[(.A 1, .one)]⟩ :: lcs) ∧ ∃ inputs, s.inputs = (1, some 1) :: inputs := by
  refine collect_inv (P := fun s => (∃ lcs, s.lcs = ⟨[(.A 1, .one)]⟩ :: lcs) ∧
    ∃ inputs, s.inputs = (1, some 1) :: inputs) ?_ ?_ ?_ ?_ _ h ⟨⟨[], rfl⟩, [], rfl⟩
  · rintro s v ⟨⟨l, h1⟩, i, h2⟩
    rw [(fresh_inputs s v).1, (fresh_inputs s v).2]
    exact ⟨⟨l, h1⟩, i, h2⟩
  · rintro s lc ⟨⟨l, h1⟩, i, h2⟩
    exact ⟨⟨l ++ [lc], by simp [System.constrain, h1]⟩, i, h2⟩
  · rintro s v ⟨⟨l, h1⟩, i, h2⟩
    exact ⟨⟨l, h1⟩, i, h2⟩
  · rintro s v o ⟨⟨l, h1⟩, i, h2⟩
    constructor
    · refine ⟨l ++ [⟨[((s.fresh v).1, .one)]⟩], ?_⟩
      simp [System.expose, System.constrain, (fresh_inputs s v).2, h1]
    · exact ⟨_, by simp only [System.expose, System.constrain, (fresh_inputs s v).1, h2, List.cons_append]; rfl⟩

/-- What a circuit without values is like -/
structure Shape {α : Type} (circuit : Var → Prog S α) (n : ℕ) (s : System S) : Prop where
  system : ∃ a, circuitSystem false circuit = .ok (a, s)
  wellScoped : s.wellScoped = true
  gates : s.gates ≤ n

variable {α : Type} {circuit : Var → Prog S α} {n : ℕ} {s : System S}

theorem Shape.inScope (h : Shape circuit n s) : InScope n s.lcs := by
  obtain ⟨a, h1⟩ := h.system
  exact (computeSx_of n 0 h1 h.wellScoped).2.mono h.gates

theorem Shape.sx (h : Shape circuit n s) (y : S) : computeSx n circuit y = .ok (sxVec n s.lcs y) := by
  obtain ⟨a, h1⟩ := h.system
  exact (computeSx_of n y h1 h.wellScoped).1

/-- `k(Y)` -/
abbrev kInputs (s : System S) (inputs : List S) : List (ℕ × S) := (s.inputs.map Prod.fst).zip (1 :: inputs)

theorem Shape.k (h : Shape circuit n s) (inputs : List S) :
    KOk (kInputs s inputs) ∧ ∀ p ∈ kInputs s inputs, p.1 ≤ s.lcs.length := by
  obtain ⟨a, h1⟩ := h.system
  have hin := inputsOk_circuit h1
  have hm : ∀ p ∈ kInputs s inputs, ∃ q ∈ s.inputs, q.1 = p.1 := fun p hp => by
    obtain ⟨q, hq, he⟩ := List.mem_map.1 (List.of_mem_zip hp).1
    exact ⟨q, hq, he⟩
  refine ⟨⟨?_, fun p hp => ?_⟩, fun p hp => ?_⟩
  · exact hin.sorted.sublist (by
      have : ∀ (l : List ℕ) (m : List S), ((l.zip m).map Prod.fst).Sublist l := by
        intro l
        induction l with
        | nil => intro m; simp
        | cons a l ih => intro m; cases m with
          | nil => simp
          | cons b m => simpa using ih m
      exact this _ _)
  · obtain ⟨q, hq, he⟩ := hm p hp
    have := (hin.range q hq).1
    omega
  · obtain ⟨q, hq, he⟩ := hm p hp
    have := (hin.range q hq).2
    omega

theorem Shape.kLength (h : Shape circuit n s) (inputs : List S) :
    (kPoly (kInputs s inputs)).length ≤ s.lcs.length + 1 := by
  obtain ⟨h1, h2⟩ := h.k inputs
  rw [(kPoly_spec _ h1).2]
  cases hl : ((kInputs s inputs).map Prod.fst).getLast? with
  | none => simp
  | some x =>
    have hx := List.mem_of_getLast? hl
    obtain ⟨p', hp', rfl⟩ := List.mem_map.1 hx
    have := h2 p' hp'
    simpa using this

theorem Shape.rhs_one (h : Shape circuit n s) (inputs : List S) : rhs (kInputs s inputs) 1 = 1 := by
  obtain ⟨a, h1⟩ := h.system
  obtain ⟨-, i, h2⟩ := first_constraint h1
  simp [kInputs, h2, rhs]

theorem Shape.lcs_pos (h : Shape circuit n s) : 0 < s.lcs.length := by
  obtain ⟨a, h1⟩ := h.system
  obtain ⟨⟨l, h2⟩, -⟩ := first_constraint h1
  simp [h2]

/-- `k(Y)` is not zero. -/
theorem Shape.k_ne (h : Shape circuit n s) (inputs : List S) :
    (kPoly (kInputs s inputs)).getD 1 0 = 1 := by
  rw [(kPoly_spec _ (h.k inputs).1).1, h.rhs_one]

/-- `s(X, y)` is zero for few `y` only. -/
theorem Shape.s_ne (h : Shape circuit n s) (hn : 0 < n) : ∃ T : Finset S, T.card ≤ s.lcs.length ∧
    ∀ y, y ∉ T → (sxVec n s.lcs y).getD (n - 1) 0 ≠ 0 := by
  classical
  obtain ⟨a, h1⟩ := h.system
  obtain ⟨⟨l, h2⟩, -⟩ := first_constraint h1
  let c : ℕ → S := fun q => if q = 0 then 0 else (s.lcs.getD (q - 1) LC.zero).eval (ind (.A 1))
  have hv : ∀ y, (sxVec n s.lcs y).getD (n - 1) 0 = value (s.lcs.length + 1) c y := by
    intro y
    rw [show n - 1 = n - (0 + 1) by omega, sxVec_u _ _ hn, sCoeff,
      sum_mapIdx s.lcs fun q lc => y ^ (q + 1) * lc.eval (ind (.A (0 + 1))), value, Finset.sum_range_succ']
    simp only [c, if_true, zero_mul, add_zero]
    refine Finset.sum_congr rfl fun q _ => ?_
    rw [if_neg (by omega), Nat.add_sub_cancel, mul_comm]
  have hc : c 1 = 1 := by
    simp only [c, h2]
    simp [LC.eval, ind, Coeff.value]
  have hp : toPoly (s.lcs.length + 1) c ≠ 0 := by
    intro h0
    have := congrArg (Polynomial.coeff · 1) h0
    have hpos := h.lcs_pos
    simp only [coeff_toPoly, hc, Polynomial.coeff_zero] at this
    rw [if_pos (by omega)] at this
    exact one_ne_zero this
  refine ⟨(toPoly (s.lcs.length + 1) c).roots.toFinset, (Multiset.toFinset_card_le _).trans
    ((Polynomial.card_roots' _).trans ((natDegree_toPoly _ _).trans (by omega))), fun y hy h0 => hy ?_⟩
  rw [Multiset.mem_toFinset, Polynomial.mem_roots hp, Polynomial.IsRoot.def, eval_toPoly, ← hv, h0]

/-- If the constant coefficient is right for enough `y`, the circuit is satisfied. -/
theorem Shape.satisfied (h : Shape circuit n s) (hn : 0 < n) {inputs : List S} {r : ℕ → S} {ys : Finset S}
    (hc : 2 * n + s.lcs.length < ys.card)
    (hr : ∀ y ∈ ys, y ≠ 0 ∧ r (3 * n - 1) ^ 2 +
      ∑ i ∈ Finset.range n, (r (3 * n + i) * r (3 * n - 2 - i) - r (2 * n - 2 - i)) *
        (y ^ (i + 1) + (y ^ (i + 1))⁻¹) +
      y ^ n * ∑ m ∈ Finset.range (4 * n), (sxVec n s.lcs y).getD m 0 * r (4 * n - 1 - m) =
        opening (kPoly (kInputs s inputs)) y * y ^ n) :
    s.Satisfied (wires n r) inputs := by
  obtain ⟨k1, k2⟩ := h.k inputs
  obtain ⟨-, hd, he⟩ := all_of_const hn (Q := s.lcs.length) (e0 := r (3 * n - 1) ^ 2)
    (d := fun i => r (3 * n + i) * r (3 * n - 2 - i) - r (2 * n - 2 - i))
    (e := fun q => (s.lcs.getD q LC.zero).eval (wires n r) - rhs (kInputs s inputs) (q + 1)) hc (by
      intro y hy
      obtain ⟨h1, h2⟩ := hr y hy
      refine ⟨h1, ?_⟩
      rw [sum_sxVec hn h.inScope, opening_kPoly k1 k2] at h2
      simp only [mul_sub, Finset.sum_sub_distrib]
      rw [← add_sub_assoc, h2]
      ring)
  refine ⟨fun i h1 h2 => ?_, fun q lc hq => ?_⟩
  · have := h.gates
    have := hd (i - 1) (by omega)
    simp only [wires]
    rw [show 3 * n - 1 + i = 3 * n + (i - 1) by omega, show 3 * n - 1 - i = 3 * n - 2 - (i - 1) by omega,
      show 2 * n - 1 - i = 2 * n - 2 - (i - 1) by omega]
    exact sub_eq_zero.1 this
  · obtain ⟨hq1, hq2⟩ := List.getElem?_eq_some_iff.1 hq
    have := sub_eq_zero.1 (he q hq1)
    rwa [show s.lcs.getD q LC.zero = lc by simp [List.getD, hq]] at this

/-- If `s(X, y)` were replaced by zero, it could be right for few `y` only. -/
theorem Shape.not_null (h : Shape circuit n s) (hn : 0 < n) {inputs : List S} {r : ℕ → S} {ys : Finset S}
    (hc : 2 * n + s.lcs.length < ys.card)
    (hr : ∀ y ∈ ys, y ≠ 0 ∧ r (3 * n - 1) ^ 2 +
      ∑ i ∈ Finset.range n, (r (3 * n + i) * r (3 * n - 2 - i) - r (2 * n - 2 - i)) *
        (y ^ (i + 1) + (y ^ (i + 1))⁻¹) = opening (kPoly (kInputs s inputs)) y * y ^ n) : False := by
  obtain ⟨k1, k2⟩ := h.k inputs
  obtain ⟨-, -, he⟩ := all_of_const hn (Q := s.lcs.length) (e0 := r (3 * n - 1) ^ 2)
    (d := fun i => r (3 * n + i) * r (3 * n - 2 - i) - r (2 * n - 2 - i))
    (e := fun q => - rhs (kInputs s inputs) (q + 1)) hc (by
      intro y hy
      obtain ⟨h1, h2⟩ := hr y hy
      refine ⟨h1, ?_⟩
      rw [opening_kPoly k1 k2] at h2
      rw [h2]
      simp only [mul_neg, Finset.sum_neg_distrib]
      ring)
  have := he 0 h.lcs_pos
  rw [zero_add, h.rhs_one] at this
  exact one_ne_zero (neg_eq_zero.1 this)

end Proofs
end Halo
