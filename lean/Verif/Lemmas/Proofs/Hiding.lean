import Verif.Spec.Hiding
import Verif.Lemmas.Proofs.Honest
/-!
# What a proof depends on
-/
namespace Halo
namespace Proofs
open Util Circuit

section
variable {S G : Type} [Field S] [AddCommGroup G] [Module S G]

theorem combine_append (g : ℕ → G) (b : List S) : ∀ (a : List S) (o : ℕ),
    combine g o (a ++ b) = combine g o a + combine g (o + a.length) b
  | [], o => by simp
  | c :: a, o => by
    rw [List.cons_append, combine_cons, combine_cons, combine_append g b a, List.length_cons, add_assoc]
    rw [← add_assoc, add_comm 1 a.length]

theorem combine_col (g : ℕ → G) (o n : ℕ) (f : ℕ → S) :
    combine g o (col f n) = ∑ i ∈ Finset.range n, f (i + 1) • g (i + o) := by
  unfold combine
  rw [col_length]
  apply Finset.sum_congr rfl
  intro i hi
  rw [getD_eq_getElem' _ (by simpa using hi), col_getElem]

theorem combine_col_reverse (g : ℕ → G) (o n : ℕ) (f : ℕ → S) :
    combine g o (col f n).reverse = ∑ i ∈ Finset.range n, f (i + 1) • g (n - 1 - i + o) := by
  unfold combine
  rw [List.length_reverse, col_length, ← Finset.sum_range_reflect]
  apply Finset.sum_congr rfl
  intro i hi
  have hi := Finset.mem_range.1 hi
  rw [getD_eq_getElem' _ (by simp; omega), col_rev_getElem]
  congr 2; omega

theorem witnessPoint_eq (g : ℕ → G) {n : ℕ} (hn : 0 < n) (w : Var → S) :
    combine g (n - 1) (rVec n w) = witnessPoint g n w := by
  unfold rVec witnessPoint
  rw [combine_append, combine_append, combine_append, combine_cons, combine_nil, combine_col_reverse, combine_col_reverse,
    combine_col, zero_smul, add_zero, add_zero, ← Finset.sum_add_distrib, ← Finset.sum_add_distrib]
  apply Finset.sum_congr rfl
  intro i hi
  have hi := Finset.mem_range.1 hi
  simp only [List.length_append, List.length_reverse, col_length, List.length_singleton]
  rw [show n - 1 - i + (n - 1) = 2 * n - 2 - i by omega, show n - 1 - i + (n - 1 + n) = 3 * n - 2 - i by omega,
    show i + (n - 1 + (n + n + 1)) = 3 * n + i by omega]
  abel

theorem witnessPoint_sub (g : ℕ → G) (n : ℕ) (w w' : Var → S) :
    witnessPoint g n (fun v => w v - w' v) = witnessPoint g n w - witnessPoint g n w' := by
  unfold witnessPoint
  rw [← Finset.sum_sub_distrib]
  apply Finset.sum_congr rfl
  intro i _
  simp only [sub_smul]
  abel

/-- Two assignments with the same commitment -/
theorem dependent_of_eq {g : ℕ → G} {n : ℕ} (hn : 0 < n) {w w' : Var → S} (h : witnessPoint g n w = witnessPoint g n w') :
    (∀ v : Var, 1 ≤ v.index → v.index ≤ n → w v = w' v) ∨ Dependent S g (4 * n) := by
  by_cases hw : ∀ v : Var, 1 ≤ v.index → v.index ≤ n → w v = w' v
  · exact .inl hw
  right
  push Not at hw
  obtain ⟨v, h1, h2, h3⟩ := hw
  set u : Var → S := fun v => w v - w' v with hu
  have hz : combine g (n - 1) (rVec n u) = 0 := by rw [witnessPoint_eq g hn, hu, witnessPoint_sub, h, sub_self]
  have hv : ∃ j < 3 * n + 1, (rVec n u).getD j 0 ≠ 0 := by
    have h3 : u v ≠ 0 := sub_ne_zero.2 h3
    cases v with
    | A i =>
      refine ⟨2 * n + (i - 1 + 1), by simp only [Var.index] at h1 h2; omega, ?_⟩
      rw [rVec_a _ (by simp only [Var.index] at h1 h2; omega), Nat.sub_add_cancel (show 1 ≤ i from h1)]
      exact h3
    | B i =>
      refine ⟨2 * n - (i - 1 + 1), by simp only [Var.index] at h1 h2; omega, ?_⟩
      rw [rVec_b _ (by simp only [Var.index] at h1 h2; omega), Nat.sub_add_cancel (show 1 ≤ i from h1)]
      exact h3
    | C i =>
      refine ⟨n - (i - 1 + 1), by simp only [Var.index] at h1 h2; omega, ?_⟩
      rw [rVec_c _ (by simp only [Var.index] at h1 h2; omega), Nat.sub_add_cancel (show 1 ≤ i from h1)]
      exact h3
  obtain ⟨j, hj, hj0⟩ := hv
  refine ⟨fun i => (List.replicate (n - 1) 0 ++ rVec n u).getD i 0, ⟨j + (n - 1), by omega, ?_⟩, ?_⟩
  · simpa [List.getD, List.getElem?_append_right] using hj0
  · have := combine_replicate g (rVec n u) (n - 1) 0
    rw [zero_add, hz, combine, List.length_append, List.length_replicate, rVec_length,
      show n - 1 + (3 * n + 1) = 4 * n by omega] at this
    simpa only [add_zero] using this

end

section
variable {C F S G T : Type} [Field F] [LawfulField F] [Field S] [DecidableEq S] [LawfulField S]
  [AddCommGroup G] [Module S G] [CurveOps C F S] {rep : C → G → Prop}

/-- The commitment in a proof -/
theorem new_rCommitment (L : LawfulCurve C S G rep) {tr : Transcript T F} {fuel cpus : ℕ} (hcpus : 0 < cpus) {lnCeil : ℕ → ℕ}
    (hln : ∀ n, 32 ≤ n → n < 2 ^ 32 → 1 ≤ lnCeil n ∧ lnCeil n ≤ 57) {params : Params C} {g : ℕ → G}
    (hp : ValidParams rep g params) {α : Type} {circuit : Var → Prog S α} {a : α} {s : System S}
    (hs : circuitSystem true circuit = .ok (a, s)) {old new : Leftovers C S} {proof : Proof C S}
    (h : Proof.new tr fuel cpus lnCeil params circuit old = .ok (proof, new)) :
    s.gates < params.n ∧ rep proof.rCommitment (witnessPoint g params.n s.w) := by
  have hkl := hp.k_le
  have hkg := hp.k_gt
  have hpow : 2 ^ params.k = 4 * params.n := by
    rw [hp.n_eq, show (4 : ℕ) = 2 ^ 2 by norm_num, ← pow_add]
    congr 1; omega
  have hn : 0 < params.n := by rw [hp.n_eq]; positivity
  obtain ⟨drv, hsyn, hrel⟩ := sim_prover.synthesize_of_system
    (b := (⟨0, 0, ⟨[], [], []⟩, []⟩ : Witness S))
    (by exact ⟨.empty, rfl, rfl, rfl, rfl, rfl, rfl, rfl⟩) hs trivial
  have hrx := rPoly_wiresOf params.n (show ∀ w : Var, s.gates < w.index → s.w w = 0 from hrel.inv.unused)
  rw [← hrel.wires] at hrx
  obtain ⟨P, hP, hPr⟩ := commit_rep L hcpus hln (params := params) (g := g)
    (by rw [hp.length]; exact Nat.pow_lt_pow_right (by norm_num) (by omega)) hp.gens (v := rVec params.n s.w)
    (by rw [rVec_length, hp.length, hpow]; omega) true
  have ho : offset params.generators.length true (rVec params.n s.w) = params.n - 1 := by
    rw [offset, if_pos rfl, hp.length, hpow, rVec_length]; omega
  rw [ho, witnessPoint_eq g hn] at hPr
  unfold Proof.new at h
  simp only [bind_eq_ok, ofOption_eq_ok, ite_panic_eq_ok, Except.bind_error, hsyn, Except.ok.injEq, exists_eq_left', hrx, hP,
    Option.some.injEq] at h
  obtain ⟨hlt, -, h⟩ := h
  refine ⟨by rw [← hrel.bn]; exact not_not.1 hlt, ?_⟩
  obtain ⟨_, -, _, -, _, -, _, -, _, -, _, -, _, -, _, -, _, -, -, _, -, h⟩ := h
  obtain ⟨_, -, -, _, -, _, -, _, -, _, -, _, -, _, -, _, -, _, -, -, h⟩ := h
  obtain ⟨_, -, _, -, _, -, _, -, _, -, _, -, _, -, _, -, _, -, -, h⟩ := h
  obtain ⟨_, -, -, -, _, -, h⟩ := h
  cases h
  exact hPr

/-- A proof depends on a circuit only by what it asks for, and its values. -/
theorem new_sameRun {tr : Transcript T F} {fuel cpus : ℕ} {lnCeil : ℕ → ℕ} {params : Params C} {α β : Type}
    {circuit : Var → Prog S α} {circuit' : Var → Prog S β} (h : SameRun circuit circuit') (old : Leftovers C S) :
    Proof.new tr fuel cpus lnCeil params circuit old = Proof.new tr fuel cpus lnCeil params circuit' old := by
  obtain ⟨a, s, b, s', h1, h1', hg, hl, hi, hw, positions, ⟨a0, s0, e1, e2, e3, -, e5⟩, b0, s0', f1, f2, f3, -, f5⟩ := h
  obtain ⟨drv, hsyn, hrel⟩ := sim_prover.synthesize_of_system (b := (⟨0, 0, ⟨[], [], []⟩, []⟩ : Witness S))
    (by exact ⟨.empty, rfl, rfl, rfl, rfl, rfl, rfl, rfl⟩) h1 trivial
  obtain ⟨drv', hsyn', hrel'⟩ := sim_prover.synthesize_of_system (b := (⟨0, 0, ⟨[], [], []⟩, []⟩ : Witness S))
    (by exact ⟨.empty, rfl, rfl, rfl, rfl, rfl, rfl, rfl⟩) h1' trivial
  have hb : drv.backend = drv'.backend := by
    have n1 := hrel.bn.trans (hg.trans hrel'.bn.symm)
    have n2 := hrel.bq.trans ((congrArg _ hl).trans hrel'.bq.symm)
    have n3 : drv.backend.wires = drv'.backend.wires := by rw [hrel.wires, hrel'.wires, hw, hg]
    have n4 : drv.backend.inputs = drv'.backend.inputs := by
      refine List.map_injective_iff.2 ?_ (hrel.inputs.symm.trans (hi.trans hrel'.inputs))
      rintro ⟨i, x⟩ ⟨j, y⟩ h
      simpa using h
    cases hd : drv.backend
    cases hd' : drv'.backend
    simp_all
  have hsx : computeSx params.n circuit = computeSx params.n circuit' := by
    funext y
    rw [(computeSx_of params.n y e1 e5).1, (computeSx_of params.n y f1 f5).1, e3, f3]
  unfold Proof.new
  simp only [hsyn, hsyn', Except.bind_ok, hb, hsx]
  by_cases hn : drv'.backend.n < params.n
  · have hsy : computeSy params.n circuit = computeSy params.n circuit' := by
      funext x
      have hle : s.gates ≤ params.n := by
        rw [← hrel.bn, hb]
        exact hn.le
      by_cases hx : x = 0
      · subst hx
        simp only [computeSy, syEval_new_zero]
      · rw [computeSy_of hx e1 e5 (by rw [e2]; exact hle), computeSy_of hx f1 f5 (by rw [f2]; exact hle), e3, f3]
    simp only [hsy]
  · simp only [hn, not_false_eq_true, if_true, Except.bind_error]

end
end Proofs
end Halo
