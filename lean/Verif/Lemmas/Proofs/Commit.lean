import Verif.Lemmas.Proofs.Challenge
import Verif.Lemmas.CurveApi
import Verif.Lemmas.ConstraintPoly
import Verif.Lemmas.PolyMul
/-!
# Commitments, and the check of leftovers
-/
namespace Halo
namespace Proofs
open Util Circuit

/-- The curves of the code satisfy `LawfulOps`. -/
theorem HaloCurve.lawfulOps {E : CurveConsts} {F : Type} [Field F] [DecidableEq F] [LawfulField F]
    {S : Type} [Field S] [LawfulField S] [h : HaloCurve E F S] :
    letI := Proj.curveOps E F S
    letI := HaloCurve.module (E := E) (F := F) (S := S)
    LawfulOps (Proj F) F S (Pt (E.b : F)) (Denotes (E.b : F)) := by
  let := Proj.curveOps E F S
  let := HaloCurve.module (E := E) (F := F) (S := S)
  refine { HaloCurve.lawful (E := E) (F := F) (S := S) with
    one := ⟨h.is.gen rfl, h.is.denotes_one rfl,
      WeierstrassCurve.Affine.Point.some_ne_zero (h.is.gen_nonsing rfl)⟩
    ctEq := ctEq_iff
    ctEq_of_eq := fun h1 h2 => (ctEq_iff h1 h2).2 (.inr rfl)
    getXy := ?_ }
  intro p q a b hp hq
  show (Proj.getXy p).getD (0, 0) = (Proj.getXy q).getD (0, 0) ↔ a = b
  rw [getXy_spec hp, getXy_spec hq]
  have hb : ∀ {x y : F}, (shortW (E.b : F)).toAffine.Nonsingular x y → (x, y) ≠ (0, 0) := by
    intro x y h' h0
    cases h0
    have := equation_short.1 h'.1
    exact (HaloCurve.good E F S).no_two_torsion 0 (by rw [← this]; ring)
  cases a with
  | zero =>
    cases b with
    | zero => simp [affine]
    | some x y n =>
      simp only [affine, Option.getD_none, Option.getD_some]
      refine ⟨fun h0 => (hb n h0.symm).elim, fun h0 => ?_⟩
      cases h0
  | some x y n =>
    cases b with
    | zero =>
      simp only [affine, Option.getD_none, Option.getD_some]
      refine ⟨fun h0 => (hb n h0).elim, fun h0 => ?_⟩
      cases h0
    | some x' y' n' => simp [affine]

section
variable {S G : Type} [Field S] [AddCommGroup G] [Module S G]

theorem combine_pow (x : S) (o : ℕ) (v : List S) : combine (x ^ ·) o v = opening v x * x ^ o := by
  rw [combine, opening_sum, Finset.sum_mul]
  apply Finset.sum_congr rfl
  intro i _
  rw [smul_eq_mul, pow_add, mul_assoc]

theorem computeOpening_eq {C : Type} (params : Params C) {v : List S}
    (hv : v.length ≤ params.generators.length) (x : S) (r : Bool) :
    params.computeOpening v x r = some (combine (x ^ ·) (offset params.generators.length r v) v) := by
  rw [combine_pow]
  cases r <;> simp [Params.computeOpening, openingRight, offset, hv]

end

section
variable {C S G : Type} [Field S] [LawfulField S] [CurveApi C S] [AddCommGroup G] [Module S G]
  {rep : C → G → Prop}

theorem commit_none {cpus : ℕ} {lnCeil : ℕ → ℕ} {params : Params C} {v : List S} {r : Bool}
    (hv : params.generators.length < v.length) : params.commit cpus lnCeil v r = none := by
  rw [Params.commit, if_pos hv]

theorem commit_rep (L : LawfulCurve C S G rep) {cpus : ℕ} (hcpus : 0 < cpus)
    {lnCeil : ℕ → ℕ} (hln : ∀ n, 32 ≤ n → n < 2 ^ 32 → 1 ≤ lnCeil n ∧ lnCeil n ≤ 57)
    {params : Params C} {g : ℕ → G} (hsize : params.generators.length < 2 ^ 32)
    (hg : ∀ i, (h : i < params.generators.length) → rep params.generators[i] (g i)) {v : List S}
    (hv : v.length ≤ params.generators.length) (r : Bool) :
    ∃ P, params.commit cpus lnCeil v r = some P ∧
      rep P (combine g (offset params.generators.length r v) v) := by
  have key : ∀ (gens : List C) (o : ℕ), gens.length = v.length → gens.length < 2 ^ 32 →
      (∀ i, (h : i < gens.length) → rep gens[i] (g (i + o))) →
      ∃ P, multiexp cpus lnCeil v gens = some P ∧ rep P (combine g o v) := by
    intro gens o h1 h2 h3
    obtain ⟨P, h4, h5⟩ := multiexp_rep L hcpus hln h1.symm h2
      (gs := (List.range v.length).map fun i => g (i + o)) (by
        rw [List.forall₂_iff_get]
        refine ⟨by simp [h1], fun i hi _ => ?_⟩
        simpa using h3 i hi)
    refine ⟨P, h4, ?_⟩
    have : combine g o v = ip v ((List.range v.length).map fun i => g (i + o)) := by
      rw [ip_eq_sum _ _ (by simp), combine]
      apply Finset.sum_congr rfl
      intro i hi
      simp [List.getD, Finset.mem_range.1 hi]
    rw [this]
    exact h5
  rw [Params.commit, if_neg (by omega)]
  cases r with
  | true =>
    rw [if_pos rfl]
    refine key _ _ (by simp; omega) (by simp; omega) fun i h => ?_
    have := hg (i + (params.generators.length - v.length)) (by simp at h; omega)
    simpa [offset, add_comm] using this
  | false =>
    rw [if_neg (by simp)]
    refine key _ _ (by simp; omega) (by simp; omega) fun i h => ?_
    have := hg i (by simp at h; omega)
    simpa [offset] using this

theorem computeG_rep (L : LawfulCurve C S G rep) {cpus : ℕ} (hcpus : 0 < cpus)
    {lnCeil : ℕ → ℕ} (hln : ∀ n, 32 ≤ n → n < 2 ^ 32 → 1 ≤ lnCeil n ∧ lnCeil n ≤ 57)
    {gens : List C} {g : ℕ → G} {us : List S} (h0 : ∀ u ∈ us, u ≠ 0) (hk : us.length < 32)
    (hlen : gens.length = 2 ^ us.length)
    (hg : ∀ i, (h : i < gens.length) → rep gens[i] (g i)) :
    ∃ P, computeG cpus lnCeil gens (us.map (· ^ 2)) (us.map (·⁻¹)).prod = some P ∧
      rep P (collapse us g) := by
  have hF : List.Forall₂ rep gens ((List.range (2 ^ us.length)).map g) := by
    rw [List.forall₂_iff_get]
    refine ⟨by simp [hlen], fun i h1 h2 => ?_⟩
    simpa using hg i h1
  obtain ⟨P, h1, h2⟩ := multiexp_rep L hcpus hln
    (coeffs := (Mem.arr (2 ^ us.length) (sCoef us)).toList) (by simp [hlen])
    (by rw [hlen]; exact Nat.pow_lt_pow_right (by norm_num) hk) hF
  refine ⟨P, ?_, ?_⟩
  · unfold computeG
    rw [computeGCoeffs_eq us h0]
    exact h1
  · rw [collapse_eq]
    convert h2 using 1
    rw [arr_toList, ← List.map_uncurry_zip_eq_zipWith, List.zip_map', List.map_map]
    rw [Finset.sum_eq_multiset_sum, Finset.range_val, Multiset.range, Multiset.map_coe,
      Multiset.sum_coe]
    rfl

end

section
variable {C F S G : Type} [Field F] [Field S] [DecidableEq S] [LawfulField S]
  [CurveOps C F S] [AddCommGroup G] [Module S G] {rep : C → G → Prop}

omit [DecidableEq S] in
theorem foldlM_roots {packed us : List S} (h : Roots packed us) : ∀ acc : S,
    (packed.map fun v => (getChallengeScalar v : S)).foldlM
      (fun allinv c => (FieldApi.sqrt c).map fun r => allinv * r) acc = some (acc * us.prod) := by
  induction h with
  | nil => simp
  | cons h1 _ ih =>
    intro acc
    rw [List.map_cons, List.foldlM_cons, h1]
    simp only [Option.map_some, Option.bind_eq_bind, Option.bind_some, ih, List.prod_cons, mul_assoc]

omit [DecidableEq S] in
theorem foldlM_no_roots {packed : List S} (h : ¬ ∃ us, Roots packed us) : ∀ acc : S,
    (packed.map fun v => (getChallengeScalar v : S)).foldlM
      (fun allinv c => (FieldApi.sqrt c).map fun r => allinv * r) acc = none := by
  induction packed with
  | nil => exact (h ⟨[], .nil⟩).elim
  | cons p ps ih =>
    intro acc
    rw [List.map_cons, List.foldlM_cons]
    cases hs : FieldApi.sqrt (getChallengeScalar p : S) with
    | none => rfl
    | some u =>
      simp only [Option.map_some, Option.bind_eq_bind, Option.bind_some]
      exact ih (fun ⟨us, hus⟩ => h ⟨u :: us, .cons hs hus⟩) _

omit [DecidableEq S] in
theorem Roots.prod_inv {packed us : List S} (h : Roots packed us) :
    FieldApi.invert (1 * us.prod) = some (us.map (·⁻¹)).prod := by
  have h0 : us.prod ≠ 0 := fun h0 => h.ne 0 (List.prod_eq_zero_iff.1 h0) rfl
  rw [one_mul, LawfulField.invert_eq _ h0]
  congr 1
  clear h0 h
  induction us with
  | nil => simp
  | cons u us ih => simp [ih, mul_comm]

omit [AddCommGroup G] in
theorem ValidParams.size {g : ℕ → G} {params : Params C} (hp : ValidParams rep g params) :
    params.generators.length < 2 ^ 32 := by
  rw [hp.length]
  exact Nat.pow_lt_pow_right (by norm_num) (by have := hp.k_le; omega)

omit [DecidableEq S] in
/-- What the check of leftovers does -/
theorem leftovers_verify_eq (L : LawfulOps C F S G rep) {cpus : ℕ} (hcpus : 0 < cpus)
    {lnCeil : ℕ → ℕ} (hln : ∀ n, 32 ≤ n → n < 2 ^ 32 → 1 ≤ lnCeil n ∧ lnCeil n ≤ 57)
    {params : Params C} {g : ℕ → G} (hp : ValidParams rep g params) {α : Type}
    {circuit : Var → Prog S α} {lo : Leftovers C S} {sx : List S}
    (hsx : computeSx params.n circuit lo.yNew = .ok sx)
    (hlen : lo.challengesSqPackedNew.length = params.k) {us : List S}
    (hus : Roots lo.challengesSqPackedNew us) {σ γ : G} (hσ : rep lo.sNewCommitment σ)
    (hγ : rep lo.gNew γ) :
    ∃ b, lo.verify cpus lnCeil params circuit = .ok b ∧
      (b = true ↔ (collapse us g = 0 ∨ collapse us g = γ) ∧
        (combine g 0 sx = 0 ∨ combine g 0 sx = σ)) := by
  obtain ⟨-, s, -, -, rfl⟩ := computeSx_ok hsx
  have hl : us.length = params.k := hus.length.trans hlen
  have hk := hp.k_le
  have hk' := hp.k_gt
  obtain ⟨P, h1, h2⟩ := commit_rep L.toLawfulCurve hcpus hln hp.size hp.gens
    (v := sxVec params.n s.lcs lo.yNew) (by
      rw [sxVec_length, hp.length, hp.n_eq]
      obtain ⟨m, hm⟩ : ∃ m, params.k = m + 2 := ⟨params.k - 2, by omega⟩
      have : 1 ≤ 2 ^ m := Nat.one_le_two_pow
      rw [hm, Nat.add_sub_cancel, pow_add]
      omega) false
  obtain ⟨Q, h3, h4⟩ := computeG_rep L.toLawfulCurve hcpus hln hus.ne (by omega)
    (by rw [hp.length, hl]) hp.gens
  refine ⟨CurveOps.ctEq Q lo.gNew && CurveOps.ctEq P lo.sNewCommitment, ?_, ?_⟩
  · unfold Leftovers.verify
    rw [hsx]
    simp only [Except.bind_ok, h1, ofOption, hlen, ne_eq, not_true, if_false]
    rw [foldlM_roots hus, hus.sq]
    simp only [Except.bind_ok, hus.prod_inv, h3]
  · rw [Bool.and_eq_true, L.ctEq h4 hγ, L.ctEq h2 hσ]
    rfl

end

end Proofs
end Halo
