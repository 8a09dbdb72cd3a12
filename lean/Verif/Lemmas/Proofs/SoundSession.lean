import Verif.Lemmas.Proofs.SoundFound
import Verif.Props.Honest
/-!
# The sessions of the honest prover meet the hypotheses of C66
-/
namespace Halo
namespace Proofs
open Circuit Util
set_option linter.unusedSectionVars false
variable {E : CurveConsts} {F : Type} [Field F] [DecidableEq F] [LawfulField F]
  {S : Type} [Field S] [DecidableEq S] [LawfulField S]

omit [DecidableEq S] in
theorem cast_injOn : Set.InjOn (fun m : ℕ => (m : S)) (Finset.range (2 ^ 254)) := by
  intro a ha b hb h
  have hS := (LawfulField.modulus_bound (F := S)).1
  have h1 := (Finset.mem_range.1 (Finset.mem_coe.1 ha)).trans hS
  have h2 := (Finset.mem_range.1 (Finset.mem_coe.1 hb)).trans hS
  have := (LawfulField.cast_eq_iff (F := S) a b).1 h
  rwa [Nat.mod_eq_of_lt h1, Nat.mod_eq_of_lt h2] at this

/-- A point at which different vectors have different values -/
theorem exists_gamma {ι : Type} [Fintype ι] (fam : ι → ℕ → S) (d : ℕ)
    (h : Fintype.card ι * Fintype.card ι * d < 2 ^ 254) :
    ∃ γ : S, ∀ i j, value d (fam i) γ = value d (fam j) γ → ∀ m < d, fam i m = fam j m := by
  classical
  set T : Finset S := (Finset.range (2 ^ 254)).image fun m : ℕ => (m : S) with hT
  have hc : T.card = 2 ^ 254 := by rw [hT, Finset.card_image_of_injOn cast_injOn, Finset.card_range]
  let bad : ι × ι → Finset S := fun q =>
    T.filter fun γ => value d (fam q.1) γ = value d (fam q.2) γ ∧ ¬ ∀ m < d, fam q.1 m = fam q.2 m
  have hbad : ∀ q ∈ (Finset.univ : Finset (ι × ι)), (bad q).card ≤ d := by
    intro q _
    by_contra hlt
    obtain ⟨γ, hγ⟩ := Finset.card_pos.1 (show 0 < (bad q).card by omega)
    refine (Finset.mem_filter.1 hγ).2.2 fun m hm => ?_
    exact vec_eq (xs := bad q) (by omega) (fun x hx => (Finset.mem_filter.1 hx).2.1) hm
  have hun := Finset.card_biUnion_le_card_mul _ bad d hbad
  rw [Finset.card_univ, Fintype.card_prod] at hun
  obtain ⟨γ, g1, g2⟩ : ∃ γ ∈ T, γ ∉ Finset.univ.biUnion bad := by
    by_contra hno
    push Not at hno
    have := Finset.card_le_card (show T ⊆ Finset.univ.biUnion bad from hno)
    omega
  refine ⟨γ, fun i j hv => ?_⟩
  by_contra hno
  exact g2 (Finset.mem_biUnion.2 ⟨(i, j), Finset.mem_univ _, Finset.mem_filter.2 ⟨g1, hv, hno⟩⟩)

omit [DecidableEq F] [DecidableEq S] in
/-- a script -/
theorem Pool.script {N : ℕ} (p : Pool F S N) (i0 iy ix iyn iz : Fin N) (is : List (Fin N)) :
    ∃ f : ℕ → F, f 0 = p.word iy ∧ f 1 = p.word ix ∧ f 2 = p.word iyn ∧ f 3 = p.word iz ∧
      (∀ (j : ℕ) (i : Fin N), is[j]? = some i → f (4 + j) = p.word i) ∧ ∀ t, ∃ i, f t = p.word i := by
  refine ⟨fun t => p.word ((iy :: ix :: iyn :: iz :: is).getD t i0), rfl, rfl, rfl, rfl, fun j i h => ?_,
    fun t => ⟨_, rfl⟩⟩
  simp only [Nat.add_comm 4 j, List.getD_cons_succ]
  rw [List.getD_eq_getElem?_getD, h, Option.getD_some]

theorem Pool.mul_self {N : ℕ} (p : Pool F S N) (i : Fin N) : p.root i * p.root i = getChallengeScalar (p.pk i) := by
  have h := p.sqrt i
  by_cases hs : IsSquare (getChallengeScalar (p.pk i) : S)
  · obtain ⟨y, hy, hyy⟩ := LawfulField.sqrt_some _ hs
    rw [hy] at h
    rw [← hyy, Option.some.inj h]
  · rw [LawfulField.sqrt_none _ hs] at h
    exact absurd h (by simp)

theorem Pool.root_inj {N : ℕ} (p : Pool F S N) (i j : Fin N) (h : p.root i ^ 2 = p.root j ^ 2) : i = j :=
  p.inj i j (by rw [← p.mul_self, ← p.mul_self, ← sq, ← sq, h])

theorem Pool.card_pk {N : ℕ} (p : Pool F S N) : (Finset.univ.image p.pk).card = N := by
  rw [Finset.card_image_of_injective _ fun i j h => p.inj i j (by rw [h]), Finset.card_univ, Fintype.card_fin]

theorem Pool.card_z {N : ℕ} (p : Pool F S N) :
    (Finset.univ.image fun i => (getChallengeScalar (p.pk i) : S)).card = N := by
  rw [Finset.card_image_of_injective _ fun i j h => p.inj i j h, Finset.card_univ, Fintype.card_fin]

theorem Pool.card_root {N : ℕ} (p : Pool F S N) : (Finset.univ.image p.root).card = N := by
  rw [Finset.card_image_of_injective _ fun i j h => p.root_inj i j (by rw [h]), Finset.card_univ, Fintype.card_fin]

theorem Pool.root_eq {N : ℕ} (p : Pool F S N) : ∀ u ∈ Finset.univ.image p.root, ∀ v ∈ Finset.univ.image p.root,
    u ^ 2 = v ^ 2 → u = v := by
  intro u hu v hv h
  simp only [Finset.mem_image, Finset.mem_univ, true_and] at hu hv
  obtain ⟨i, rfl⟩ := hu
  obtain ⟨j, rfl⟩ := hv
  rw [p.root_inj i j h]

theorem Pool.enough (p : Pool F S 240) {Q : ℕ} (hq : Q < 20) : p.challenges.Enough 5 Q := by
  refine ⟨?_, fun _ _ => ?_, fun _ _ _ _ => ?_, fun _ _ _ _ _ _ => ?_, fun _ _ _ _ _ _ => ⟨?_, p.root_eq⟩⟩
  · rw [Pool.challenges, p.card_pk]; omega
  · rw [Pool.challenges, p.card_pk]; norm_num
  · rw [Pool.challenges, p.card_pk]; omega
  · rw [Pool.challenges, p.card_z]; norm_num
  · rw [Pool.challenges, p.card_root]; norm_num

/-- A small circuit that is satisfied, an honest prover and a pool of 240 challenges: everything that C66 assumes. -/
theorem honest_session [HaloCurve E F S] (p : Pool F S 240) {circuit : Var → Prog S Unit} {gates : ℕ}
    {lcs : List (LC S)} {positions : List ℕ} (h1 : HasShape true circuit gates lcs positions)
    (h2 : HasShape false circuit gates lcs positions) (hn : gates < 8) (hq : lcs.length < 20) {inputs : List S}
    (hsat : isSatisfied circuit inputs = .ok true) {cpus : ℕ} (hcpus : 0 < cpus) {lnCeil : ℕ → ℕ}
    (hln : ∀ n, 32 ≤ n → n < 2 ^ 32 → 1 ≤ lnCeil n ∧ lnCeil n ≤ 57) :
    letI := Proj.curveOps E F S
    letI := HaloCurve.module (E := E) (F := F) (S := S)
    ∃ (st : Statement (Proj F) S Unit) (g : ℕ → Pt (E.b : F)) (P : Prover (Proj F) S),
      st.circuit = circuit ∧ st.inputs = inputs ∧ st.kCommitment = none ∧ st.params.k = 5 ∧ st.params.n = 8 ∧
      ValidParams (Denotes (E.b : F)) g st.params ∧
      ValidLeftovers (Denotes (E.b : F)) g st.params st.circuit st.old ∧
      P.OnCurve (Denotes (E.b : F)) ∧ p.challenges.Enough st.params.k lcs.length ∧
      (∀ y x yNew z us, p.challenges.Tried y x yNew z → us.length = st.params.k → p.challenges.Path y x yNew z [] us →
        st.Accepts (F := F) cpus lnCeil P y x yNew z us) ∧
      Binding g st P p.challenges positions := by
  let := Proj.curveOps E F S
  let := HaloCurve.module (E := E) (F := F) (S := S)
  have L := HaloCurve.lawfulOps (E := E) (F := F) (S := S)
  obtain ⟨a, s, e1, e2, e3, e4, e5⟩ := id h1
  obtain ⟨b, v, f1, f2, f3, f4, f5⟩ := id h2
  obtain ⟨s', g1, g2, -, g4⟩ := (C29_is_satisfied circuit inputs).1 hsat
  cases e1.symm.trans g1
  have hpi := publicInputs_eq e1 g2 g4
  obtain ⟨drv, hsyn, hrel⟩ := sim_prover.synthesize_of_system
    (b := (⟨0, 0, ⟨[], [], []⟩, []⟩ : Witness S))
    (by exact ⟨.empty, rfl, rfl, rfl, rfl, rfl, rfl, rfl⟩) e1 trivial
  have hky := (zip_publicInputs e1 hrel.inputs).1
  rw [hpi, e4] at hky
  let i0 : Fin 240 := 0
  let D : HonestData S Unit := ⟨8, 5, cpus, circuit, drv.backend, p.pk i0, List.replicate 5 (p.root i0)⟩
  let fam : Fin 11 × Fin 240 × Fin 240 × Fin 240 × (Fin 5 → Fin 240) → ℕ → S := fun q =>
    (D.family (p.pk q.2.1) (p.pk q.2.2.1) (p.pk q.2.2.2.1) ((List.ofFn q.2.2.2.2).map p.root)).getD q.1 fun _ => 0
  obtain ⟨γ, hγ⟩ := exists_gamma fam 32 (by
    simp only [Fintype.card_prod, Fintype.card_fin, Fintype.card_fun]
    norm_num)
  -- the parameters
  obtain ⟨A, -, hA0⟩ := one_denotes (E := E) (F := F) (S := S)
  let g : ℕ → Pt (E.b : F) := fun m => γ ^ m • A
  choose pt hpt using fun m : ℕ => L.total (g m)
  let params : Params (Proj F) := ⟨2 ^ 5, 2 ^ 3, 5, (List.range (2 ^ 5)).map pt⟩
  have hp : ValidParams (Denotes (E.b : F)) g params := by
    refine ⟨by simp [params], by simp [params], rfl, rfl, by simp [params], fun i hi => ?_⟩
    simpa [params] using hpt i
  -- the old leftovers
  obtain ⟨sO, hsO⟩ := L.total (combine g 0 (sxVec 8 v.lcs (p.pk i0)))
  obtain ⟨gO, hgO⟩ := L.total (collapse D.usOld g)
  let old : Leftovers (Proj F) S := ⟨sO, p.pk i0, gO, List.replicate 5 (p.pk i0)⟩
  have hroots : ∀ is : List (Fin 240), Roots (is.map p.pk) (is.map p.root) := fun is => by
    induction is with
    | nil => exact .nil
    | cons i is ih => exact .cons (p.sqrt i) ih
  have hro : Roots old.challengesSqPackedNew D.usOld := by
    have := hroots (List.replicate 5 i0)
    simpa only [List.map_replicate] using this
  have hold : ValidLeftovers (Denotes (E.b : F)) g params circuit old :=
    ⟨⟨_, (computeSx_of 8 (p.pk i0) f1 f5).1, hsO⟩, by simp [old, params], D.usOld, hro, hgO⟩
  let st : Statement (Proj F) S Unit := ⟨params, circuit, inputs, none, old⟩
  let P := honestProver (Denotes (E.b : F)) lnCeil params D
  -- the sessions
  have run : ∀ (iy ix iyn iz : Fin 240) (is : List (Fin 240)), is.length = 5 →
      st.Accepts (F := F) cpus lnCeil P (p.pk iy) (p.pk ix) (p.pk iyn) (getChallengeScalar (p.pk iz)) (is.map p.root) ∧
        D.rx.length ≤ 2 ^ D.k ∧ D.ky.length ≤ (D.sy (p.pk ix)).length := by
    intro iy ix iyn iz is his
    obtain ⟨f, k0, k1, k2, k3, k4, kall⟩ := p.script i0 iy ix iyn iz is
    have hget : ∀ t, ∃ r, getChallenge S (scripted f) t = some r := fun t => by
      obtain ⟨i, hi⟩ := kall t
      exact ⟨_, p.getChallenge hi⟩
    have hsq : ∀ t, ∃ r, squareChallenge S (scripted f) 1 t = some r := fun t => by
      obtain ⟨i, hi⟩ := kall t
      exact ⟨_, p.squareChallenge hi (by norm_num)⟩
    obtain ⟨proof, new, hnew⟩ := C44_prover_returns (E := E) (scripted f) (by norm_num) hget hsq hcpus hln hp h1 h2
      (by simpa [params] using hn) (by simp only [params]; omega) hsat hold
    obtain ⟨d, forks, v1, v2, v3, -⟩ := C44_honest_proof_verifies (scripted f) (by norm_num) hcpus hcpus hln hln hp
      h1 h2 h2 hsat (kCommitment := none) hold hnew (by simp)
    obtain ⟨-, -, -, -, -, -, -, hsh⟩ := honest L.toReflOps hcpus hln (by norm_num) hp hold hnew e1 f1
      (by rw [f4, e4]) hcpus hln (kc := none) (by simp)
    obtain ⟨n1, n2, n3, n4⟩ := new_eq D p (rep := Denotes (E.b : F)) (fuel := 1) (by norm_num) (params := params)
      rfl rfl rfl (old := old) rfl hro hsyn rfl his k0 k1 k2 k3 k4 hnew hsh
    refine ⟨⟨f, p.pk iz, new, d, forks, p.getChallenge k0, p.getChallenge k1, p.getChallenge k2, p.getChallenge k3,
      rfl, ?_, ?_, v2, v3⟩, n3, n4⟩
    · rw [← n1]
      exact v1
    · rw [n2]
      exact hroots is
  refine ⟨st, g, P, rfl, rfl, rfl, rfl, rfl, hp, hold, honestProver_onCurve D L.zero lnCeil params,
    ?_, ?_, ?_⟩
  · exact p.enough hq
  · intro y x yNew z us ht hl hpath
    obtain ⟨iy, ix, iyn, iz, rfl, rfl, rfl, rfl⟩ := Pool.tried ht
    obtain ⟨is, rfl⟩ := Pool.path hpath
    exact (run iy ix iyn iz is (by simpa [st, params] using hl)).1
  · have hr5 := fun ix => (run i0 ix i0 i0 (List.replicate 5 i0) (by simp)).2
    have hfound : ∀ v, Found st P p.challenges positions v → ∃ q, ∀ m < 32, v m = fam q m := by
      intro v hv
      obtain ⟨iy, ix, iyn, is, his, w, hw, hvw⟩ := found_honest D (by norm_num) rfl rfl rfl
        (by rw [show st.inputs = inputs from rfl, hky]; rfl) (hr5 i0).1 (fun i => (hr5 i).2) hv
      obtain ⟨c, hc, rfl⟩ := List.mem_iff_getElem.1 hw
      have hc11 : c < 11 := by simpa [HonestData.family] using hc
      refine ⟨(⟨c, hc11⟩, iy, ix, iyn, fun l => is[l.1]'(by rw [his]; exact l.2)), fun m hm => ?_⟩
      have hof : List.ofFn (fun l : Fin 5 => is[l.1]'(by rw [his]; exact l.2)) = is := by
        apply List.ext_getElem
        · simp [his, D]
        · intro l h1 h2
          rw [List.getElem_ofFn]
      rw [hvw m hm]
      simp only [fam, hof]
      rw [List.getD_eq_getElem?_getD, List.getElem?_eq_getElem hc, Option.getD_some]
    have hsum : ∀ v : ℕ → S, ∑ m ∈ Finset.range (2 ^ st.params.k), v m • g m = value 32 v γ • A := by
      intro v
      simp only [g, smul_smul, ← Finset.sum_smul, value]
      rfl
    intro v w hv hw heq m hm
    obtain ⟨q, hq⟩ := hfound v hv
    obtain ⟨q', hq'⟩ := hfound w hw
    rw [hsum, hsum] at heq
    have hval : value 32 v γ = value 32 w γ := by
      by_contra hne
      have : (value 32 v γ - value 32 w γ) • A = 0 := by rw [sub_smul, heq, sub_self]
      exact (smul_ne_zero (sub_ne_zero.2 hne) hA0) this
    rw [value_congr hq, value_congr hq'] at hval
    rw [hq m hm, hq' m hm, hγ q q' hval m hm]

end Proofs
end Halo
