import Verif.Spec.Verdict
import Verif.Lemmas.Proofs.SoundRun
/-!
# When the verifier returns
-/
namespace Halo
namespace Proofs
open Circuit Util
set_option linter.unusedSectionVars false

variable {T C F S G : Type} [Field F] [LawfulField F] [Field S] [DecidableEq S] [LawfulField S]
  [AddCommGroup G] [Module S G] [CurveOps C F S] {rep : C → G → Prop} {α : Type} {tr : Transcript T F}

theorem entries_some_iff {r : InnerProductRound C S} {m : ℕ} :
    (∃ es, r.entries m = some es) ↔ m ≤ r.L.length ∧ m ≤ r.R.length ∧ m ≤ r.l.length ∧ m ≤ r.r.length := by
  unfold InnerProductRound.entries
  split
  · rename_i h; simp [h]
  · rename_i h; simpa using h

theorem verifyRounds_total {m : ℕ} {rounds : List (InnerProductRound C S)} {t : T} (h : Draws tr m rounds t) :
    ∀ {pv : List (C × S)}, pv.length = m →
    ∃ pv' chs t', verifyRounds tr rounds pv t = some (pv', chs, t') ∧ pv'.length = m ∧ chs.length = rounds.length ∧
      ∀ ch ∈ chs, ch.Good := by
  induction h with
  | nil t => exact fun {pv} hm => ⟨pv, [], t, rfl, hm, rfl, by simp⟩
  | @cons r rounds es t ch t1 hes hch _ ih =>
    intro pv hm
    obtain ⟨pv', chs, t', h1, h2, h3, h4⟩ := ih (pv := List.zipWith (foldInstance ch) pv es)
      (by rw [List.length_zipWith, hm, (entries_get hes).1, min_self])
    refine ⟨pv', ch :: chs, t', ?_, h2, by simp [h3], ?_⟩
    · simp only [verifyRounds, hm, hes, hch, h1, Option.bind_eq_bind, Option.bind_some]
    · intro c hc
      rcases List.mem_cons.1 hc with rfl | hc
      · exact squareChallenge_good hch
      · exact h4 _ hc

theorem verifyRounds_draws : ∀ {rounds : List (InnerProductRound C S)} {pv : List (C × S)} {t : T} {r},
    verifyRounds tr rounds pv t = some r → Draws tr pv.length rounds t
  | [], _, _, _, _ => .nil _
  | round :: rounds, pv, t, r, h => by
    simp only [verifyRounds, Option.bind_eq_bind, Option.bind_eq_some_iff] at h
    obtain ⟨es, hes, ⟨ch, t1⟩, hch, q, hr, -⟩ := h
    have h1 := verifyRounds_draws hr
    rw [List.length_zipWith, (entries_get hes).1, min_self] at h1
    exact .cons hes hch h1

theorem checkFinal_total {gp : C} {us : List S} (hus : us ≠ []) : ∀ {points : List S} {pv : List (C × S)} {as : List S},
    points.length ≤ pv.length → points.length ≤ as.length →
    ∃ b, checkFinal gp us (us.map (·⁻¹)) points pv as = some b
  | [], _, _, _, _ => ⟨true, rfl⟩
  | point :: points, [], _, h, _ => by simp at h
  | point :: points, _ :: _, [], _, h => by simp at h
  | point :: points, (p, v) :: pv, a :: as, h1, h2 => by
    simp only [checkFinal, computeB_eq us point hus, Option.bind_eq_bind, Option.bind_some]
    split
    · exact ⟨_, rfl⟩
    · split
      · exact ⟨_, rfl⟩
      · exact checkFinal_total hus (by simpa using h1) (by simpa using h2)

theorem verifyProof_total {op : MultiPolynomialOpening C S} {instances : List (PolynomialOpening C S)} {k m : ℕ}
    (hm : instances.length = m) (hk : op.rounds.length = k) (hk0 : 0 < k) (ha : m ≤ op.a.length) {t : T}
    (hd : Draws tr m op.rounds t) :
    ∃ b packed forks t', op.verifyProof tr instances k t = some (b, packed, op.g, forks, t') ∧ packed.length = k ∧
      ∃ us, Roots packed us := by
  obtain ⟨pv', chs, t', h1, h2, h3, h4⟩ := verifyRounds_total hd
    (pv := instances.map fun i => (i.commitment, i.opening)) (by simp [hm])
  have hne : chs.map (·.challenge) ≠ [] := by
    rw [← List.length_pos_iff, List.length_map, h3, hk]; exact hk0
  have hinv : chs.map (·.challengeInv) = (chs.map (·.challenge)).map (·⁻¹) := by
    rw [List.map_map]
    exact List.map_congr_left fun c hc => (h4 c hc).inv
  obtain ⟨b, hb⟩ := checkFinal_total (gp := op.g) hne (points := instances.map (·.point)) (pv := pv') (as := op.a)
    (by simp [hm, h2]) (by simpa [hm] using ha)
  refine ⟨b, chs.map (·.challengeSqPacked), chs.map (·.fork), t', ?_, by simp [h3, hk], chs.map (·.challenge), ?_⟩
  · unfold MultiPolynomialOpening.verifyProof
    rw [if_neg (not_not.2 hk)]
    simp only [h1, hinv, hb, Option.bind_eq_bind, Option.bind_some]
  · rw [Roots, List.forall₂_map_left_iff, List.forall₂_map_right_iff, List.forall₂_same]
    intro ch hc
    rw [(h4 ch hc).packed, (h4 ch hc).sqrt]

theorem verifyProof_draws {op : MultiPolynomialOpening C S} {instances : List (PolynomialOpening C S)} {k : ℕ} {t : T} {r}
    (h : op.verifyProof tr instances k t = some r) :
    op.rounds.length = k ∧ Draws tr instances.length op.rounds t := by
  unfold MultiPolynomialOpening.verifyProof at h
  split at h
  case isTrue => simp at h
  case isFalse hk =>
  simp only [Option.bind_eq_bind, Option.bind_eq_some_iff] at h
  obtain ⟨q, hr, -⟩ := h
  have := verifyRounds_draws hr
  rw [List.length_map] at this
  exact ⟨not_not.1 hk, this⟩

theorem computeOpening_left (params : Params C) (v : List S) (x : S) :
    params.computeOpening v x false = some (combine (x ^ ·) 0 v) := by
  rw [combine_pow]
  simp [Params.computeOpening]

/-- The verifier returns. -/
theorem verify_total {cpus : ℕ} {lnCeil : ℕ → ℕ} {st : Statement C S α}
    {π : Proof C S} {n : ℕ} {s : System S} (hs : Shape st.circuit n s)
    (hlen : st.inputs.length = s.inputs.length - 1) {K : C} {us : List S}
    (hus : Roots st.old.challengesSqPackedNew us) (hus0 : us ≠ []) (hk0 : 0 < st.params.k)
    (hr : π.innerProduct.rounds.length = st.params.k) (ha : 5 ≤ π.innerProduct.a.length)
    (hd : π.Draws tr K (kPoly (kInputs s st.inputs)) us) :
    ∃ b new d forks, π.verify tr cpus lnCeil st.old st.params st.circuit st.inputs (some K) = .ok (b, new, d, forks) ∧
      d.x ≠ 0 ∧ d.yCur ≠ 0 ∧ d.challengesSqPackedOld = st.old.challengesSqPackedNew ∧
      d.challengesSqPackedNew = new.challengesSqPackedNew ∧ new.challengesSqPackedNew.length = st.params.k ∧
      new.sNewCommitment = π.sNewCommitment ∧ new.gNew = π.innerProduct.g ∧
      ∃ us, Roots new.challengesSqPackedNew us := by
  obtain ⟨a0, hsys⟩ := hs.system
  obtain ⟨dv, hdv, hrel⟩ := sim_inputMap.synthesize_of_system (b := [])
    ⟨.empty, rfl, rfl, rfl, rfl⟩ hsys trivial
  obtain ⟨y, x, yn, z, t1, t2, t3, t4, g1, g2, g3, g4, hd⟩ := hd
  simp only [List.foldl_cons, List.foldl_nil] at g4
  have hv := fun (instances : List (PolynomialOpening C S)) (hm : instances.length = 5) =>
    verifyProof_total (op := π.innerProduct) hm hr hk0 ha hd
  choose vb vp vf vt hv1 hv2 vu hv3 using hv
  have hne : ∀ is hm, vu is hm ≠ [] := fun is hm => by
    rw [← List.length_pos_iff, (hv3 is hm).length, hv2]; exact hk0
  unfold Proof.verify
  simp only [hdv, Except.bind_ok, hrel.inputs, List.length_map, hlen, not_true, if_false, ne_eq,
    expandChallenges_eq hus, computeB_eq us _ hus0, ofOption, g1, g2, g3]
  have hop : st.params.computeOpening (kPoly (kInputs s st.inputs)) y false = some _ := computeOpening_left st.params _ y
  change _ = some (combine (y ^ ·) 0 (kPoly (kInputs s st.inputs))) at hop
  unfold kInputs at hop g4
  simp only [hop, Except.bind_ok]
  simp only [g4, Except.bind_ok]
  rw [hv1 _ rfl]
  simp only [Except.bind_ok]
  rw [expandChallenges_eq (hv3 _ rfl)]
  simp only [Except.bind_ok, computeB_eq _ _ (hne _ _)]
  exact ⟨_, _, _, _, rfl, getChallenge_ne_zero g2, getChallenge_ne_zero g1, rfl, rfl, hv2 _ _, rfl, rfl, _, hv3 _ _⟩

/-- What is needed for it -/
theorem verify_draws {cpus : ℕ} {lnCeil : ℕ → ℕ} {st : Statement C S α}
    {π : Proof C S} {n : ℕ} {s : System S} (hs : Shape st.circuit n s) {K : C} {r}
    (h : π.verify tr cpus lnCeil st.old st.params st.circuit st.inputs (some K) = .ok r) :
    st.inputs.length = s.inputs.length - 1 ∧ st.old.challengesSqPackedNew ≠ [] ∧
    π.innerProduct.rounds.length = st.params.k ∧
    ∃ us, Roots st.old.challengesSqPackedNew us ∧ π.Draws tr K (kPoly (kInputs s st.inputs)) us := by
  obtain ⟨a0, hsys⟩ := hs.system
  obtain ⟨dv, hdv, hrel⟩ := sim_inputMap.synthesize_of_system (b := [])
    ⟨.empty, rfl, rfl, rfl, rfl⟩ hsys trivial
  unfold Proof.verify at h
  simp only [hdv, Except.bind_ok, hrel.inputs, List.length_map] at h
  simp only [bind_eq_ok, ofOption_eq_ok, ite_panic_eq_ok, Except.bind_error, Except.ok.injEq] at h
  obtain ⟨hlen, ⟨y', T1⟩, hy, ⟨x', T2⟩, hx, ⟨yn, T3⟩, hyn, ky, hkyo, hv⟩ := h
  obtain ⟨⟨sqo, uso, invo, po⟩, hexo, gx, hgx, ⟨ζ, T4⟩, hz, ⟨sat, packed, gN, fk, T5⟩, hip, -⟩ := hv
  obtain ⟨us, hus⟩ : ∃ us, Roots st.old.challengesSqPackedNew us := by
    by_contra hno
    rw [expandChallenges_none hno] at hexo
    cases hexo
  rw [expandChallenges_eq hus] at hexo
  simp only [Option.some.injEq, Prod.mk.injEq] at hexo
  obtain ⟨-, rfl, rfl, -⟩ := hexo
  have hne : us ≠ [] := by
    rintro rfl
    simp [computeB] at hgx
  obtain ⟨hr, hd⟩ := verifyProof_draws hip
  have hky' := computeOpening_left st.params (kPoly (kInputs s st.inputs)) y'
  rw [show kPoly (kInputs s st.inputs) = kPoly ((s.inputs.map Prod.fst).zip (1 :: st.inputs)) from rfl] at hky'
  rw [hky'] at hkyo
  obtain rfl := Option.some.inj hkyo
  rw [computeB_eq us x' hne] at hgx
  obtain rfl := Option.some.inj hgx
  refine ⟨not_not.1 hlen, fun h0 => hne ?_, hr, us, hus, y', x', yn, ζ, T1, T2, T3, T4, hy, hx, hyn, hz, hd⟩
  rw [← List.length_eq_zero_iff, hus.length, h0, List.length_nil]

end Proofs
end Halo
