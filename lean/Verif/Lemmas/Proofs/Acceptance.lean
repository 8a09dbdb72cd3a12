import Verif.Spec.Acceptance
import Verif.Lemmas.Proofs.Total
/-!
# Which proofs the verifier accepts
-/
namespace Halo
namespace Proofs
open Circuit Util
set_option linter.unusedSectionVars false
variable {T C F S G : Type} [Field F] [LawfulField F] [Field S] [DecidableEq S] [LawfulField S]
  [AddCommGroup G] [Module S G] [CurveOps C F S] {rep : C → G → Prop} {pt : C → G} {α : Type} {tr : Transcript T F}

theorem folded_points {j : ℕ} : ∀ {rounds : List (InnerProductRound C S)} {us : List S} {A : G},
    us.length = rounds.length → (∀ r ∈ rounds, j < r.L.length ∧ j < r.R.length) →
    (∀ r ∈ rounds, (∀ p ∈ r.L, rep p (pt p)) ∧ ∀ p ∈ r.R, rep p (pt p)) →
    Folded rep j rounds us A (foldedCommitment pt j rounds us A)
  | [], _, _, _, _, _ => by simp [Folded, foldedCommitment]
  | r :: rounds, [], _, h, _, _ => by simp at h
  | r :: rounds, u :: us, A, h, hj, hr => by
    obtain ⟨j1, j2⟩ := hj r (by simp)
    obtain ⟨r1, r2⟩ := hr r (by simp)
    refine ⟨r.L[j], r.R[j], pt r.L[j], pt r.R[j], by simp [j1], by simp [j2], r1 _ (List.getElem_mem _),
      r2 _ (List.getElem_mem _), ?_⟩
    have ih := folded_points (A := A + u ^ 2 • pt r.L[j] + u⁻¹ ^ 2 • pt r.R[j]) (j := j) (us := us)
      (Nat.succ.inj h) (fun q hq => hj q (by simp [hq])) (fun q hq => hr q (by simp [hq]))
    have e : foldedCommitment pt j rounds us (A + u ^ 2 • pt r.L[j] + u⁻¹ ^ 2 • pt r.R[j]) =
        foldedCommitment pt j (r :: rounds) (u :: us) A := by
      simp only [foldedCommitment, List.zip_cons_cons, List.map_cons, List.sum_cons, List.getD_eq_getElem?_getD,
        List.getElem?_map, List.getElem?_eq_getElem j1, List.getElem?_eq_getElem j2, Option.map_some, Option.getD_some,
        add_assoc]
    rw [← e]
    exact ih

theorem foldOpening_eq {j : ℕ} : ∀ {rounds : List (InnerProductRound C S)} {us : List S} {v : S},
    foldOpening j rounds us v = foldedValue j rounds us v
  | [], _, _ => by simp [foldOpening, foldedValue]
  | r :: rounds, [], _ => by simp [foldOpening, foldedValue]
  | r :: rounds, u :: us, v => by
    rw [foldOpening, foldOpening_eq]
    simp only [foldedValue, List.zip_cons_cons, List.map_cons, List.sum_cons]
    ring

theorem verifyRounds_yield : ∀ {rounds : List (InnerProductRound C S)} {pv : List (C × S)} {t : T} {chs : List (Challenge S)},
    (∃ pv' t', verifyRounds tr rounds pv t = some (pv', chs, t')) ↔ RoundsYield tr pv.length rounds t chs
  | [], pv, t, chs => by
    simp only [verifyRounds, Option.some.injEq, Prod.mk.injEq]
    constructor
    · rintro ⟨_, _, -, rfl, -⟩
      exact .nil t
    · rintro ⟨⟩
      exact ⟨pv, t, rfl, rfl, rfl⟩
  | round :: rounds, pv, t, chs => by
    simp only [verifyRounds, Option.bind_eq_bind, Option.bind_eq_some_iff, Option.some.injEq]
    constructor
    · rintro ⟨pv', t', es, hes, ⟨ch, t1⟩, hch, ⟨pv1, chs1, t2⟩, hr, e⟩
      simp only [Prod.mk.injEq] at e
      obtain ⟨rfl, rfl, rfl⟩ := e
      have h1 := verifyRounds_yield.1 ⟨_, _, hr⟩
      rw [List.length_zipWith, (entries_get hes).1, min_self] at h1
      exact .cons hes hch h1
    · intro h
      cases h with
      | @cons _ _ es _ ch t1 chs hes hch hrest =>
        have hl : (List.zipWith (foldInstance ch) pv es).length = pv.length := by
          rw [List.length_zipWith, (entries_get hes).1, min_self]
        obtain ⟨pv', t', h⟩ := verifyRounds_yield.2 (hl ▸ hrest)
        exact ⟨pv', t', es, hes, (ch, t1), hch, _, h, rfl⟩

theorem checkFinal_iff {gp : C} {us : List S} (hus : us ≠ []) :
    ∀ {points : List S} {pv : List (C × S)} {as : List S}, points.length = pv.length →
    (checkFinal gp us (us.map (·⁻¹)) points pv as = some true ↔ points.length ≤ as.length ∧
      ∀ j x P v, points[j]? = some x → pv[j]? = some (P, v) → CurveOps.ctEq P (CurveApi.mul gp (as.getD j 0)) = true ∧
        v = as.getD j 0 * collapse us fun i => x ^ i)
  | [], _, _, _ => by simp [checkFinal]
  | point :: points, [], _, h => by simp at h
  | point :: points, (p, v) :: pv, [], _ => by simp [checkFinal]
  | point :: points, (p, v) :: pv, a :: as, hl => by
    have ih := checkFinal_iff (gp := gp) hus (points := points) (pv := pv) (as := as) (by simpa using hl)
    simp only [checkFinal, computeB_eq us point hus, Option.bind_eq_bind, Option.bind_some, List.length_cons,
      Nat.add_le_add_iff_right]
    constructor
    · intro h
      split at h
      · cases h
      split at h
      · cases h
      rename_i h1 h2
      obtain ⟨i1, i2⟩ := ih.1 h
      refine ⟨i1, fun j x P w hx hP => ?_⟩
      cases j with
      | zero =>
        simp only [List.getElem?_cons_zero, Option.some.injEq, Prod.mk.injEq] at hx hP
        obtain ⟨rfl, rfl⟩ := hP
        subst hx
        exact ⟨by simpa using h1, by simpa using h2⟩
      | succ j => exact i2 j x P w (by simpa using hx) (by simpa using hP)
    · rintro ⟨h1, h2⟩
      obtain ⟨h3, h4⟩ := h2 0 point p v rfl rfl
      rw [List.getD_cons_zero] at h3 h4
      rw [if_neg (by simpa using h3), if_neg (by simpa using h4)]
      exact ih.2 ⟨h1, fun j x P w hx hP => h2 (j + 1) x P w (by simpa using hx) (by simpa using hP)⟩

/-- The claims as points -/
def Reads (rep : C → G → Prop) (claim : PolynomialOpening C S) (p : PointClaim G S) : Prop :=
  rep claim.commitment p.commitment ∧ claim.opening = p.value ∧ claim.point = p.point

theorem RoundsYield.length {m : ℕ} {rounds : List (InnerProductRound C S)} {t : T} {chs : List (Challenge S)}
    (h : RoundsYield tr m rounds t chs) : chs.length = rounds.length := by
  induction h with
  | nil => rfl
  | cons _ _ _ ih => simp [ih]

theorem RoundsYield.entries {m : ℕ} {rounds : List (InnerProductRound C S)} {t : T} {chs : List (Challenge S)}
    (h : RoundsYield tr m rounds t chs) : ∀ r ∈ rounds, m ≤ r.L.length ∧ m ≤ r.R.length := by
  induction h with
  | nil => simp
  | cons hes _ _ ih =>
    intro q hq
    rcases List.mem_cons.1 hq with rfl | hq
    · have := entries_some_iff.1 ⟨_, hes⟩
      exact ⟨this.1, this.2.1⟩
    · exact ih q hq

/-- Which opening arguments are accepted -/
theorem verifyProof_iff (L : LawfulOps C F S G rep) {op : MultiPolynomialOpening C S}
    {instances : List (PolynomialOpening C S)} {claims : List (PointClaim G S)}
    (hr : List.Forall₂ (Reads rep) instances claims) {k : ℕ} (hk0 : 0 < k) {t : T}
    (hp : ∀ r ∈ op.rounds, (∀ p ∈ r.L, rep p (pt p)) ∧ ∀ p ∈ r.R, rep p (pt p)) (hg : rep op.g (pt op.g))
    {packed : List S} {g : C} {forks : List ℕ} :
    (∃ t', op.verifyProof tr instances k t = some (true, packed, g, forks, t')) ↔
    op.rounds.length = k ∧ instances.length ≤ op.a.length ∧ g = op.g ∧ ∃ chs : List (Challenge S),
      RoundsYield tr instances.length op.rounds t chs ∧ packed = chs.map (·.challengeSqPacked) ∧ forks = chs.map (·.fork) ∧
      ∀ (j : ℕ) (claim : PointClaim G S), claims[j]? = some claim → claim.Opens pt j op (chs.map (·.challenge)) := by
  have hpl : (instances.map fun i => (i.commitment, i.opening)).length = instances.length := by simp
  -- what the rounds do
  have hfold : ∀ {chs : List (Challenge S)} {pv' : List (C × S)} {t'}, op.rounds.length = k →
      verifyRounds tr op.rounds (instances.map fun i => (i.commitment, i.opening)) t = some (pv', chs, t') →
      (checkFinal op.g (chs.map (·.challenge)) (chs.map (·.challengeInv)) (instances.map (·.point)) pv' op.a = some true ↔
        instances.length ≤ op.a.length ∧
          ∀ (j : ℕ) (claim : PointClaim G S), claims[j]? = some claim → claim.Opens pt j op (chs.map (·.challenge))) := by
    intro chs pv' t' hk hv
    have hy : RoundsYield tr instances.length op.rounds t chs := hpl ▸ verifyRounds_yield.1 ⟨_, _, hv⟩
    obtain ⟨hl, hgood, hpv, -⟩ := verifyRounds_fold L 0 hv
    have hinv : chs.map (·.challengeInv) = (chs.map (·.challenge)).map (·⁻¹) := by
      rw [List.map_map]
      exact List.map_congr_left fun c hc => (hgood c hc).inv
    have hne : chs.map (·.challenge) ≠ [] := by
      rw [← List.length_pos_iff, List.length_map, hl, hk]
      exact hk0
    rw [hpl] at hpv
    rw [hinv, checkFinal_iff hne (by rw [hpv, List.length_map]), List.length_map]
    refine and_congr_right fun ha => ?_
    have hclaim : ∀ j (hj : j < instances.length) {claim : PointClaim G S}, claims[j]? = some claim →
        ∃ P', pv'[j]? = some (P', foldedValue j op.rounds (chs.map (·.challenge)) claim.value) ∧
          rep P' (foldedCommitment pt j op.rounds (chs.map (·.challenge)) claim.commitment) ∧
          instances[j].point = claim.point := by
      intro j hj claim hc
      obtain ⟨hj', rfl⟩ := List.getElem?_eq_some_iff.1 hc
      obtain ⟨h1, h2, h3⟩ : Reads rep instances[j] claims[j] := List.Forall₂.get hr hj hj'
      obtain ⟨-, -, -, h⟩ := verifyRounds_fold L j hv
      obtain ⟨P', h4, h5⟩ := h (P := instances[j].commitment) (v := instances[j].opening) (by simp [hj]) h1
        (folded_points (by simp [hl]) (fun r hm => by have := hy.entries r hm; omega) hp)
      rw [foldOpening_eq, h2] at h4
      exact ⟨P', h4, h5, h3⟩
    constructor
    · intro h j claim hc
      have hj : j < instances.length := by
        rw [hr.length_eq]
        exact (List.getElem?_eq_some_iff.1 hc).1
      obtain ⟨P', h1, h2, h3⟩ := hclaim j hj hc
      obtain ⟨h4, h5⟩ := h j instances[j].point P' _ (by simp [hj]) h1
      exact ⟨(L.ctEq h2 (L.mul _ hg)).1 h4, by rw [h5, h3]⟩
    · intro h j x P v hx hP
      have hj : j < instances.length := by
        have := (List.getElem?_eq_some_iff.1 hx).1
        simpa using this
      obtain ⟨claim, hc⟩ : ∃ claim, claims[j]? = some claim := ⟨_, List.getElem?_eq_getElem (hr.length_eq ▸ hj)⟩
      obtain ⟨P', h1, h2, h3⟩ := hclaim j hj hc
      rw [h1, Option.some.injEq, Prod.mk.injEq] at hP
      obtain ⟨rfl, rfl⟩ := hP
      obtain ⟨h4, h5⟩ := h j claim hc
      have hx' : x = claim.point := by
        rw [List.getElem?_map, List.getElem?_eq_getElem hj, Option.map_some, Option.some.injEq] at hx
        rw [← hx, h3]
      exact ⟨(L.ctEq h2 (L.mul _ hg)).2 h4, by rw [h5, hx']⟩
  unfold MultiPolynomialOpening.verifyProof
  constructor
  · rintro ⟨t', h⟩
    split at h
    case isTrue => simp at h
    case isFalse hk =>
    have hk := not_not.1 hk
    simp only [Option.bind_eq_bind, Option.bind_eq_some_iff, Option.some.injEq] at h
    obtain ⟨⟨pv', chs, t1⟩, hv, ok, hok, h⟩ := h
    simp only [Prod.mk.injEq] at h
    obtain ⟨rfl, rfl, rfl, rfl, -⟩ := h
    obtain ⟨h1, h2⟩ := (hfold hk hv).1 hok
    exact ⟨hk, h1, rfl, chs, hpl ▸ verifyRounds_yield.1 ⟨_, _, hv⟩, rfl, rfl, h2⟩
  · rintro ⟨hk, ha, rfl, chs, hy, rfl, rfl, h⟩
    obtain ⟨pv', t', hv⟩ := verifyRounds_yield.2 (hpl.symm ▸ hy)
    refine ⟨t', ?_⟩
    simp only [hk, ne_eq, not_true, if_false, Option.bind_eq_bind, hv, Option.bind_some, (hfold hk hv).2 ⟨ha, h⟩]

/-- The steps of the verifier -/
theorem verify_steps {cpus : ℕ} {lnCeil : ℕ → ℕ} {st : Statement C S α} {π : Proof C S} {n : ℕ} {s : System S}
    (hs : Shape st.circuit n s) {K : C} {r : Bool × Leftovers C S × Deferred S × List ℕ} :
    π.verify tr cpus lnCeil st.old st.params st.circuit st.inputs (some K) = .ok r ↔
    st.inputs.length = s.inputs.length - 1 ∧
    ∃ y t1, getChallenge S tr (appendPoint tr π.rCommitment (appendPoint tr K tr.new)) = some (y, t1) ∧
    ∃ x t2, getChallenge S tr (appendPoint tr π.tNegativeCommitment (appendPoint tr π.tPositiveCommitment
      (appendPoint tr π.sCurCommitment t1))) = some (x, t2) ∧
    ∃ yNew t3, getChallenge S tr (appendPoint tr π.cCommitment t2) = some (yNew, t3) ∧
    ∃ ky, st.params.computeOpening (kPoly (kInputs s st.inputs)) y false = some ky ∧
    ∃ e, expandChallenges st.old.challengesSqPackedNew = some e ∧ ∃ gx, computeB x e.2.1 e.2.2.1 = some gx ∧
    ∃ z t4, getChallenge S tr ([ky, π.rxOpening, π.rxyOpening, π.sxOldOpening, π.sxCurOpening, π.txPositiveOpening,
      π.txNegativeOpening, π.sxNewOpening, gx].foldl
        (fun t s => appendScalar C tr s t) (appendPoint tr π.sNewCommitment t3)) = some (z, t4) ∧
    ∃ p, π.innerProduct.verifyProof tr (claims st.old K π gx ky y x yNew (getChallengeScalar z)) st.params.k t4 = some p ∧
    ∃ e', expandChallenges p.2.1 = some e' ∧ ∃ bX, computeB x e'.2.1 e'.2.2.1 = some bX ∧
    ∃ bXy, computeB (x * y) e'.2.1 e'.2.2.1 = some bXy ∧ ∃ bYOld, computeB st.old.yNew e'.2.1 e'.2.2.1 = some bYOld ∧
    ∃ bYCur, computeB y e'.2.1 e'.2.2.1 = some bYCur ∧ ∃ bYNew, computeB yNew e'.2.1 e'.2.2.1 = some bYNew ∧
    r = (p.1, ⟨π.sNewCommitment, yNew, p.2.2.1, p.2.1⟩, {
      x, yOld := st.old.yNew, yCur := y, yNew, kyOpening := ky
      txPositiveOpening := π.txPositiveOpening, txNegativeOpening := π.txNegativeOpening
      sxCurOpening := π.sxCurOpening, rxOpening := π.rxOpening, rxyOpening := π.rxyOpening
      challengesSqPackedOld := st.old.challengesSqPackedNew, gxOldOpening := gx
      challengesSqPackedNew := p.2.1, bX, bXy, bYOld, bYCur, bYNew }, p.2.2.2.1) := by
  obtain ⟨a0, hsys⟩ := hs.system
  obtain ⟨dv, hdv, hrel⟩ := sim_inputMap.synthesize_of_system (b := [])
    ⟨.empty, rfl, rfl, rfl, rfl⟩ hsys trivial
  unfold Proof.verify
  simp only [hdv, Except.bind_ok, hrel.inputs, List.length_map]
  simp only [bind_eq_ok, ofOption_eq_ok, ite_panic_eq_ok, Except.bind_error, Except.ok.injEq]
  constructor
  · rintro ⟨h1, ⟨y, t1⟩, h2, ⟨x, t2⟩, h3, ⟨yNew, t3⟩, h4, ky, h5, e, h6, gx, h7, ⟨z, t4⟩, h8, p, h9, e', h10, bX, h11, h⟩
    obtain ⟨bXy, h12, bYOld, h13, bYCur, h14, bYNew, h15, h16⟩ := h
    exact ⟨not_not.1 h1, y, t1, h2, x, t2, h3, yNew, t3, h4, ky, h5, e, h6, gx, h7, z, t4, h8, p, h9, e', h10, bX, h11,
      bXy, h12, bYOld, h13, bYCur, h14, bYNew, h15, h16.symm⟩
  · rintro ⟨h1, y, t1, h2, x, t2, h3, yNew, t3, h4, ky, h5, e, h6, gx, h7, z, t4, h8, p, h9, e', h10, bX, h11, h⟩
    obtain ⟨bXy, h12, bYOld, h13, bYCur, h14, bYNew, h15, h16⟩ := h
    exact ⟨not_not.2 h1, ⟨y, t1⟩, h2, ⟨x, t2⟩, h3, ⟨yNew, t3⟩, h4, ky, h5, e, h6, gx, h7, ⟨z, t4⟩, h8, p, h9, e', h10, bX, h11,
      bXy, h12, bYOld, h13, bYCur, h14, bYNew, h15, h16.symm⟩

theorem RoundsYield.good {m : ℕ} {rounds : List (InnerProductRound C S)} {t : T} {chs : List (Challenge S)}
    (h : RoundsYield tr m rounds t chs) : ∀ ch ∈ chs, ch.Good := by
  induction h with
  | nil => simp
  | cons _ hch _ ih =>
    intro c hc
    rcases List.mem_cons.1 hc with rfl | hc
    · exact squareChallenge_good hch
    · exact ih c hc

theorem good_roots : ∀ {chs : List (Challenge S)}, (∀ ch ∈ chs, ch.Good) →
    Roots (chs.map (·.challengeSqPacked)) (chs.map (·.challenge))
  | [], _ => .nil
  | ch :: chs, h => .cons (by rw [(h ch (by simp)).packed, (h ch (by simp)).sqrt]) (good_roots fun c hc => h c (by simp [hc]))

theorem reads_claims (L : LawfulOps C F S G rep) {π : Proof C S} {old : Leftovers C S} {K : C} {ky gx : S}
    {c : RunChallenges S} (hp : π.Points rep pt) (ho : rep old.sNewCommitment (pt old.sNewCommitment))
    (hg : rep old.gNew (pt old.gNew)) (hK : rep K (pt K)) :
    List.Forall₂ (Reads rep) (claims old K π gx ky c.y c.x c.yNew c.z) (π.claims pt old K ky gx c) := by
  have hm := fun {p : C} {a : G} (h : rep p a) => L.mul c.z h
  refine .cons ⟨?_, ?_, rfl⟩ (.cons ⟨hp.r, rfl, rfl⟩ (.cons ⟨hp.c, rfl, rfl⟩ (.cons ⟨L.add hp.c (hm hK), ?_, rfl⟩
    (.cons ⟨hp.c, rfl, rfl⟩ .nil))))
  · have := L.add (hm (L.add (hm (L.add (hm (L.add (hm (L.add (hm (L.add (hm hp.r) ho)) hp.sCur)) hp.tPositive))
      hp.tNegative)) hp.sNew)) hg
    convert this using 1
    module
  · simp only
    ring
  · simp only
    ring

/-- Which proofs are accepted -/
theorem verify_iff (L : LawfulOps C F S G rep) {cpus : ℕ} {lnCeil : ℕ → ℕ} {st : Statement C S α} {π : Proof C S} {n : ℕ}
    {s : System S} (hs : Shape st.circuit n s) {K : C} (hk0 : 0 < st.params.k) (hp : π.Points rep pt)
    (ho : rep st.old.sNewCommitment (pt st.old.sNewCommitment)) (hg : rep st.old.gNew (pt st.old.gNew)) (hK : rep K (pt K))
    {new : Leftovers C S} {d : Deferred S} {forks : List ℕ} :
    π.verify tr cpus lnCeil st.old st.params st.circuit st.inputs (some K) = .ok (true, new, d, forks) ↔
    st.inputs.length = s.inputs.length - 1 ∧ st.old.challengesSqPackedNew ≠ [] ∧
    π.innerProduct.rounds.length = st.params.k ∧ 5 ≤ π.innerProduct.a.length ∧
    ∃ (uso : List S) (c : RunChallenges S) (ky gx : S), Roots st.old.challengesSqPackedNew uso ∧
      ky = combine (c.y ^ ·) 0 (kPoly (kInputs s st.inputs)) ∧ gx = collapse uso (c.x ^ ·) ∧ π.Yields tr K ky gx c ∧
      (∀ (j : ℕ) (claim : PointClaim G S), (π.claims pt st.old K ky gx c)[j]? = some claim →
        claim.Opens pt j π.innerProduct c.us) ∧
      new = π.newLeftovers c ∧ d = π.newDeferred st.old ky gx c ∧ forks = c.rounds.map (·.fork) := by
  rw [verify_steps hs]
  constructor
  · rintro ⟨h1, y, t1, h2, x, t2, h3, yNew, t3, h4, ky, h5, ⟨sqo, uso, invo, po⟩, h6, gx, h7, ζ, t4, h8, ⟨sat, packed, gN, fk, t5⟩, h9, h⟩
    obtain ⟨⟨sqn, usn, invn, pn⟩, h10, bX, h11, bXy, h12, bYOld, h13, bYCur, h14, bYNew, h15, h16⟩ := h
    simp only [Prod.mk.injEq] at h16
    obtain ⟨rfl, rfl, rfl, rfl⟩ := h16
    obtain ⟨us, hus⟩ : ∃ us, Roots st.old.challengesSqPackedNew us := by
      by_contra hno
      rw [expandChallenges_none hno] at h6
      cases h6
    rw [expandChallenges_eq hus] at h6
    simp only [Option.some.injEq, Prod.mk.injEq] at h6
    obtain ⟨-, rfl, rfl, -⟩ := h6
    have hne : us ≠ [] := by
      rintro rfl
      simp [computeB] at h7
    rw [computeB_eq us x hne] at h7
    obtain rfl := Option.some.inj h7
    rw [computeOpening_left] at h5
    obtain rfl := Option.some.inj h5
    have key := fun chs => reads_claims L (c := ⟨y, x, yNew, getChallengeScalar ζ, chs⟩)
      (ky := combine (y ^ ·) 0 (kPoly (kInputs s st.inputs))) (gx := collapse us (x ^ ·)) hp ho hg hK
    obtain ⟨k1, k2, rfl, chs, k3, rfl, rfl, k4⟩ := (verifyProof_iff L (key []) hk0 hp.rounds hp.g).1 ⟨t5, h9⟩
    have hr := good_roots k3.good
    have hne' : chs.map (·.challenge) ≠ [] := by
      rw [← List.length_pos_iff, List.length_map, k3.length, k1]
      exact hk0
    rw [expandChallenges_eq hr] at h10
    simp only [Option.some.injEq, Prod.mk.injEq] at h10
    obtain ⟨-, rfl, rfl, -⟩ := h10
    simp only [computeB_eq _ _ hne', Option.some.injEq] at h11 h12 h13 h14 h15
    subst h11 h12 h13 h14 h15
    refine ⟨h1, fun h0 => hne ?_, k1, k2, us, ⟨y, x, yNew, getChallengeScalar ζ, chs⟩, _, _, hus, rfl, rfl,
      ⟨ζ, t1, t2, t3, t4, h2, h3, h4, h8, rfl, k3⟩, k4, rfl, rfl, rfl⟩
    rw [← List.length_eq_zero_iff, hus.length, h0, List.length_nil]
  · rintro ⟨h1, h2, h3, h4, us, c, ky, gx, hus, rfl, rfl, ⟨ζ, t1, t2, t3, t4, k1, k2, k3, k4, k5, k6⟩, k7, rfl, rfl, rfl⟩
    have hne : us ≠ [] := by
      rw [← List.length_pos_iff, hus.length, List.length_pos_iff]
      exact h2
    have hne' : c.us ≠ [] := by
      rw [← List.length_pos_iff, RunChallenges.us, List.length_map, k6.length, h3]
      exact hk0
    obtain ⟨t5, hv⟩ := (verifyProof_iff L (reads_claims L (c := c)
      (ky := combine (c.y ^ ·) 0 (kPoly (kInputs s st.inputs))) (gx := collapse us (c.x ^ ·)) hp ho hg hK) hk0 hp.rounds
      hp.g).2 ⟨h3, h4, rfl, c.rounds, k6, rfl, rfl, k7⟩
    refine ⟨h1, c.y, t1, k1, c.x, t2, k2, c.yNew, t3, k3, _, computeOpening_left _ _ _, _, expandChallenges_eq hus, _,
      computeB_eq _ _ hne, ζ, t4, k4, _, k5 ▸ hv, _, expandChallenges_eq (good_roots k6.good), _, computeB_eq _ _ hne', _,
      computeB_eq _ _ hne', _, computeB_eq _ _ hne', _, computeB_eq _ _ hne', _, computeB_eq _ _ hne', rfl⟩

/-- What is left over by a proof that passes makes sense. -/
theorem Proof.Passes.wellFormed {π : Proof C S} {k : ℕ} {old : Leftovers C S} {kPoly : List S} {K : C} {uso : List S}
    {c : RunChallenges S} (h : π.Passes tr pt k old kPoly K uso c) (hk : 2 ≤ k) :
    WellFormedDeferred k (π.newDeferred old (combine (c.y ^ ·) 0 kPoly) (collapse uso (c.x ^ ·)) c) := by
  obtain ⟨ζ, t1, t2, t3, t4, k1, k2, k3, k4, k5, k6⟩ := h.yields
  refine ⟨hk, getChallenge_ne_zero k2, getChallenge_ne_zero k1, h.old_ne, ?_, (roots_iff _).1 ⟨_, h.old_roots⟩,
    (roots_iff _).1 ⟨_, good_roots k6.good⟩⟩
  show c.rounds.map _ ≠ []
  rw [← List.length_pos_iff, List.length_map, k6.length, h.rounds]
  omega

/-- It is true if the relation holds. -/
theorem Proof.Passes.true {π : Proof C S} {k : ℕ} {old : Leftovers C S} {kPoly : List S} {K : C} {uso : List S}
    {c : RunChallenges S} (h : π.Passes tr pt k old kPoly K uso c)
    (hrel : DeferredRelation (2 ^ (k - 2)) (π.newDeferred old (combine (c.y ^ ·) 0 kPoly) (collapse uso (c.x ^ ·)) c)) :
    TrueDeferred k (π.newDeferred old (combine (c.y ^ ·) 0 kPoly) (collapse uso (c.x ^ ·)) c) := by
  obtain ⟨ζ, t1, t2, t3, t4, k1, k2, k3, k4, k5, k6⟩ := h.yields
  exact ⟨hrel, ⟨uso, h.old_roots, rfl⟩, c.us, good_roots k6.good, rfl, rfl, rfl, rfl, rfl⟩

end Proofs
end Halo
