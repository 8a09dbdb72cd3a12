import Verif.Lemmas.Proofs.SoundTree
import Verif.Lemmas.Proofs.SoundCircuit
import Verif.Lemmas.Proofs.Honest
/-!
# What an accepted run says
-/
namespace Halo
namespace Proofs
open Circuit Util
set_option linter.unusedSectionVars false

section
variable {C F S G : Type} [Field F] [LawfulField F] [Field S] [DecidableEq S] [LawfulField S]
  [AddCommGroup G] [Module S G] [CurveOps C F S] {rep : C → G → Prop} {α : Type}

theorem appendPoint_scripted (f : ℕ → F) (p : C) (t : ℕ) : appendPoint (scripted f) p t = t := by
  unfold appendPoint
  split <;> rfl

theorem appendScalar_scripted (f : ℕ → F) (s : S) (t : ℕ) : appendScalar C (scripted f) s t = t :=
  appendPoint_scripted f _ t

/-- the claims of the opening argument -/
def claims (old : Leftovers C S) (K : C) (π : Proof C S) (gx ky y x yNew z : S) : List (PolynomialOpening C S) :=
  [⟨CurveApi.add (CurveApi.mul (CurveApi.add (CurveApi.mul (CurveApi.add (CurveApi.mul (CurveApi.add (CurveApi.mul
    (CurveApi.add (CurveApi.mul (CurveApi.add (CurveApi.mul π.rCommitment z) old.sNewCommitment) z) π.sCurCommitment) z)
    π.tPositiveCommitment) z) π.tNegativeCommitment) z) π.sNewCommitment) z) old.gNew,
    (((((π.rxOpening * z + π.sxOldOpening) * z + π.sxCurOpening) * z + π.txPositiveOpening) * z +
      π.txNegativeOpening) * z + π.sxNewOpening) * z + gx, x, false⟩,
   ⟨π.rCommitment, π.rxyOpening, x * y, true⟩,
   ⟨π.cCommitment, π.sxOldOpening, old.yNew, false⟩,
   ⟨CurveApi.add π.cCommitment (CurveApi.mul K z), π.sxCurOpening + ky * z, y, false⟩,
   ⟨π.cCommitment, π.sxNewOpening, yNew, false⟩]

/-- the commitment to the public inputs that the verifier uses -/
def kOf (cpus : ℕ) (lnCeil : ℕ → ℕ) (st : Statement C S α) (ky : List S) : Option C :=
  match st.kCommitment with
  | some c => some c
  | none => st.params.commit cpus lnCeil ky false

/-- The commitment to the public inputs, if the verifier is not given one -/
theorem verify_given {T : Type} {tr : Transcript T F} {cpus : ℕ} {lnCeil : ℕ → ℕ} {st : Statement C S α} {π : Proof C S}
    {n : ℕ} {s : System S} (hs : Shape st.circuit n s) {r}
    (h : π.verify tr cpus lnCeil st.old st.params st.circuit st.inputs st.kCommitment = .ok r) :
    ∃ K, kOf cpus lnCeil st (kPoly (kInputs s st.inputs)) = some K ∧
      π.verify tr cpus lnCeil st.old st.params st.circuit st.inputs (some K) = .ok r := by
  unfold kOf
  cases hk : st.kCommitment with
  | some K => exact ⟨K, rfl, hk ▸ h⟩
  | none =>
    rw [hk] at h
    obtain ⟨a0, hsys⟩ := hs.system
    obtain ⟨dv, hdv, hrel⟩ := sim_inputMap.synthesize_of_system (b := [])
      ⟨.empty, rfl, rfl, rfl, rfl⟩ hsys trivial
    cases hc : st.params.commit cpus lnCeil (kPoly (kInputs s st.inputs)) false with
    | none =>
      unfold Proof.verify at h
      simp only [hdv, Except.bind_ok, hrel.inputs] at h
      simp only [ite_panic_eq_ok, Except.bind_error] at h
      obtain ⟨-, h⟩ := h
      rw [hc] at h
      cases h
    | some K =>
      refine ⟨K, rfl, ?_⟩
      unfold Proof.verify at h ⊢
      simp only [hdv, Except.bind_ok, hrel.inputs] at h ⊢
      rw [hc] at h
      exact h

/-- The steps of the verifier, for a transcript that ignores what it absorbs -/
theorem verify_quiet_iff {T : Type} {tr : Transcript T F} (hp : ∀ (p : C) (t : T), appendPoint tr p t = t)
    (hsc : ∀ (c : S) (t : T), appendScalar C tr c t = t)
    {cpus : ℕ} {lnCeil : ℕ → ℕ} {st : Statement C S α} {π : Proof C S} {s : System S}
    (hs : Shape st.circuit st.params.n s) {K : C} {r : Bool × Leftovers C S × Deferred S × List ℕ} :
    π.verify tr cpus lnCeil st.old st.params st.circuit st.inputs (some K) = .ok r ↔
    st.inputs.length = s.inputs.length - 1 ∧
    ∃ y t1, getChallenge S tr tr.new = some (y, t1) ∧ ∃ x t2, getChallenge S tr t1 = some (x, t2) ∧
    ∃ yNew t3, getChallenge S tr t2 = some (yNew, t3) ∧
    ∃ ky, st.params.computeOpening (kPoly (kInputs s st.inputs)) y false = some ky ∧
    ∃ e, expandChallenges st.old.challengesSqPackedNew = some e ∧ ∃ gx, computeB x e.2.1 e.2.2.1 = some gx ∧
    ∃ z t4, getChallenge S tr t3 = some (z, t4) ∧
    ∃ p, π.innerProduct.verifyProof tr (claims st.old K π gx ky y x yNew (getChallengeScalar z)) st.params.k t4 = some p ∧
    ∃ e', expandChallenges p.2.1 = some e' ∧ ∃ bX, computeB x e'.2.1 e'.2.2.1 = some bX ∧
    ∃ bXy, computeB (x * y) e'.2.1 e'.2.2.1 = some bXy ∧ ∃ bYOld, computeB st.old.yNew e'.2.1 e'.2.2.1 = some bYOld ∧
    ∃ bYCur, computeB y e'.2.1 e'.2.2.1 = some bYCur ∧ ∃ bYNew, computeB yNew e'.2.1 e'.2.2.1 = some bYNew ∧
    r = (p.1, ⟨π.sNewCommitment, yNew, p.2.2.1, p.2.1⟩, {
      x, yOld := st.old.yNew, yCur := y, yNew, kyOpening := ky
      txPositiveOpening := π.txPositiveOpening, txNegativeOpening := π.txNegativeOpening
      sxCurOpening := π.sxCurOpening, rxOpening := π.rxOpening, rxyOpening := π.rxyOpening
      challengesSqPackedOld := st.old.challengesSqPackedNew, gxOldOpening := gx
      challengesSqPackedNew := p.2.1, bX, bXy, bYOld, bYCur, bYNew }, p.2.2.2.1) := by
  obtain ⟨a0, hsys⟩ := hs.system
  obtain ⟨dv, hdv, hrel⟩ := sim_inputMap.synthesize_of_system (b := [])
    ⟨.empty, rfl, rfl, rfl, rfl⟩ hsys trivial
  unfold Proof.verify
  simp only [hdv, Except.bind_ok, hrel.inputs, List.length_map]
  simp only [bind_eq_ok, ofOption_eq_ok, ite_panic_eq_ok, Except.bind_error, Except.ok.injEq, hp, hsc]
  constructor
  · rintro ⟨h1, ⟨y, t1⟩, h2, ⟨x, t2⟩, h3, ⟨yNew, t3⟩, h4, ky, h5, e, h6, gx, h7, ⟨z, t4⟩, h8, p, h9, e', h10, bX, h11, h⟩
    obtain ⟨bXy, h12, bYOld, h13, bYCur, h14, bYNew, h15, h16⟩ := h
    exact ⟨not_not.1 h1, y, t1, h2, x, t2, h3, yNew, t3, h4, ky, h5, e, h6, gx, h7, z, t4, h8, p, h9, e', h10, bX, h11,
      bXy, h12, bYOld, h13, bYCur, h14, bYNew, h15, h16.symm⟩
  · rintro ⟨h1, y, t1, h2, x, t2, h3, yNew, t3, h4, ky, h5, e, h6, gx, h7, z, t4, h8, p, h9, e', h10, bX, h11, h⟩
    obtain ⟨bXy, h12, bYOld, h13, bYCur, h14, bYNew, h15, h16⟩ := h
    exact ⟨not_not.2 h1, ⟨y, t1⟩, h2, ⟨x, t2⟩, h3, ⟨yNew, t3⟩, h4, ky, h5, e, h6, gx, h7, ⟨z, t4⟩, h8, p, h9, e', h10, bX, h11,
      bXy, h12, bYOld, h13, bYCur, h14, bYNew, h15, h16.symm⟩
/-- What the verifier has done if it accepts -/
theorem accepts_steps {cpus : ℕ} {lnCeil : ℕ → ℕ} {st : Statement C S α} {P : Prover C S} {s : System S}
    {y x yNew z : S} {us : List S} (hs : Shape st.circuit st.params.n s)
    (h : st.Accepts (F := F) cpus lnCeil P y x yNew z us) :
    ∃ (f : ℕ → F) (t' : ℕ) (K : C) (ky gx : S) (uso : List S) (d : Deferred S) (packed : List S) (forks : List ℕ),
      kOf cpus lnCeil st (kPoly (kInputs s st.inputs)) = some K ∧ st.inputs.length = s.inputs.length - 1 ∧
      st.params.computeOpening (kPoly (kInputs s st.inputs)) y false = some ky ∧
      Roots st.old.challengesSqPackedNew uso ∧ computeB x uso (uso.map (·⁻¹)) = some gx ∧
      (P.proof y x yNew z us).innerProduct.verifyProof (scripted f)
        (claims st.old K (P.proof y x yNew z us) gx ky y x yNew z) st.params.k 4 =
          some (true, packed, (P.last y x yNew z us).2, forks, t') ∧
      Roots packed us ∧
      (d.x = x ∧ d.yCur = y ∧ d.kyOpening = ky ∧ d.txPositiveOpening = (P.openings y x yNew).txPositive ∧
        d.txNegativeOpening = (P.openings y x yNew).txNegative ∧ d.sxCurOpening = (P.openings y x yNew).sxCur ∧
        d.rxOpening = (P.openings y x yNew).rx ∧ d.rxyOpening = (P.openings y x yNew).rxy) ∧
      d.verify st.params.k = some true ∧
      (⟨P.sNew y x yNew, yNew, (P.last y x yNew z us).2, packed⟩ : Leftovers C S).verify cpus lnCeil st.params
        st.circuit = .ok true := by
  obtain ⟨f, z', new, d, forks, c1, c2, c3, c4, rfl, hv, hr, hd, hn⟩ := h
  obtain ⟨K, hK, hv⟩ := verify_given hs hv
  obtain ⟨hlen, y', T1, hy, x', T2, hx, yn, T3, hyn, ky, hky, hv⟩ :=
    (verify_quiet_iff (appendPoint_scripted f) (appendScalar_scripted f) hs).1 hv
  obtain ⟨⟨sqo, uso, invo, po⟩, hexo, gx, hgx, ζ, T4, hz, ⟨sat, packed, gN, fk, T5⟩, hip, hv⟩ := hv
  obtain ⟨⟨sqn, usn, invn, pn⟩, hexn, bX, hbX, bXy, hbXy, bYO, hbYO, bYC, hbYC, bYN, hbYN, hv⟩ := hv
  simp only [Prod.mk.injEq] at hv
  obtain ⟨rfl, rfl, rfl, rfl⟩ := hv
  have e1 := Option.some.inj (hy.symm.trans c1)
  simp only [Prod.mk.injEq] at e1
  obtain ⟨rfl, rfl⟩ := e1
  have e2 := Option.some.inj (hx.symm.trans c2)
  simp only [Prod.mk.injEq] at e2
  obtain ⟨rfl, rfl⟩ := e2
  have e3 := Option.some.inj (hyn.symm.trans c3)
  simp only [Prod.mk.injEq] at e3
  obtain ⟨rfl, rfl⟩ := e3
  have e4 := Option.some.inj (hz.symm.trans c4)
  simp only [Prod.mk.injEq] at e4
  obtain ⟨rfl, rfl⟩ := e4
  have hex : ∃ us, Roots st.old.challengesSqPackedNew us := by
    by_contra hno
    rw [expandChallenges_none hno] at hexo
    cases hexo
  obtain ⟨us', hus⟩ := hex
  rw [expandChallenges_eq hus] at hexo
  simp only [Option.some.injEq, Prod.mk.injEq] at hexo
  obtain ⟨-, rfl, rfl, -⟩ := hexo
  have hgN : gN = (P.last y' x' yn (getChallengeScalar ζ) us).2 := by
    unfold MultiPolynomialOpening.verifyProof at hip
    split at hip
    · simp at hip
    · simp only [Option.bind_eq_bind, Option.bind_eq_some_iff] at hip
      obtain ⟨q, -, ok, -, hip⟩ := hip
      simp only [Option.some.injEq, Prod.mk.injEq] at hip
      exact hip.2.2.1.symm
  subst hgN
  refine ⟨f, T5, K, ky, gx, us', _, packed, forks, hK, ?_, hky, hus, hgx, hip, hr, ?_, hd, hn⟩
  · exact hlen
  · exact ⟨rfl, rfl, rfl, rfl, rfl, rfl, rfl, rfl⟩

/-- What everybody knows -/
structure Setting (rep : C → G → Prop) (g : ℕ → G) (cpus : ℕ) (lnCeil : ℕ → ℕ) (st : Statement C S α) (s : System S)
    (K : C) (uso : List S) (P : Prover C S) : Prop where
  cpus_pos : 0 < cpus
  ln : ∀ n, 32 ≤ n → n < 2 ^ 32 → 1 ≤ lnCeil n ∧ lnCeil n ≤ 57
  params : ValidParams rep g st.params
  shape : Shape st.circuit st.params.n s
  lcs : s.lcs.length < 2 ^ st.params.k
  k : kOf cpus lnCeil st (kPoly (kInputs s st.inputs)) = some K
  kRep : rep K (combine g 0 (kPoly (kInputs s st.inputs)))
  old : Roots st.old.challengesSqPackedNew uso
  oldLength : st.old.challengesSqPackedNew.length = st.params.k
  curve : P.OnCurve rep

theorem rounds_length {T : Type} {tr : Transcript T F} : ∀ {rounds : List (InnerProductRound C S)} {pv : List (C × S)}
    {t : T} {q}, verifyRounds tr rounds pv t = some q →
    ∀ round ∈ rounds, pv.length ≤ round.L.length ∧ pv.length ≤ round.R.length
  | [], _, _, _, _ => by simp
  | round :: rounds, pv, t, q, h => by
    rw [verifyRounds] at h
    simp only [Option.bind_eq_bind, Option.bind_eq_some_iff] at h
    obtain ⟨es, he, c, -, q', h', -⟩ := h
    have hl := (entries_get he).1
    rw [InnerProductRound.entries] at he
    split at he
    · rename_i hle
      intro r hr
      rcases List.mem_cons.1 hr with rfl | hr
      · exact ⟨hle.1, hle.2.1⟩
      · simpa [hl] using rounds_length h' r hr
    · cases he

theorem sum_delta (us : List S) (g : ℕ → G) :
    ∑ m ∈ Finset.range (2 ^ us.length), (collapse us fun i => if i = m then (1 : S) else 0) • g m = collapse us g := by
  rw [collapse_eq]
  refine Finset.sum_congr rfl fun m hm => ?_
  rw [collapse_eq, Finset.sum_eq_single m]
  · simp
  · intro b _ hb
    rw [if_neg hb, smul_zero]
  · intro h
    exact absurd hm h

theorem collapse_ne {ch : Challenges S} {st : Statement C S α} {P : Prover C S} {positions : List ℕ} {g : ℕ → G}
    (hb : Binding g st P ch positions) {y x yNew z : S} (ht : ch.Tried y x yNew z) {us : List S}
    (hl : us.length = st.params.k) (hp : ch.Path y x yNew z [] us) (h0 : ∀ u ∈ us, u ≠ 0) : collapse us g ≠ 0 := by
  intro hz
  have := hb _ _ (.folded ht hl hp) .zero (by rw [← hl, sum_delta, hz]; simp) 0 (by positivity)
  rw [collapse_eq, Finset.sum_eq_single 0] at this
  · rw [if_pos rfl, smul_eq_mul, mul_one, sCoef_zero] at this
    refine List.prod_ne_zero (fun hm => ?_) this
    obtain ⟨u, hu, h⟩ := List.mem_map.1 hm
    exact inv_ne_zero (h0 u hu) h
  · intro b _ hb
    rw [if_neg hb, smul_zero]
  · intro h
    exact absurd (Finset.mem_range.2 (by positivity)) h

variable {cpus : ℕ} {lnCeil : ℕ → ℕ} {st : Statement C S α} {P : Prover C S} {s : System S}
    {y x yNew z : S} {us uso : List S} {g : ℕ → G} {K : C} {ch : Challenges S} {positions : List ℕ}

/-- the claims, for a prover -/
abbrev claimsOf (st : Statement C S α) (s : System S) (K : C) (uso : List S) (P : Prover C S) (y x yNew z : S) :
    List (PolynomialOpening C S) :=
  claims st.old K (P.proof y x yNew z []) (collapse uso (x ^ ·)) (opening (kPoly (kInputs s st.inputs)) y) y x yNew z

/-- What an accepted run says -/
theorem accepted_run (L : LawfulOps C F S G rep) (hst : Setting rep g cpus lnCeil st s K uso P)
    (hb : Binding g st P ch positions) (ht : ch.Tried y x yNew z) (hl : us.length = st.params.k)
    (hp : ch.Path y x yNew z [] us) (h : st.Accepts (F := F) cpus lnCeil P y x yNew z us) :
    Accepted (F := F) rep g (claimsOf st s K uso P y x yNew z) st.params.k (P.rounds y x yNew z [] us) us
      (P.last y x yNew z us).1 (P.last y x yNew z us).2 ∧
    (∀ u ∈ us, u ≠ 0) ∧ (∀ round ∈ P.rounds y x yNew z [] us, 5 ≤ round.L.length ∧ 5 ≤ round.R.length) ∧
    (∀ A, rep (P.sNew y x yNew) A → combine g 0 (sxVec st.params.n s.lcs yNew) = 0 ∨
      combine g 0 (sxVec st.params.n s.lcs yNew) = A) ∧ x ≠ 0 ∧ y ≠ 0 ∧
    (P.openings y x yNew).rx * x⁻¹ ^ (3 * st.params.n - 1) *
      ((P.openings y x yNew).rxy * (x * y)⁻¹ ^ (3 * st.params.n - 1) +
        (y ^ st.params.n * (P.openings y x yNew).sxCur * x⁻¹ ^ st.params.n - x ^ st.params.n *
          ∑ i ∈ Finset.range st.params.n, ((x * y) ^ (i + 1) + (x * y⁻¹) ^ (i + 1)))) =
      (P.openings y x yNew).txPositive * x + opening (kPoly (kInputs s st.inputs)) y * y ^ st.params.n +
        (P.openings y x yNew).txNegative * x⁻¹ ^ (4 * st.params.n) := by
  obtain ⟨f, t', K', ky, gx, uso', d, packed, forks, h1, -, h3, h4, h5, h6, h7, h8, h9, h10⟩ := accepts_steps hst.shape h
  obtain rfl := Option.some.inj (hst.k.symm.trans h1)
  obtain rfl := hst.old.unique h4
  have hk3 := hst.params.k_gt
  have hne : uso ≠ [] := by
    rw [← List.length_pos_iff, h4.length, hst.oldLength]
    omega
  rw [computeB_eq _ _ hne, Option.some.injEq] at h5
  have hkl := (hst.shape.kLength st.inputs).trans hst.lcs
  have hky : ky = opening (kPoly (kInputs s st.inputs)) y := by
    rw [computeOpening_eq _ (by rw [hst.params.length]; exact hkl), Option.some.injEq] at h3
    rw [← h3, opening_sum]
    simp [combine, offset]
  subst hky h5
  have h0 := h7.ne
  have hlen : packed.length = st.params.k := h7.length.symm.trans hl
  obtain ⟨B, hB⟩ := hst.curve.g y x yNew z us
  obtain ⟨A, hA⟩ := hst.curve.sNew y x yNew
  obtain ⟨b, v1, v2⟩ := leftovers_verify_eq L hst.cpus_pos hst.ln hst.params
    (lo := ⟨P.sNew y x yNew, yNew, (P.last y x yNew z us).2, packed⟩) (hst.shape.sx yNew) hlen h7 hA hB
  obtain rfl : b = true := by
    have := v1.symm.trans h10
    cases this
    rfl
  obtain ⟨v3, v4⟩ := v2.1 rfl
  have hg : collapse us g = B := v3.resolve_left (collapse_ne hb ht hl hp h0)
  subst hg
  have hwf : WellFormedDeferred st.params.k d := by
    by_contra hno
    rw [verify_none hno] at h9
    cases h9
  obtain ⟨b, w1, w2⟩ := verify_some hwf
  obtain rfl : b = true := Option.some.inj (w1.symm.trans h9)
  have hrel := (w2.1 rfl).relation
  obtain ⟨e1, e2, e3, e4, e5, e6, e7, e8⟩ := h8
  have hn := hst.params.n_eq
  unfold DeferredRelation at hrel
  rw [← hn, e1, e2, e3, e4, e5, e6, e7, e8] at hrel
  refine ⟨⟨ℕ, scripted f, 4, t', packed, forks, h6, h7, hB⟩, h0, ?_, ?_, e1 ▸ hwf.x_ne, e2 ▸ hwf.y_ne, hrel⟩
  · unfold MultiPolynomialOpening.verifyProof at h6
    split at h6
    · simp at h6
    · simp only [Option.bind_eq_bind, Option.bind_eq_some_iff] at h6
      obtain ⟨q, hq, -⟩ := h6
      exact fun round hr => rounds_length hq round hr
  · intro A' hA'
    rw [L.functional hA' hA]
    exact v4

end
end Proofs
end Halo
