import Verif.Lemmas.Recursion.FollowSynth
import Verif.Lemmas.Proofs.Exact
import Verif.Lemmas.Proofs.Extract
/-!
# A run of the native verifier
-/
set_option linter.unusedSectionVars false

namespace Halo
namespace Recursion
open Circuit Proofs Util
variable {E : CurveConsts} {F S : Type} [Field F] [DecidableEq F] [LawfulField F] [Field S] [DecidableEq S]
  [LawfulField S]

local notation s " ⋆ " A => LawfulField.val s • A

/-- The points of a proof are on the curve. -/
structure PointsOk (E : CurveConsts) (K : Proj F) (π : Proof (Proj F) S) (o : Leftovers (Proj F) S) : Prop where
  k : OnCurve E K
  r : OnCurve E π.rCommitment
  sCur : OnCurve E π.sCurCommitment
  tPositive : OnCurve E π.tPositiveCommitment
  tNegative : OnCurve E π.tNegativeCommitment
  c : OnCurve E π.cCommitment
  sNew : OnCurve E π.sNewCommitment
  g : OnCurve E π.innerProduct.g
  sOld : OnCurve E o.sNewCommitment
  gOld : OnCurve E o.gNew
  points : ∀ r ∈ π.innerProduct.rounds, (∀ q ∈ r.L, OnCurve E q) ∧ ∀ q ∈ r.R, OnCurve E q

/-- Challenges are 128-bit numbers. -/
theorem getChallenge_small {T : Type} {tr : Transcript T F} {t t' : T} {c : S}
    (h : Proofs.getChallenge S tr t = some (c, t')) : LawfulField.val c < 2 ^ 128 := by
  unfold Proofs.getChallenge at h
  simp only [Option.bind_eq_bind, Option.bind_eq_some_iff] at h
  obtain ⟨⟨a, t1⟩, -, h⟩ := h
  simp only [Option.some.injEq, Prod.mk.injEq] at h
  rw [← h.1, val_fromU128]
  exact BitVec.isLt _

theorem verifyRounds_exact {T C : Type} (ops : CurveOps C F S) (tr : Transcript T F) :
    @verifyRounds T C F S _ _ _ _ _ ops.exact tr = @verifyRounds T C F S _ _ _ _ _ ops tr := by
  funext rounds
  induction rounds with
  | nil => rfl
  | cons r rounds ih =>
    funext pv t
    simp only [verifyRounds, ih]
    rfl

/-- The loop of the native verifier -/
theorem verifyRounds_run [HaloCurve E F S] {rounds : List (InnerProductRound (Proj F) S)} :
    letI := Proj.curveOps E F S
    ∀ {pv pv' : List (Proj F × S)} {chs : List (Challenge S)} {T T' : Rescue F},
    verifyRounds Transcript.rescue rounds pv T = some (pv', chs, T') → pv.length = 5 →
    (∀ e ∈ pv, OnCurve E e.1) → (∀ r ∈ rounds, (∀ q ∈ r.L, OnCurve E q) ∧ ∀ q ∈ r.R, OnCurve E q) →
    RoundsRun E (rounds.map fun r => (r.L.zip (r.R.zip (r.l.zip r.r))).take 5) chs T T' ∧
      pv' = pvAfter E (rounds.map fun r => (r.L.zip (r.R.zip (r.l.zip r.r))).take 5) chs pv ∧
      chs.length = rounds.length ∧ (∀ ch ∈ chs, ch.Good ∧ LawfulField.val ch.challengeSqPacked < 2 ^ 128) ∧
      ∀ e ∈ pv', OnCurve E e.1 := by
  let := Proj.curveOps E F S
  have gc := HaloCurve.good E F S
  induction rounds with
  | nil =>
    intro pv pv' chs T T' h h5 hpv _
    simp only [verifyRounds, Option.some.injEq, Prod.mk.injEq] at h
    obtain ⟨rfl, rfl, rfl⟩ := h
    exact ⟨rfl, rfl, rfl, by simp, hpv⟩
  | cons r rounds ih =>
    intro pv pv' chs T T' h h5 hpv hr
    rw [verifyRounds] at h
    simp only [Option.bind_eq_bind, Option.bind_eq_some_iff] at h
    obtain ⟨es, he, ⟨ch, T1⟩, hc, ⟨pv1, chs1, T2⟩, hv, h⟩ := h
    simp only [Option.some.injEq, Prod.mk.injEq] at h
    obtain ⟨rfl, rfl, rfl⟩ := h
    rw [InnerProductRound.entries, h5] at he
    split at he
    case isFalse => cases he
    rename_i hl
    cases he
    obtain ⟨hL, hR⟩ := hr r (by simp)
    have hlen : (List.zipWith (foldInstance ch) pv ((r.L.zip (r.R.zip (r.l.zip r.r))).take 5)).length = 5 := by
      simp only [List.length_zipWith, List.length_take, List.length_zip, h5]
      omega
    have hfold : ∀ e ∈ List.zipWith (foldInstance ch) pv ((r.L.zip (r.R.zip (r.l.zip r.r))).take 5),
        OnCurve E e.1 := by
      intro e he
      obtain ⟨i, hi, rfl⟩ := List.mem_iff_getElem.1 he
      rw [List.getElem_zipWith]
      obtain ⟨A, hA⟩ := hpv _ (List.getElem_mem (by rw [hlen] at hi; omega : i < pv.length))
      simp only [List.getElem_take, List.getElem_zip]
      rw [hlen] at hi
      obtain ⟨B, hB⟩ := hL _ (List.getElem_mem (by omega : i < r.L.length))
      obtain ⟨C, hC⟩ := hR _ (List.getElem_mem (by omega : i < r.R.length))
      exact ⟨_, denotes_add gc (denotes_add gc hA (denotes_mul gc hB _)) (denotes_mul gc hC _)⟩
    obtain ⟨i1, i2, i3, i4, i5⟩ := ih hv hlen hfold fun r' h' => hr r' (by simp [h'])
    refine ⟨⟨T1, hc, i1⟩, i2, by simp [i3], ?_, i5⟩
    intro c hm
    rcases List.mem_cons.1 hm with rfl | hm
    · refine ⟨squareChallenge_good hc, ?_⟩
      exact getChallenge_small (squareChallenge_fork hc).1
    · exact i4 _ hm

theorem checkFinal_of_exact [HaloCurve E F S] {g : Proj F} (hg : OnCurve E g) {us invs : List S} :
    ∀ {points : List S} {pv : List (Proj F × S)} {as : List S}, (∀ e ∈ pv, OnCurve E e.1) →
    (letI := (Proj.curveOps E F S).exact; checkFinal g us invs points pv as) = some true →
    (letI := Proj.curveOps E F S; checkFinal g us invs points pv as) = some true
  | [], _, _, _, _ => rfl
  | _ :: _, [], _, _, h => by simp [checkFinal] at h
  | _ :: _, _ :: _, [], _, h => by simp [checkFinal] at h
  | point :: points, (p, v) :: pv, a :: as, hpv, h => by
    have gc := HaloCurve.good E F S
    obtain ⟨A, hA⟩ := hg
    obtain ⟨P, hP⟩ := hpv (p, v) (by simp)
    simp only [checkFinal] at h ⊢
    simp only [Option.bind_eq_bind, Option.bind_eq_some_iff] at h ⊢
    obtain ⟨b, hb, h⟩ := h
    refine ⟨b, hb, ?_⟩
    split at h
    · cases h
    rename_i h1
    split at h
    · cases h
    rename_i h2
    have h3 := (exact_iff (S := S) hP (denotes_mul gc hA a)).1 (not_not.1 h1)
    rw [if_neg, if_neg h2]
    · exact checkFinal_of_exact ⟨A, hA⟩ (fun e he => hpv e (by simp [he])) h
    · rw [not_not]
      exact (ctEq_iff hP (denotes_mul gc hA a)).2 (.inr h3)

/-- What the native verifier, with a comparison that is exact, does when it accepts: it runs as the circuit
does. The verifier of the code accepts, too, for any circuit with as many public inputs. -/
theorem verify_run [HaloCurve E F S] {cpus : ℕ} {lnCeil : ℕ → ℕ} {α : Type} {circuit : Var → Prog S α}
    {π : Proof (Proj F) S} {o : Leftovers (Proj F) S} {params : Params (Proj F)} {inputs : List S} {K : Proj F}
    {l : Leftovers (Proj F) S} {d : Deferred S} {forks : List ℕ} (hk : 0 < params.k)
    (h : @Proof.verify _ _ _ _ _ _ _ _ _ (Proj.curveOps E F S).exact Transcript.rescue cpus lnCeil _ π o params
      circuit inputs (some K) = .ok (true, l, d, forks)) (hp : PointsOk E K π o) :
    (∃ ζ chs T1 T2 T3 T4 T5, Run E K π o d l ζ chs T1 T2 T3 T4 T5 ∧ chs.length = params.k ∧
      forks = chs.map (·.fork)) ∧ (o.Small → d.Small ∧ l.Small) ∧
    @Proof.verify _ _ _ _ _ _ _ _ _ (Proj.curveOps E F S) Transcript.rescue cpus lnCeil _ π o params
      circuit inputs (some K) = .ok (true, l, d, forks) := by
  have gc := HaloCurve.good E F S
  unfold Proof.verify at h
  simp only [bind_eq_ok, ofOption_eq_ok, ite_panic_eq_ok, Except.bind_error, Except.ok.injEq, exists_eq_left'] at h
  obtain ⟨⟨a, drv⟩, hsyn, hlen, ⟨y, T1⟩, hy, ⟨x, T2⟩, hx, ⟨yn, T3⟩, hyn, ky, hky, h⟩ := h
  obtain ⟨⟨sqo, uso, invo, po⟩, hexo, gx, hgx, ⟨ζ, T4⟩, hz, ⟨sat, packed, gN, fk, T5⟩, hip, h⟩ := h
  obtain ⟨⟨sqn, usn, invn, pn⟩, hexn, bX, hbX, bXy, hbXy, bYO, hbYO, bYC, hbYC, bYN, hbYN, h⟩ := h
  simp only [Prod.mk.injEq] at h
  obtain ⟨rfl, rfl, rfl, rfl⟩ := h
  have hip0 := hip
  unfold MultiPolynomialOpening.verifyProof at hip
  by_cases hr : π.innerProduct.rounds.length ≠ params.k
  · rw [if_pos hr] at hip
    cases hip
  rw [if_neg hr] at hip
  have hr := not_not.1 hr
  simp only [Option.bind_eq_bind, Option.bind_eq_some_iff, verifyRounds_exact, List.map_cons, List.map_nil] at hip
  obtain ⟨⟨pv, chs, T⟩, hv, ok, hcf, hip⟩ := hip
  simp only [Option.some.injEq, Prod.mk.injEq] at hip
  obtain ⟨rfl, rfl, rfl, rfl, rfl⟩ := hip
  have hma : ∀ {p q : Proj F} (z : S), OnCurve E p → OnCurve E q → OnCurve E (Proj.add E (Proj.mul E p z) q) :=
    fun z ⟨_, hA⟩ ⟨_, hB⟩ => ⟨_, denotes_add gc (denotes_mul gc hA z) hB⟩
  have hq : ∀ (z : S), OnCurve E (Proj.add E π.cCommitment (Proj.mul E K z)) := fun z => by
    obtain ⟨A, hA⟩ := hp.c
    obtain ⟨B, hB⟩ := hp.k
    exact ⟨_, denotes_add gc hA (denotes_mul gc hB z)⟩
  obtain ⟨r1, r2, r3, r4, r5⟩ := verifyRounds_run hv rfl (by
    simp only [List.forall_mem_cons]
    exact ⟨hma _ (hma _ (hma _ (hma _ (hma _ (hma _ hp.r hp.sOld) hp.sCur) hp.tPositive) hp.tNegative) hp.sNew)
      hp.gOld, hp.r, hp.c, hq _, hp.c, by simp⟩) hp.points
  have hroots : Roots (chs.map (·.challengeSqPacked)) (chs.map (·.challenge)) := by
    unfold Roots
    rw [List.forall₂_map_left_iff, List.forall₂_map_right_iff, List.forall₂_same]
    intro c hc
    rw [(r4 c hc).1.packed]
    exact (r4 c hc).1.sqrt
  have hinv : chs.map (·.challengeInv) = (chs.map (·.challenge)).map (·⁻¹) := by
    rw [List.map_map]
    exact List.map_congr_left fun c hc => (r4 c hc).1.inv
  have hne : chs.map (·.challenge) ≠ [] := by
    rw [← List.length_pos_iff, List.length_map, r3, hr]
    exact hk
  rw [expandChallenges_eq hroots] at hexn
  simp only [Option.some.injEq, Prod.mk.injEq] at hexn
  obtain ⟨-, rfl, rfl, -⟩ := hexn
  rw [computeB_eq _ _ hne, Option.some.injEq] at hbX hbXy hbYO hbYC hbYN
  rw [hinv] at hcf
  have hcf' := checkFinal_of_exact hp.g r5 hcf
  have s1 := getChallenge_small hx
  have s2 := getChallenge_small hy
  have s3 := getChallenge_small hyn
  have s4 : ∀ a ∈ chs.map (·.challengeSqPacked), LawfulField.val a < 2 ^ 128 := by
    intro a ha
    obtain ⟨c, hc, rfl⟩ := List.mem_map.1 ha
    exact (r4 c hc).2
  refine ⟨⟨ζ, chs, T1, T2, T3, T4, T, ⟨⟨hy, hx, hyn, hz, r1, rfl, rfl, rfl, rfl⟩, ?_⟩, r3.trans hr, rfl⟩,
    fun ho => ⟨⟨⟨s1, ho.1, s2, s3⟩, ho.2, s4⟩, s3, s4⟩, ?_⟩
  · intro A hA j p v b a hj hb ha
    obtain ⟨P, hP⟩ : ∃ P, Denotes (E.b : F) p P := by
      have := List.mem_of_getElem? hj
      rw [entriesOf] at this
      exact r5 (p, v) (by rw [r2]; exact this)
    have e : [bX, bXy, bYO, bYC, bYN] =
        [x, x * y, o.yNew, y, yn].map fun p => collapse (chs.map (·.challenge)) fun i => p ^ i := by
      simp only [List.map_cons, List.map_nil, hbX, hbXy, hbYO, hbYC, hbYN]
    change [bX, bXy, bYO, bYC, bYN][j]? = some b at hb
    rw [e, List.getElem?_map, Option.map_eq_some_iff] at hb
    obtain ⟨c, hc, rfl⟩ := hb
    let := (Proj.curveOps E F S).exact
    obtain ⟨-, f1, f2⟩ := checkFinal_true hcf (j := j) (x := c) (P := p) (v := v) hc (by rw [r2]; exact hj)
    rw [List.getD_eq_getElem?_getD, ha, Option.getD_some] at f1 f2
    have := (exact_iff (S := S) hP (denotes_mul gc hA a)).1 f1
    exact ⟨this ▸ hP, f2⟩
  · let := Proj.curveOps E F S
    unfold Proof.verify
    simp only [bind_eq_ok, ofOption_eq_ok, ite_panic_eq_ok, Except.bind_error, Except.ok.injEq, exists_eq_left']
    refine ⟨_, hsyn, hlen, _, hy, _, hx, _, hyn, _, hky, _, hexo, _, hgx, _, hz,
      (true, chs.map (·.challengeSqPacked), π.innerProduct.g, chs.map (·.fork), T), ?_, _,
      expandChallenges_eq hroots, ?_⟩
    · unfold MultiPolynomialOpening.verifyProof
      rw [if_neg (not_not.2 hr)]
      simp only [Option.bind_eq_bind, Option.bind_eq_some_iff, List.map_cons, List.map_nil]
      exact ⟨_, hv, true, by rw [hinv]; exact hcf', rfl⟩
    simp only [computeB_eq _ _ hne, Option.some.injEq, exists_eq_left', hbX, hbXy, hbYO, hbYC, hbYN]

/-- What the native verifier does, whether it accepts or not -/
theorem verify_steps [HaloCurve E F S] {cpus : ℕ} {lnCeil : ℕ → ℕ} {α : Type} {circuit : Var → Prog S α}
    {π : Proof (Proj F) S} {o : Leftovers (Proj F) S} {params : Params (Proj F)} {inputs : List S} {K : Proj F}
    {sat : Bool} {l : Leftovers (Proj F) S} {d : Deferred S} {forks : List ℕ} (hk : 0 < params.k)
    (ho : 0 < o.challengesSqPackedNew.length)
    (h : @Proof.verify _ _ _ _ _ _ _ _ _ (Proj.curveOps E F S) Transcript.rescue cpus lnCeil _ π o params
      circuit inputs (some K) = .ok (sat, l, d, forks)) (hp : PointsOk E K π o) :
    π.innerProduct.rounds.length = params.k ∧
    (∃ ζ chs T1 T2 T3 T4 T5, Steps E K π o d l ζ chs T1 T2 T3 T4 T5 ∧ chs.length = params.k ∧
      forks = chs.map (·.fork)) ∧ (o.Small → d.Small ∧ l.Small) ∧
    (∃ us, Roots o.challengesSqPackedNew us ∧ d.gxOldOpening = collapse us (d.x ^ ·)) ∧
    (∃ us, Roots d.challengesSqPackedNew us ∧ d.bX = collapse us (d.x ^ ·) ∧
      d.bXy = collapse us ((d.x * d.yCur) ^ ·) ∧ d.bYOld = collapse us (d.yOld ^ ·) ∧
      d.bYCur = collapse us (d.yCur ^ ·) ∧ d.bYNew = collapse us (d.yNew ^ ·)) ∧
    (d.txPositiveOpening = π.txPositiveOpening ∧ d.txNegativeOpening = π.txNegativeOpening ∧
      d.sxCurOpening = π.sxCurOpening ∧ d.rxOpening = π.rxOpening ∧ d.rxyOpening = π.rxyOpening) ∧
    ∃ a drv, Basic.synthesize inputMapBackend [] circuit = .ok (a, drv) ∧
      params.computeOpening (kPoly (drv.backend.zip (1 :: inputs))) d.yCur false = some d.kyOpening := by
  have gc := HaloCurve.good E F S
  unfold Proof.verify at h
  simp only [bind_eq_ok, ofOption_eq_ok, ite_panic_eq_ok, Except.bind_error, Except.ok.injEq, exists_eq_left'] at h
  obtain ⟨⟨a, drv⟩, hsyn, hlen, ⟨y, T1⟩, hy, ⟨x, T2⟩, hx, ⟨yn, T3⟩, hyn, ky, hky, h⟩ := h
  obtain ⟨⟨sqo, uso, invo, po⟩, hexo, gx, hgx, ⟨ζ, T4⟩, hz, ⟨sat, packed, gN, fk, T5⟩, hip, h⟩ := h
  obtain ⟨⟨sqn, usn, invn, pn⟩, hexn, bX, hbX, bXy, hbXy, bYO, hbYO, bYC, hbYC, bYN, hbYN, h⟩ := h
  simp only [Prod.mk.injEq] at h
  obtain ⟨rfl, rfl, rfl, rfl⟩ := h
  unfold MultiPolynomialOpening.verifyProof at hip
  by_cases hr : π.innerProduct.rounds.length ≠ params.k
  · rw [if_pos hr] at hip
    cases hip
  rw [if_neg hr] at hip
  have hr := not_not.1 hr
  simp only [Option.bind_eq_bind, Option.bind_eq_some_iff, List.map_cons, List.map_nil] at hip
  obtain ⟨⟨pv, chs, T⟩, hv, ok, hcf, hip⟩ := hip
  simp only [Option.some.injEq, Prod.mk.injEq] at hip
  obtain ⟨rfl, rfl, rfl, rfl, rfl⟩ := hip
  have hma : ∀ {p q : Proj F} (z : S), OnCurve E p → OnCurve E q → OnCurve E (Proj.add E (Proj.mul E p z) q) :=
    fun z ⟨_, hA⟩ ⟨_, hB⟩ => ⟨_, denotes_add gc (denotes_mul gc hA z) hB⟩
  have hq : ∀ (z : S), OnCurve E (Proj.add E π.cCommitment (Proj.mul E K z)) := fun z => by
    obtain ⟨A, hA⟩ := hp.c
    obtain ⟨B, hB⟩ := hp.k
    exact ⟨_, denotes_add gc hA (denotes_mul gc hB z)⟩
  obtain ⟨r1, r2, r3, r4, r5⟩ := verifyRounds_run hv rfl (by
    simp only [List.forall_mem_cons]
    exact ⟨hma _ (hma _ (hma _ (hma _ (hma _ (hma _ hp.r hp.sOld) hp.sCur) hp.tPositive) hp.tNegative) hp.sNew)
      hp.gOld, hp.r, hp.c, hq _, hp.c, by simp⟩) hp.points
  have hroots : Roots (chs.map (·.challengeSqPacked)) (chs.map (·.challenge)) := by
    unfold Roots
    rw [List.forall₂_map_left_iff, List.forall₂_map_right_iff, List.forall₂_same]
    intro c hc
    rw [(r4 c hc).1.packed]
    exact (r4 c hc).1.sqrt
  have hne : chs.map (·.challenge) ≠ [] := by
    rw [← List.length_pos_iff, List.length_map, r3, hr]
    exact hk
  rw [expandChallenges_eq hroots] at hexn
  simp only [Option.some.injEq, Prod.mk.injEq] at hexn
  obtain ⟨-, rfl, rfl, -⟩ := hexn
  rw [computeB_eq _ _ hne, Option.some.injEq] at hbX hbXy hbYO hbYC hbYN
  have hex : ∃ us, Roots o.challengesSqPackedNew us := by
    by_contra hno
    rw [expandChallenges_none hno] at hexo
    cases hexo
  obtain ⟨us, hus⟩ := hex
  rw [expandChallenges_eq hus] at hexo
  simp only [Option.some.injEq, Prod.mk.injEq] at hexo
  obtain ⟨-, rfl, rfl, -⟩ := hexo
  have hune : us ≠ [] := by
    rw [← List.length_pos_iff, hus.length]
    exact ho
  rw [computeB_eq _ _ hune, Option.some.injEq] at hgx
  have s1 := getChallenge_small hx
  have s2 := getChallenge_small hy
  have s3 := getChallenge_small hyn
  have s4 : ∀ a ∈ chs.map (·.challengeSqPacked), LawfulField.val a < 2 ^ 128 := by
    intro a ha
    obtain ⟨c, hc, rfl⟩ := List.mem_map.1 ha
    exact (r4 c hc).2
  exact ⟨hr, ⟨ζ, chs, T1, T2, T3, T4, T, ⟨hy, hx, hyn, hz, r1, rfl, rfl, rfl, rfl⟩, r3.trans hr, rfl⟩,
    fun ho => ⟨⟨⟨s1, ho.1, s2, s3⟩, ho.2, s4⟩, s3, s4⟩, ⟨us, hus, hgx.symm⟩,
    ⟨_, hroots, hbX.symm, hbXy.symm, hbYO.symm, hbYC.symm, hbYN.symm⟩, ⟨rfl, rfl, rfl, rfl, rfl⟩, a, drv, hsyn, hky⟩

/-- The square roots are determined. -/
theorem roots_unique {ps us us' : List S} (h : Roots ps us) (h' : Roots ps us') : us = us' := by
  have := expandChallenges_eq h
  rw [expandChallenges_eq h', Option.some.injEq, Prod.mk.injEq, Prod.mk.injEq] at this
  exact this.2.1.symm

/-- The challenges are determined. -/
theorem RoundsRun.unique : ∀ {ess : List (List (Entry F S))} {chs chs' : List (Challenge S)} {T T1 T2 : Rescue F},
    RoundsRun E ess chs T T1 → RoundsRun E ess chs' T T2 → chs.length = ess.length → chs'.length = ess.length →
    chs = chs'
  | [], chs, chs', _, _, _, _, _, h1, h2 => by
    rw [List.length_eq_zero_iff.1 h1, List.length_eq_zero_iff.1 h2]
  | _ :: _, [], _, _, _, _, _, _, h, _ => by simp at h
  | _ :: _, _ :: _, [], _, _, _, _, _, _, h => by simp at h
  | _ :: ess, ch :: chs, ch' :: chs', T, _, _, ⟨_, a1, a2⟩, ⟨_, b1, b2⟩, h1, h2 => by
    rw [a1, Option.some.injEq, Prod.mk.injEq] at b1
    obtain ⟨rfl, rfl⟩ := b1
    rw [RoundsRun.unique a2 b2 (by simpa using h1) (by simpa using h2)]

end Recursion
end Halo
