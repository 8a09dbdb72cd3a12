import Verif.Lemmas.Recursion.ExtendAll
import Verif.Lemmas.Recursion.Forge
/-!
# What the prover's own values say about the old proof: one step
-/
set_option linter.unusedSectionVars false

namespace Halo
namespace Recursion
open Circuit Proofs Util

section
variable {E : CurveConsts} {F S : Type} [Field F] [DecidableEq F] [LawfulField F] [Field S] [DecidableEq S]
  [LawfulField S]

local notation s " ⋆ " A => LawfulField.val s • A

/-- The final check of the native verifier succeeds if the points are right. -/
theorem checkFinal_of_points [HaloCurve E F S] {g : Proj F} {A : Pt (E.b : F)} (hg : Denotes (E.b : F) g A)
    {us invs : List S} :
    ∀ {points : List S} {pv : List (Proj F × S)} {as : List S} {ok : Bool},
    (letI := Proj.curveOps E F S; checkFinal g us invs points pv as) = some ok →
    (∀ (j : ℕ) p v x b a, pv[j]? = some (p, v) → points[j]? = some x → Util.computeB x us invs = some b → as[j]? = some a →
      Denotes (E.b : F) p (a ⋆ A) ∧ v = a * b) → ok = true
  | [], _, _, _, h, _ => by
    simp only [checkFinal, Option.some.injEq] at h
    exact h.symm
  | _ :: _, [], _, _, h, _ => by simp [checkFinal] at h
  | _ :: _, _ :: _, [], _, h, _ => by simp [checkFinal] at h
  | point :: points, (p, v) :: pv, a :: as, ok, h, hall => by
    have gc := HaloCurve.good E F S
    simp only [checkFinal] at h
    simp only [Option.bind_eq_bind, Option.bind_eq_some_iff] at h
    obtain ⟨b, hb, h⟩ := h
    obtain ⟨h1, h2⟩ := hall 0 p v point b a rfl rfl hb rfl
    rw [if_neg, if_neg (not_not.2 h2)] at h
    · exact checkFinal_of_points hg h fun j p v x b a e1 e2 e3 e4 => hall (j + 1) p v x b a e1 e2 e3 e4
    · rw [not_not]
      exact (ctEq_iff h1 (denotes_mul gc hg a)).2 (.inr rfl)

/-- The native verifier accepts if the points are right. -/
theorem verify_judges [HaloCurve E F S] {cpus : ℕ} {lnCeil : ℕ → ℕ} {α : Type} {circuit : Var → Prog S α}
    {π : Proof (Proj F) S} {o : Leftovers (Proj F) S} {params : Params (Proj F)} {inputs : List S} {K : Proj F}
    {sat : Bool} {l : Leftovers (Proj F) S} {d : Deferred S} {forks : List ℕ} (hk : 0 < params.k)
    (h : @Proof.verify _ _ _ _ _ _ _ _ _ (Proj.curveOps E F S) Transcript.rescue cpus lnCeil _ π o params
      circuit inputs (some K) = .ok (sat, l, d, forks)) (hp : PointsOk E K π o) :
    π.innerProduct.rounds.length = params.k ∧
    ∃ ζ chs T1 T2 T3 T4 T5, Steps E K π o d l ζ chs T1 T2 T3 T4 T5 ∧ chs.length = params.k ∧
      forks = chs.map (·.fork) ∧ (Run E K π o d l ζ chs T1 T2 T3 T4 T5 → sat = true) := by
  have gc := HaloCurve.good E F S
  unfold Proof.verify at h
  simp only [bind_eq_ok, ofOption_eq_ok, ite_panic_eq_ok, Except.bind_error, Except.ok.injEq, exists_eq_left'] at h
  obtain ⟨⟨a, drv⟩, hsyn, hlen, ⟨y, T1⟩, hy, ⟨x, T2⟩, hx, ⟨yn, T3⟩, hyn, ky, hky, h⟩ := h
  obtain ⟨⟨sqo, uso, invo, po⟩, hexo, gx, hgx, ⟨ζ, T4⟩, hz, ⟨sat, packed, gN, fk, T5⟩, hip, h⟩ := h
  obtain ⟨⟨sqn, usn, invn, pn⟩, hexn, bX, hbX, bXy, hbXy, bYO, hbYO, bYC, hbYC, bYN, hbYN, h⟩ := h
  simp only [Prod.mk.injEq] at h
  obtain ⟨rfl, rfl, rfl, rfl⟩ := h
  unfold MultiPolynomialOpening.verifyProof at hip
  by_cases hr : π.innerProduct.rounds.length ≠ params.k
  · rw [if_pos hr] at hip
    cases hip
  rw [if_neg hr] at hip
  have hr := not_not.1 hr
  simp only [Option.bind_eq_bind, Option.bind_eq_some_iff, List.map_cons, List.map_nil] at hip
  obtain ⟨⟨pv, chs, T⟩, hv, ok, hcf, hip⟩ := hip
  simp only [Option.some.injEq, Prod.mk.injEq] at hip
  obtain ⟨rfl, rfl, rfl, rfl, rfl⟩ := hip
  have hma : ∀ {p q : Proj F} (z : S), OnCurve E p → OnCurve E q → OnCurve E (Proj.add E (Proj.mul E p z) q) :=
    fun z ⟨_, hA⟩ ⟨_, hB⟩ => ⟨_, denotes_add gc (denotes_mul gc hA z) hB⟩
  have hq : ∀ (z : S), OnCurve E (Proj.add E π.cCommitment (Proj.mul E K z)) := fun z => by
    obtain ⟨A, hA⟩ := hp.c
    obtain ⟨B, hB⟩ := hp.k
    exact ⟨_, denotes_add gc hA (denotes_mul gc hB z)⟩
  obtain ⟨r1, r2, r3, r4, r5⟩ := verifyRounds_run hv rfl (by
    simp only [List.forall_mem_cons]
    exact ⟨hma _ (hma _ (hma _ (hma _ (hma _ (hma _ hp.r hp.sOld) hp.sCur) hp.tPositive) hp.tNegative) hp.sNew)
      hp.gOld, hp.r, hp.c, hq _, hp.c, by simp⟩) hp.points
  have hroots : Roots (chs.map (·.challengeSqPacked)) (chs.map (·.challenge)) := by
    unfold Roots
    rw [List.forall₂_map_left_iff, List.forall₂_map_right_iff, List.forall₂_same]
    intro c hc
    rw [(r4 c hc).1.packed]
    exact (r4 c hc).1.sqrt
  have hinv : chs.map (·.challengeInv) = (chs.map (·.challenge)).map (·⁻¹) := by
    rw [List.map_map]
    exact List.map_congr_left fun c hc => (r4 c hc).1.inv
  have hne : chs.map (·.challenge) ≠ [] := by
    rw [← List.length_pos_iff, List.length_map, r3, hr]
    exact hk
  rw [expandChallenges_eq hroots] at hexn
  simp only [Option.some.injEq, Prod.mk.injEq] at hexn
  obtain ⟨-, rfl, rfl, -⟩ := hexn
  rw [hinv] at hcf
  refine ⟨hr, ζ, chs, T1, T2, T3, T4, T, ⟨hy, hx, hyn, hz, r1, rfl, rfl, rfl, rfl⟩, r3.trans hr, rfl, fun hrun => ?_⟩
  obtain ⟨A, hA⟩ := hp.g
  have hfin := hrun.final A hA
  refine checkFinal_of_points hA hcf fun j p v x b a e1 e2 e3 e4 => ?_
  refine hfin j p v b a (by rw [r2] at e1; exact e1) ?_ e4
  change [bX, bXy, bYO, bYC, bYN][j]? = some b
  rw [computeB_eq _ _ hne, Option.some.injEq] at hbX hbXy hbYO hbYC hbYN e3
  rw [← hbX, ← hbXy, ← hbYO, ← hbYC, ← hbYN, ← e3]
  rcases j with _ | _ | _ | _ | _ | j <;> simp at e2 ⊢ <;> rw [e2]

end

variable {E1 E2 : CurveConsts} {B S : Type} [Field B] [DecidableEq B] [LawfulField B] [Field S] [DecidableEq S]
  [LawfulField S] [HaloCurve E1 B S] [HaloCurve E2 S B] {s : Setup E1 E2 B S}
  {i1 : RecursiveCircuit S} {i2 : RecursiveCircuit B} {payload : List (BitVec 8)} {cpus : ℕ} {lnCeil : ℕ → ℕ}

/-- The circuit for an old proof of anyone -/
theorem any_wellShaped (hs : s.Good) (h1 : s.user1 i1) (hp : s.admitted payload) {q : RecursiveProof S B}
    (hq : q.WellShaped E2 s.params2.k (8 * s.bytes)) {v : Inner S B}
    (hv : carried E1 E2 cpus lnCeil s.params1 s.params2 (some q) i1 i2 = .ok v) :
    (newCircuit s.params2 (some q) i1 payload v).WellShaped E2 := by
  obtain ⟨hl, K, sat, -, -, hpt, hver⟩ := inner_verify (s := s.swap) hs.swap hq hv
  have hk := hs.two.valid.k_gt
  obtain ⟨-, ζ, chs, T1, T2, T3, T4, T5, hst, hc, hf, -⟩ := verify_judges (by omega) hver hpt
  have hc : chs.length = s.params2.k := hc
  exact
    { newPayload := by
        show 8 * payload.length = i1.basePayload.length
        rw [hs.one.base i1 h1, hs.one.size _ hp]
      proof := by
        rintro _ ⟨⟩
        show q.WellShaped E2 s.params2.k i1.basePayload.length
        rw [hs.one.base i1 h1]
        exact hq
      forkvalues := by
        rintro _ ⟨⟩
        show s.params2.k ≤ _
        rw [hf, List.length_map, hc]
      oldLeftovers := by
        rintro _ ⟨⟩
        show _ = s.params2.k
        rw [hl]
        exact hq.old2
      newLeftovers := by
        rintro _ ⟨⟩
        show _ = s.params2.k
        rw [hst.leftovers]
        exact (List.length_map _).trans hc
      deferred := by
        rintro _ ⟨⟩
        show _ = s.params2.k ∧ _ = s.params2.k
        rw [hst.old, hst.new]
        exact ⟨hq.old1, (List.length_map _).trans hc⟩ }

/-- The system of the circuit has the public inputs of the circuit. -/
theorem any_inputs (hs : s.Good) (h1 : s.user1 i1) (hp : s.admitted payload) {old : Option (RecursiveProof S B)}
    {v : Inner S B} (hw : (newCircuit s.params2 old i1 payload v).WellShaped E2) {t : System S}
    (ht : circuitSystem true ((newCircuit s.params2 old i1 payload v).synthesize E1 E2) = .ok ((), t)) :
    t.publicInputs = ((newCircuit s.params2 old i1 payload v).publicBits E1 E2).map fun b => if b then 1 else 0 := by
  have hg : GoodParams E2 (newCircuit s.params2 old i1 payload v).params := hs.two.good
  obtain ⟨gates, lcs, -, hsame⟩ := C57_same_circuit (E1 := E1) hg rfl (hs.one.same _ _ _ h1 h1 hp) hw hw
  obtain ⟨-, hin⟩ := hsame _ _ _ ht
  have : (t.inputs.map fun p => p.2.getD 0) = (t.inputs.map Prod.snd).map fun o => o.getD 0 := by simp
  rw [System.publicInputs, this, hin]
  simp

/-- If the prover's values satisfy the circuit, the old proof is right but for the records that are handed on. -/
theorem extend_checked (hs : s.Good) {q : RecursiveProof S B} (hq : q.WellShaped E2 s.params2.k (8 * s.bytes))
    (hsm : q.deferred.Small) {R : List Bool → List Bool → Prop} (hR : Demands i1 R) {v : Inner S B}
    (hv : carried E1 E2 cpus lnCeil s.params1 s.params2 (some q) i1 i2 = .ok v)
    {P : (Var → S) → Unit → Prop}
    (hsat : Provable ((newCircuit s.params2 (some q) i1 payload v).synthesize E1 E2) P) :
    v.leftovers2 = q.oldproof2 ∧
    @Leftovers.verify _ _ _ _ _ (Proj.curveOps E1 B S) cpus lnCeil _ q.oldproof2 s.params1
      ((blankCircuit s.params2 i1 q.payload : VerificationCircuit S B).synthesize E1 E2) = .ok v.worked ∧
    q.deferred.verify s.params1.k = some true ∧ R (bytesBits q.payload) (bytesBits payload) := by
  have hv0 := hv
  obtain ⟨hl, K, sat, hKc, hK, hpt, hver⟩ := inner_verify (s := s.swap) hs.swap hq hv
  have hk := hs.two.valid.k_gt
  obtain ⟨hr, ζ, chs, T1, T2, T3, T4, T5, hst, hc, hf, hjudge⟩ := verify_judges (by omega) hver hpt
  have hgens : Gens E2 s.params2.generators s.g2 := hs.two.gens
  have hglen : s.params2.generators.length = 2 ^ s.params2.k := hs.two.valid.length
  have hge : 16 ≤ s.params2.generators.length := hs.two.length_ge
  have hroom : 8 * s.bytes + 2 * leftoversBits s.params2.k + deferredBits s.params2.k + 2 ≤ 2 ^ s.params2.k :=
    hs.two.room
  have hbl := inputBytes_length (E1 := E2) (E2 := E1) (s := s.swap) (p := q)
    (by have := hq.payload; simp only [Setup.swap] at this ⊢; omega)
    hq.old1 hq.old2 hq.deferredOld hq.deferredNew
  obtain ⟨hrun, hwf, ht, hrel⟩ := must_of_provable hsat fun w one hone =>
    synthesize_must (E := E2) (E1 := E1) (w := w) (c := newCircuit s.params2 (some q) i1 payload v) hone (P := q) rfl rfl
      hq hr rfl rfl rfl (by rw [hst.old]; exact hq.old1) (by rw [hst.new]; exact (List.length_map _).trans hc) hsm hgens
      (show 2 ≤ s.params2.generators.length by omega) (bits := bytesBits (q.inputBytes E2 E1))
      (by rw [RecursiveProof.inputBytes, bytesBits_append, bytesBits_append, bytesBits_append, hl])
      (by
        show _ ≤ s.params2.generators.length - 2
        rw [hglen, hbl]
        show 8 * s.bytes + 2 * leftoversBits s.params2.k + deferredBits s.params2.k ≤ _
        omega)
      hR hK hc (by rw [← hf]; rfl) hst
  have htrue := hjudge hrun
  refine ⟨hl, ?_, ?_, hrel⟩
  · replace hv0 : q.verifyInner E2 E1 cpus lnCeil s.params2 s.params1 i2 i1 = .ok v := hv0
    unfold RecursiveProof.verifyInner at hv0
    simp only [bind_eq_ok, ofOption_eq_ok, ite_panic_eq_ok, Except.bind_error, Except.ok.injEq] at hv0
    obtain ⟨-, K', hK', ⟨sat', l, d, f⟩, hver', w2, hw2, rfl⟩ := hv0
    have hKc : inputCommitment E2 s.params2.generators (bytesBits (q.inputBytes E2 E1)) = some K := hKc
    rw [hKc] at hK'
    cases hK'
    have := hver'.symm.trans hver
    cases this
    rw [htrue]
    exact hw2
  · rw [show s.params1.k = s.params2.k from hs.k_eq]
    exact deferred_true hwf ht

end Recursion
end Halo
