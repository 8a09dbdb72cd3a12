import Verif.Lemmas.Recursion.Extend
/-!
# What the prover's own values say about the old proof: the whole circuit
-/
set_option linter.unusedSectionVars false

namespace Halo
namespace Recursion
open Circuit Proofs
open Circuit.Sha256 (foldProg index)
variable {E E1 : CurveConsts} {F S : Type} [Field F] [DecidableEq F] [LawfulField F] [Field S] [DecidableEq S]
  [LawfulField S] {w : Var → F} {one : Var}

local notation s " ⋆ " A => LawfulField.val s • A

/-- If the circuit's final check succeeds with the prover's values, the points are right. -/
theorem verifyInnerProduct_must [HaloCurve E F S] (h1 : w one = 1) {c : VerificationCircuit F S}
    {b : AllocatedBit} (hb : b.Honest w false)
    {G GN : Pt (E.b : F)} (hG : Denotes (E.b : F) (Proj.one E) G) (hG0 : G ≠ 0)
    {instances : List ((CurvePoint F × CurvePoint F) × List AllocatedBit)} {ins : List ((Proj F × S) × S)}
    (hins : List.Forall₂ (InstOk True w G) instances ins) {t : RescueGadget F} {T T' : Rescue F}
    (ht : TrOk True h1 t T)
    {fs : List ℕ} (hfs : c.forkvalues = some fs) {ess : List (List (Entry F S))} {chs : List (Challenge S)}
    (hk : ess.length = c.params.k) (hl : ess.length = chs.length) (hlen : ∀ es ∈ ess, es.length = ins.length)
    (he : ∀ j, (h : j < ess.length) → EntriesAre c.proof j G ess[j])
    (hf : ∀ j, (h : j < chs.length) → fs[j]? = some chs[j].fork) (hN : RoundsRun E ess chs T T')
    (hgn : Denotes (E.b : F) (match c.proof with
      | some proof => proof.proof.innerProduct.g
      | none => .zero) GN)
    {as : List S} (has : ins.length ≤ as.length)
    (hfin : ∀ j, (h : j < as.length) → finalScalar c.proof j = (.pure as[j] : Prog F S)) :
    Must w (verifyInnerProductWith E (realFold E S) one c b t instances) fun _ =>
      ∀ (j : ℕ) p v (y a : S), (pvAfter E ess chs (ins.map (·.1)))[j]? = some (p, v) →
        (ins.map (·.2))[j]? = some y → as[j]? = some a → Denotes (E.b : F) p (a ⋆ GN) ∧ v = a * y := by
  let := Proj.curveOps E F S
  have hpv : List.Forall₂ (PvOk True w G) (instances.map (·.1)) (ins.map (·.1)) := by
    rw [List.forall₂_map_left_iff, List.forall₂_map_right_iff]
    exact hins.imp fun _ _ h => h.1
  have hal : ∀ j, (pvAfter E (ess.take j) (chs.take j) (ins.map (·.1))).length = ins.length := fun j => by
    rw [pvAfter_length fun es h => by
      rw [List.length_map]; exact hlen es (List.mem_of_mem_take h), List.length_map]
  rw [verifyInnerProductWith, ← hk, List.range_eq_range']
  refine Must.bind (must_of_complete (verifyRounds_follow (i := 0) (s := ⟨t, instances.map (·.1), []⟩) (N := True)
    (Q := fun j x => List.Forall₂ (PvOk True w G) x (pvAfter E (ess.take j) (chs.take j) (ins.map (·.1))))
    h1 hG hfs (fun j x hx => hx.length_eq.trans (hal j)) hl hlen
    (by simpa using he) (by simpa using hf) (fun j h h' bits x y hx hy hb hg => ?_) (by simpa [pvAfter] using hpv) ht
    fun _ => hN)) ?_
  · rw [zero_add] at hx ⊢
    rw [pvAfter_take h h']
    exact foldEntries_follow h1 hb hg hx hy
  rintro s ⟨hst, hspv, -⟩
  rw [zero_add, List.take_length, hl, List.take_length] at hspv
  have hal := hal ess.length
  rw [List.take_length, hl, List.take_length] at hal
  refine Must.bind (must_of_complete (witness_follow (N := True) (S := S) h1 hgn)) fun gNew hgNew => ?_
  refine Must.bind (must_of_complete (generator_follow (N := True) hG hG0)) fun g hg => ?_
  refine Must.bind (Must.forEach (f := fun e => checkEntry E one c b gNew g e)
    (P := fun e => ∀ p v (y a : S), (pvAfter E ess chs (ins.map (·.1)))[e.2]? = some (p, v) →
        (ins.map (·.2))[e.2]? = some y → as[e.2]? = some a → Denotes (E.b : F) p (a ⋆ GN) ∧ v = a * y)
    fun e hm => ?_) fun _ hall => ?_
  · obtain ⟨j, hj, hej⟩ := List.getElem_of_mem hm
    rw [List.getElem_zipIdx, List.getElem_zip] at hej
    rw [List.length_zipIdx, List.length_zip, List.length_map] at hj
    have hj1 : j < s.pv.length := by omega
    have hj2 : j < instances.length := by omega
    have hj3 : j < ins.length := by rw [← hins.length_eq]; exact hj2
    have hj4 : j < (pvAfter E ess chs (ins.map (·.1))).length := by rw [hal]; exact hj3
    have hj5 : j < as.length := by omega
    obtain ⟨-, i2⟩ := (List.forall₂_iff_get.1 hins).2 j hj2 hj3
    obtain ⟨⟨A, hA, hP⟩, hV⟩ := (List.forall₂_iff_get.1 hspv).2 j hj1 hj4
    simp only [List.get_eq_getElem] at i2 hA hP hV
    subst hej
    refine (checkEntry_must (S := S) (a := as[j]) (y := ins[j].2)
      (v := (pvAfter E ess chs (ins.map (·.1)))[j].2) (A := A) h1 hb hG0 hg hgNew ?_ ?_ hP hV).mono fun _ hr => ?_
    · simpa using hfin j hj5
    · simpa using i2
    · intro p v y a hp hy ha
      simp only [zero_add] at hp hy ha
      rw [List.getElem?_eq_getElem hj4, Option.some.injEq] at hp
      rw [List.getElem?_map, List.getElem?_eq_getElem hj3, Option.map_some, Option.some.injEq] at hy
      rw [List.getElem?_eq_getElem hj5, Option.some.injEq] at ha
      rw [hp] at hA hr
      subst hy ha
      exact ⟨hr.1 ▸ hA, hr.2⟩
  · refine must_pure fun j p v y a hp hy ha => ?_
    have hj : j < ins.length := by
      by_contra hj
      rw [List.getElem?_eq_none (by rw [hal]; omega)] at hp
      cases hp
    have hm : (((s.pv.zip (instances.map (·.2))).zipIdx)[j]'(by
        rw [List.length_zipIdx, List.length_zip, List.length_map, hspv.length_eq, hal, hins.length_eq]; omega)) ∈
        (s.pv.zip (instances.map (·.2))).zipIdx := List.getElem_mem _
    have := hall _ hm p v y a
    rw [List.getElem_zipIdx] at this
    simp only [zero_add] at this
    exact this hp hy ha

section
attribute [local irreducible] RescueGadget.new Complete Must

/-- If the circuit's check of the old proof succeeds with the prover's values, the native verifier accepts. -/
theorem verifyProof_must [HaloCurve E F S] (h1 : w one = 1) {c : VerificationCircuit F S} {P : RecursiveProof F S}
    (hc : c.proof = some P) {n : ℕ} (hp : P.WellShaped E c.params.k n)
    (hr : P.proof.innerProduct.rounds.length = c.params.k)
    {b : AllocatedBit} (hb : b.Honest w false)
    {kc : Proj F} {kP : CurvePoint F} (hk : PrOk E True w kP kc) {d : Deferred S} {l : Leftovers (Proj F) S}
    (hd : d.challengesSqPackedOld.length = c.params.k) (hd' : d.challengesSqPackedNew.length = c.params.k)
    {oBits dBits lBits : List AllocatedBit} (hdb : BsOk True w dBits (bytesBits d.toBytes))
    {ζ : S} {chs : List (Challenge S)} {T1 T2 T3 T4 T5 : Rescue F} (hchs : chs.length = c.params.k)
    (hfs : c.forkvalues = some (chs.map (·.fork)))
    (hrun : Steps E kc P.proof P.oldproof1 d l ζ chs T1 T2 T3 T4 T5) :
    Must w (verifyProofWith E (realFold E S) one c b kP oBits dBits lBits) fun _ =>
      Run E kc P.proof P.oldproof1 d l ζ chs T1 T2 T3 T4 T5 := by
  let := Proj.curveOps E F S
  obtain ⟨G, hG, hG0⟩ := exists_gen E F S
  have hP : c.theProof = P := by rw [VerificationCircuit.theProof, hc, Option.getD_some]
  subst hP
  obtain ⟨GN, hGN⟩ := hp.g
  rw [verifyProofWith]
  refine Must.bind (must_of_complete (commitAll_follow (N := True) h1 (fun _ => ⟨_, hc⟩) hG hG0 hp hk hd hdb
    (fun _ => hrun.yCur) (fun _ => hrun.x) (fun _ => hrun.yNew) fun _ => hrun.z)) ?_
  rintro ⟨q, t⟩ ⟨hq, ht⟩
  rw [proofPoint_eq c (·.oldproof1.sNewCommitment) rfl, proofPoint_eq c (·.oldproof1.gNew) rfl]
  obtain ⟨SO, hSO⟩ := hp.sOld
  obtain ⟨GO, hGO⟩ := hp.gOld
  refine Must.bind (must_of_complete (witness_follow (N := True) (S := S) h1 hSO)) fun sOld hsOld => ?_
  refine Must.skip fun _ => ?_
  refine Must.bind (must_of_complete (witness_follow (N := True) (S := S) h1 hGO)) fun gOld hgOld => ?_
  refine Must.skip fun _ => ?_
  refine Must.bind (must_of_complete (combineAll_follow h1 hk ⟨SO, hSO, hsOld⟩ ⟨GO, hGO, hgOld⟩ hq hdb hd hd'))
    fun ins hins => ?_
  have hel : (entriesOf c.theProof.proof).length = c.params.k := by rw [entriesOf, List.length_map, hr]
  refine Must.bind (verifyInnerProduct_must (ess := entriesOf c.theProof.proof) (chs := chs) h1 hb hG hG0 hins ht hfs
    hel (by rw [hel, hchs]) (fun es hes => ?_) (fun j h => (entriesOf_are rfl hG hp j h).2) (fun j h => ?_) hrun.rounds
    (GN := GN) ?_ (as := c.theProof.proof.innerProduct.a) hp.a (fun j h => ?_)) ?_
  · obtain ⟨j, hj, rfl⟩ := List.getElem_of_mem hes
    exact (entriesOf_are rfl hG hp j hj).1
  · simp [h]
  · rw [hc]
    exact hGN
  · exact finalScalar_eq rfl h
  rintro r hfin
  refine Must.anyway _ fun _ => ⟨hrun, fun A hA => ?_⟩
  rw [denotes_unique hA hGN]
  exact hfin

/-- If the prover's values satisfy the circuit, the old proof is right. -/
theorem synthesize_must [HaloCurve E F S] (h1 : w one = 1) {c : VerificationCircuit F S} {P : RecursiveProof F S}
    (hc : c.proof = some P) (hbc : c.baseCase = some false) {n : ℕ} (hp : P.WellShaped E c.params.k n)
    (hr : P.proof.innerProduct.rounds.length = c.params.k)
    {o : Leftovers (Proj S) F} (ho : c.oldLeftovers = some o)
    {l : Leftovers (Proj F) S} (hl : c.newLeftovers = some l)
    {d : Deferred S} (hd : c.deferred = some d) (hdo : d.challengesSqPackedOld.length = c.params.k)
    (hdn : d.challengesSqPackedNew.length = c.params.k)
    (hsmall : P.deferred.Small)
    {g : ℕ → Pt (E.b : F)} (hg : Gens E c.params.generators g) (h2 : 2 ≤ c.params.generators.length) {bits : List Bool}
    (hbits : bits = bytesBits P.payload ++ bytesBits (@Leftovers.toBytes _ _ _ _ _ _ (Proj.curveOps E F S) P.oldproof1) ++
      bytesBits (@Leftovers.toBytes _ _ _ _ _ _ (Proj.curveOps E1 S F) o) ++
      bytesBits P.deferred.toBytes) (hlen : bits.length ≤ c.params.generators.length - 2)
    {R : List Bool → List Bool → Prop} (hR : Demands c.inner R)
    {kc : Proj F} (hkc : Denotes (E.b : F) kc (inputSum g bits))
    {ζ : S} {chs : List (Challenge S)} {T1 T2 T3 T4 T5 : Rescue F} (hchs : chs.length = c.params.k)
    (hfs : c.forkvalues = some (chs.map (·.fork)))
    (hrun : Steps E kc P.proof P.oldproof1 d l ζ chs T1 T2 T3 T4 T5) :
    Must w (c.synthesize E1 E one) fun _ => Run E kc P.proof P.oldproof1 d l ζ chs T1 T2 T3 T4 T5 ∧
      WellFormedDeferred c.params.k P.deferred ∧ TrueDeferred c.params.k P.deferred ∧
      R (bytesBits P.payload) (bytesBits c.newPayload) := by
  rw [← synthesizeWith_realFold]
  rw [VerificationCircuit.synthesizeWith, ho, hl, hd, Option.map_some, Option.map_some, Option.map_some, bitsOr, bitsOr,
    bitsOr]
  refine Must.bind (must_of_complete (inputBits_follow _)) fun payloadBits hpb => ?_
  refine Must.bind (must_of_complete (inputBits_follow _)) fun leftovers1 hl1 => ?_
  refine Must.bind (must_of_complete (inputBits_follow _)) fun leftovers2 hl2 => ?_
  refine Must.bind (must_of_complete (inputBits_follow _)) fun deferred hdb => ?_
  iterate 4 refine Must.skip fun _ => ?_
  rw [hbc]
  refine Must.bind (must_of_complete (AllocatedBit.alloc_complete false)) fun baseCase hb => ?_
  rw [if_neg (by omega)]
  refine Must.bind (P := fun bits => List.Forall₂ (fun b v => b.Honest w v) bits (bytesBits P.payload)) (by
    rw [hc]; exact must_of_complete (allocBits_follow _)) fun oldPayload hopb => ?_
  refine Must.skip fun _ => ?_
  refine Must.bind (must_of_complete (allocBits_follow _)) fun oldLeftovers1 hol => ?_
  rw [hc, Option.map_some, bitsOr] at hol
  rw [show oldDeferredBytes c = (.pure P.deferred.toBytes : Prog F _) by rw [oldDeferredBytes, hc]]
  refine Must.bind (P := fun r => P.deferred.toBytes = r) (must_pure rfl) ?_
  rintro _ rfl
  refine Must.bind (must_of_complete (allocBits_follow _)) fun oldDeferred hodb => ?_
  have hlenD : oldDeferred.length = deferred.length := by
    rw [hodb.length_eq, hdb.length_eq, deferred_length hp.deferredOld hp.deferredNew, deferred_length hdo hdn]
  rw [if_neg (not_not.2 hlenD)]
  refine Must.bind (kCommitment_must (HaloCurve.good E F S) h1 hg h2 (vs := bits) ?_ hlen) fun kP hkP => ?_
  · rw [hbits]
    exact List.rel_append (List.rel_append (List.rel_append hopb hol) hl1) hodb
  obtain ⟨e1, -⟩ := deferredOf_toBytes hsmall hp.deferredOld hp.deferredNew
  refine Must.bind (verifyDeferred_must h1 hodb) fun _ ht => ?_
  rw [e1] at ht
  refine Must.bind (verifyProof_must h1 hc hp hr hb ⟨_, hkc, .of hkP⟩ hdo hdn (.of hdb) hchs hfs hrun) fun _ hrun => ?_
  iterate 6 refine Must.skip fun _ => ?_
  exact (must_of_sound (hR w one h1 _ _ _ _ (hopb.imp fun _ _ h => h.1) (hpb.imp fun _ _ h => h.1))).mono
    fun _ hr => ⟨hrun, ht.1, ht.2, hr⟩

/-- If the prover's values satisfy the circuit of a first step, the payload is in relation to the base payload. -/
theorem synthesize_must_base (h1 : w one = 1) {c : VerificationCircuit F S}
    (hc : c.proof = none) {R : List Bool → List Bool → Prop} (hR : Demands c.inner R) :
    Must w (c.synthesize E1 E one) fun _ => R c.inner.basePayload (bytesBits c.newPayload) := by
  rw [← synthesizeWith_realFold, VerificationCircuit.synthesizeWith]
  refine Must.bind (must_of_complete (inputBits_follow _)) fun payloadBits hpb => ?_
  iterate 8 refine Must.skip fun _ => ?_
  split
  · exact must_panic
  refine Must.bind (P := fun bits => List.Forall₂ (fun b v => b.Honest w v) bits c.inner.basePayload) (by
    rw [hc]; exact must_of_complete (allocBits_follow _)) fun oldPayload hopb => ?_
  iterate 4 refine Must.skip fun _ => ?_
  split
  · exact must_panic
  iterate 9 refine Must.skip fun _ => ?_
  exact must_of_sound (hR w one h1 _ _ _ _ (hopb.imp fun _ _ h => h.1) (hpb.imp fun _ _ h => h.1))

end

end Recursion
end Halo
