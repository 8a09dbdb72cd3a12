import Verif.Lemmas.Proofs.MachineProof
import Verif.Lemmas.Proofs.MachineVerify
import Verif.Model.Recursion.Proof
import Verif.Lemmas.Gadget
import Verif.Lemmas.Proofs.MachineProof
import Verif.Lemmas.Proofs.MachineVerify
/-!
# Lemmas: recursive proofs do not depend on the machine
-/
namespace Halo
namespace Recursion
open Circuit Proofs
open Circuit.Sha256 (foldProg index)

section circuit
variable {F S : Type} [Field F] [DecidableEq F] [LawfulField F] [Field S] [DecidableEq S] [LawfulField S]
  {E1 E2 : CurveConsts}

theorem witness_same {b : F} {p q : Proj F} (h : SamePoint b p q) (one : Var) :
    CurvePoint.witness E2 one (.ok p) = CurvePoint.witness E2 one (.ok q) := by
  have : pointValues p = pointValues q := by unfold pointValues; rw [h.getXy]
  unfold CurvePoint.witness
  simp only [Except.map, this]

theorem commitWitness_same {b : F} {p q : Proj F} (h : SamePoint b p q) (one : Var) (t : RescueGadget F) :
    commitWitness E2 one t p = commitWitness E2 one t q := by
  unfold commitWitness
  rw [witness_same h]

omit [Field F] [DecidableEq F] [LawfulField F] in
theorem index_same {α β γ : Type} {R : α → β → Prop} {l : List α} {l' : List β} (h : List.Forall₂ R l l') (i : ℕ)
    {k : α → Prog F γ} {k' : β → Prog F γ} (hk : ∀ a b, R a b → k a = k' b) : (index l i).bind k = (index l' i).bind k' := by
  induction h generalizing i with
  | nil => rfl
  | cons h _ ih =>
    cases i with
    | zero => exact hk _ _ h
    | succ i => exact ih i

variable [HaloCurve E2 F S]

/-- The proofs are the same, or there is none. -/
abbrev SameOld (E1 E2 : CurveConsts) (p p' : Option (RecursiveProof F S)) : Prop :=
  Option.Rel (RecursiveProof.Same (E2.b : F) (E1.b : S)) p p'

omit [HaloCurve E2 F S] in
theorem witnessEntry_same {p p' : Option (RecursiveProof F S)} (h : SameOld E1 E2 p p') (one : Var) (i : ℕ)
    (s : List (CurvePoint F × CurvePoint F × CurvePoint F × CurvePoint F) × RescueGadget F) (j : ℕ) :
    witnessEntry E2 one p i s j = witnessEntry E2 one p' i s j := by
  cases h with
  | none => rfl
  | @some a b h =>
    unfold witnessEntry roundEntry
    simp only [Prog.bind_eq, Prog.bind_assoc, Prog.pure_eq, Prog.pure_bind]
    refine index_same h.proof.innerProduct.rounds i fun r r' hr => ?_
    refine index_same hr.L j fun L L' hL => index_same hr.R j fun R R' hR => ?_
    simp only [hr.l, hr.r, witness_same hL, witness_same hR]

omit [LawfulField F] [LawfulField S] [HaloCurve E2 F S] in
theorem finalScalar_same {p p' : Option (RecursiveProof F S)} (h : SameOld E1 E2 p p') (j : ℕ) :
    finalScalar p j = finalScalar p' j := by
  cases h with
  | none => rfl
  | some h => unfold finalScalar; simp only [h.proof.innerProduct.a]

theorem proofPoint_same {c c' : VerificationCircuit F S} (h : SameOld E1 E2 c.proof c'.proof) {f : RecursiveProof F S → Proj F}
    (hf : ∀ p p', RecursiveProof.Same (E2.b : F) (E1.b : S) p p' → SamePoint (E2.b : F) (f p) (f p')) :
    SamePoint (E2.b : F) (proofPoint c f) (proofPoint c' f) := by
  let := Proj.curveOps E2 F S
  let := HaloCurve.module (E := E2) (F := F) (S := S)
  have L := HaloCurve.lawfulOps (E := E2) (F := F) (S := S)
  unfold proofPoint
  generalize c.proof = p at h
  generalize c'.proof = p' at h
  cases h with
  | none => exact ⟨_, L.zero, L.zero⟩
  | some h => exact hf _ _ h

omit [HaloCurve E2 F S] in
theorem verifyRound_same {c c' : VerificationCircuit F S} (h : SameOld E1 E2 c.proof c'.proof) (hf : c.forkvalues = c'.forkvalues)
    (one : Var) : verifyRound E2 one c = verifyRound E2 one c' := by
  funext s i
  have : witnessEntry E2 one c.proof i = witnessEntry E2 one c'.proof i := by
    funext s j
    exact witnessEntry_same h one i s j
  unfold verifyRound
  rw [this, hf]

omit [HaloCurve E2 F S] in
theorem verifyInnerProduct_same {c c' : VerificationCircuit F S} (h : SameOld E1 E2 c.proof c'.proof) (hf : c.forkvalues = c'.forkvalues)
    (hk : c.params = c'.params) (one : Var) (baseCase : AllocatedBit) (t : RescueGadget F)
    (instances : List ((CurvePoint F × CurvePoint F) × List AllocatedBit)) :
    verifyInnerProduct E2 one c baseCase t instances = verifyInnerProduct E2 one c' baseCase t instances := by
  have h3 : ∀ gNew g e, checkEntry E2 one c baseCase gNew g e = checkEntry E2 one c' baseCase gNew g e := by
    intro gNew g e
    unfold checkEntry
    rw [finalScalar_same h]
  unfold verifyInnerProduct
  rw [verifyRound_same h hf, hk]
  simp only [h3]
  revert h
  cases c.proof <;> cases c'.proof <;> intro h
  · rfl
  · cases h
  · cases h
  · cases h with
    | some h => simp only [witness_same h.proof.innerProduct.g]

theorem commitAll_same {c c' : VerificationCircuit F S} (h : SameOld E1 E2 c.proof c'.proof) (hk : c.params = c'.params)
    (one : Var) (K : CurvePoint F) (d : List AllocatedBit) : commitAll E2 one c K d = commitAll E2 one c' K d := by
  let := Proj.curveOps E2 F S
  let := HaloCurve.module (E := E2) (F := F) (S := S)
  have L := HaloCurve.lawfulOps (E := E2) (F := F) (S := S)
  obtain ⟨o, ho, -⟩ := L.one
  have ho : SamePoint (E2.b : F) (Proj.one E2) (Proj.one E2) := ⟨o, ho, ho⟩
  have e := fun {f : RecursiveProof F S → Proj F} hf => commitWitness_same (E2 := E2) (proofPoint_same h (f := f) hf) one
  unfold commitAll
  simp only [e (f := (·.proof.rCommitment)) fun _ _ h => h.proof.r, e (f := (·.proof.sCurCommitment)) fun _ _ h => h.proof.sCur,
    e (f := (·.proof.tPositiveCommitment)) fun _ _ h => h.proof.tPositive,
    e (f := (·.proof.tNegativeCommitment)) fun _ _ h => h.proof.tNegative, e (f := (·.proof.cCommitment)) fun _ _ h => h.proof.c,
    e (f := (·.proof.sNewCommitment)) fun _ _ h => h.proof.sNew,
    e (f := fun proof => Proj.mul E2 (Proj.one E2) proof.proof.sxOldOpening) fun _ _ h => h.proof.sxOld ▸ ho.mul _,
    e (f := fun proof => Proj.mul E2 (Proj.one E2) proof.proof.sxNewOpening) fun _ _ h => h.proof.sxNew ▸ ho.mul _, hk]

theorem verifyProofGadget_same {c c' : VerificationCircuit F S} (h : SameOld E1 E2 c.proof c'.proof) (hf : c.forkvalues = c'.forkvalues)
    (hk : c.params = c'.params) (one : Var) (baseCase : AllocatedBit) (K : CurvePoint F) (ol nd nl : List AllocatedBit) :
    verifyProof E2 one c baseCase K ol nd nl = verifyProof E2 one c' baseCase K ol nd nl := by
  unfold verifyProof
  simp only [commitAll_same h hk, verifyInnerProduct_same h hf hk,
    witness_same (proofPoint_same h (f := (·.oldproof1.sNewCommitment)) fun _ _ h => h.oldproof1.s),
    witness_same (proofPoint_same h (f := (·.oldproof1.gNew)) fun _ _ h => h.oldproof1.g), hk]

end circuit

section bytes
variable {F S : Type} [Field F] [DecidableEq F] [LawfulField F] [Field S] [DecidableEq S] [LawfulField S] {E : CurveConsts}

omit [DecidableEq S] in
theorem toBytes_same {b : F} {l l' : Leftovers (Proj F) S} (h : l.Same (SamePoint b) l') :
    @Leftovers.toBytes _ _ _ _ _ _ (Proj.curveOps E F S) l = @Leftovers.toBytes _ _ _ _ _ _ (Proj.curveOps E F S) l' := by
  let := Proj.curveOps E F S
  have e : ∀ {p q : Proj F}, SamePoint b p q → pointBytes p = pointBytes q := by
    intro p q h
    have : CurveOps.getXy p = CurveOps.getXy q := h.getXy
    unfold pointBytes
    rw [this]
  unfold Leftovers.toBytes
  rw [e h.s, e h.g, h.y, h.packed]

end bytes

section
variable {F S : Type} [Field F] [DecidableEq F] [LawfulField F] [Field S] [DecidableEq S] [LawfulField S]
  {E1 E2 : CurveConsts} [HaloCurve E2 F S]

/-- Everything in the circuits is the same. -/
structure SameCircuit (E1 E2 : CurveConsts) (c c' : VerificationCircuit F S) : Prop where
  params : c.params = c'.params
  baseCase : c.baseCase = c'.baseCase
  inner : c.inner = c'.inner
  proof : SameOld E1 E2 c.proof c'.proof
  payload : c.newPayload = c'.newPayload
  forks : c.forkvalues = c'.forkvalues
  old : Option.Rel (Leftovers.Same (SamePoint (E1.b : S))) c.oldLeftovers c'.oldLeftovers
  new : Option.Rel (Leftovers.Same (SamePoint (E2.b : F))) c.newLeftovers c'.newLeftovers
  deferred : c.deferred = c'.deferred

theorem synthesize_same {c c' : VerificationCircuit F S} (h : SameCircuit E1 E2 c c') :
    c.synthesize E1 E2 = c'.synthesize E1 E2 := by
  obtain ⟨params, baseCase, inner, proof, payload, forks, old, new, deferred⟩ := c
  obtain ⟨params', baseCase', inner', proof', payload', forks', old', new', deferred'⟩ := c'
  obtain ⟨rfl, rfl, rfl, h4, rfl, rfl, h7, h8, rfl⟩ := h
  simp only at h4 h7 h8
  have e1 : (old.map fun l => @Leftovers.toBytes _ _ _ _ _ _ (Proj.curveOps E1 S F) l) =
      old'.map fun l => @Leftovers.toBytes _ _ _ _ _ _ (Proj.curveOps E1 S F) l := by
    cases h7 with
    | none => rfl
    | some h => exact congrArg some (toBytes_same h)
  have e2 : (new.map fun l => @Leftovers.toBytes _ _ _ _ _ _ (Proj.curveOps E2 F S) l) =
      new'.map fun l => @Leftovers.toBytes _ _ _ _ _ _ (Proj.curveOps E2 F S) l := by
    cases h8 with
    | none => rfl
    | some h => exact congrArg some (toBytes_same h)
  have e3 : (proof.map fun p => @Leftovers.toBytes _ _ _ _ _ _ (Proj.curveOps E2 F S) p.oldproof1) =
      proof'.map fun p => @Leftovers.toBytes _ _ _ _ _ _ (Proj.curveOps E2 F S) p.oldproof1 := by
    cases h4 with
    | none => rfl
    | some h => exact congrArg some (toBytes_same h.oldproof1)
  have e5 : oldDeferredBytes ⟨params, baseCase, inner, proof, payload, forks, old, new, deferred⟩ =
      oldDeferredBytes ⟨params, baseCase, inner, proof', payload, forks, old', new', deferred⟩ := by
    unfold oldDeferredBytes
    cases h4 with
    | none => rfl
    | some h => simp only [h.deferred]
  funext one
  unfold VerificationCircuit.synthesize
  simp only [e1, e2, e3, e5]
  simp only [verifyProofGadget_same (c := ⟨params, baseCase, inner, proof, payload, forks, old, new, deferred⟩)
    (c' := ⟨params, baseCase, inner, proof', payload, forks, old', new', deferred⟩) h4 rfl rfl]
  cases h4 with
  | none => rfl
  | some h => simp only [h.payload]

end
section proofs
variable {B S : Type} [Field B] [DecidableEq B] [LawfulField B] [Field S] [DecidableEq S] [LawfulField S]
  {E1 E2 : CurveConsts} [HaloCurve E1 B S] [HaloCurve E2 S B] (M M' : Machine)

omit [DecidableEq S] [HaloCurve E1 B S] [HaloCurve E2 S B] in
variable (S) in
theorem inputCommitment_same [HaloCurve E1 B S] {params : Params (Proj B)} {g : ℕ → Pt (E1.b : B)} (hp : ValidParams (Denotes (E1.b : B)) g params)
    (bits : List Bool) : Option.Rel (SamePoint (E1.b : B)) (inputCommitment E1 params.generators bits)
      (inputCommitment E1 params.generators bits) := by
  have hg : ∀ (i : ℕ) (p : Proj B), params.generators[i]? = some p → SamePoint (E1.b : B) p p := by
    intro i p h
    obtain ⟨hi, rfl⟩ := List.getElem?_eq_some_iff.mp h
    exact .refl (hp.gens i hi)
  have key : ∀ (l : List (Bool × ℕ)) (acc : Proj B), SamePoint (E1.b : B) acc acc →
      Option.Rel (SamePoint (E1.b : B)) (l.foldlM (fun acc e =>
        if e.1 then (params.generators.drop 2)[e.2]?.map fun g => acc.add E1 g else some acc) acc)
        (l.foldlM (fun acc e =>
        if e.1 then (params.generators.drop 2)[e.2]?.map fun g => acc.add E1 g else some acc) acc) := by
    intro l
    induction l with
    | nil => exact fun acc h => .some h
    | cons e l ih =>
      intro acc h
      rw [List.foldlM_cons]
      split
      · rw [List.getElem?_drop]
        cases hi : params.generators[2 + e.2]? with
        | none => exact .none
        | some p => exact ih _ (h.add E1 S (hg _ _ hi))
      · exact ih _ h
  unfold inputCommitment
  cases h1 : params.generators[1]? with
  | none => exact .none
  | some p => exact key _ _ (hg _ _ h1)

omit [HaloCurve E1 B S] [HaloCurve E2 S B] in
theorem inputBytes_same {p p' : RecursiveProof B S} (h : p.Same (E1.b : B) (E2.b : S) p') :
    p.inputBytes E1 E2 = p'.inputBytes E1 E2 := by
  unfold RecursiveProof.inputBytes
  rw [h.payload, h.deferred, toBytes_same h.oldproof1, toBytes_same h.oldproof2]

/-- What `verify_inner` returns is the same. -/
structure Inner.Same (b1 : B) (b2 : S) (v v' : Inner B S) : Prop where
  worked : v.worked = v'.worked
  deferred : v.deferred = v'.deferred
  leftovers1 : v.leftovers1.Same (SamePoint b1) v'.leftovers1
  leftovers2 : v.leftovers2.Same (SamePoint b2) v'.leftovers2
  forkvalues : v.forkvalues = v'.forkvalues

theorem verifyInner_same {p p' : RecursiveProof B S} (h : p.Same (E1.b : B) (E2.b : S) p')
    {params1 : Params (Proj B)} {g1 : ℕ → Pt (E1.b : B)} (hp1 : ValidParams (Denotes (E1.b : B)) g1 params1)
    {params2 : Params (Proj S)} {g2 : ℕ → Pt (E2.b : S)} (hp2 : ValidParams (Denotes (E2.b : S)) g2 params2)
    (inner1 : RecursiveCircuit S) (inner2 : RecursiveCircuit B) :
    SameResult (Inner.Same (E1.b : B) (E2.b : S)) (p.verifyInner E1 E2 M.cpus M.lnCeil params1 params2 inner1 inner2)
      (p'.verifyInner E1 E2 M'.cpus M'.lnCeil params1 params2 inner1 inner2) := by
  unfold RecursiveProof.verifyInner
  simp only [inputBytes_same h, h.payload]
  refine .check ?_
  refine .bind (sameResult_ofOption (inputCommitment_same S hp1 _)) fun K K' hK => ?_
  refine .bind (verify_same M M' Transcript.rescue h.proof h.oldproof1 hp1 _ _ (.some hK)) ?_
  rintro ⟨w, l, d, f⟩ ⟨w', l', d', f'⟩ ⟨h1, h2, h3⟩
  simp only [Prod.mk.injEq] at h1 h2 h3
  obtain ⟨rfl, rfl⟩ := h3
  rw [leftovers_same M M' h.oldproof2 hp2]
  exact .step _ fun w2 => .ok ⟨by rw [h1], rfl, h2, h.oldproof2, rfl⟩

theorem recursiveVerify_same {p p' : RecursiveProof B S} (h : p.Same (E1.b : B) (E2.b : S) p')
    {params1 : Params (Proj B)} {g1 : ℕ → Pt (E1.b : B)} (hp1 : ValidParams (Denotes (E1.b : B)) g1 params1)
    {params2 : Params (Proj S)} {g2 : ℕ → Pt (E2.b : S)} (hp2 : ValidParams (Denotes (E2.b : S)) g2 params2)
    (inner1 : RecursiveCircuit S) (inner2 : RecursiveCircuit B) :
    p.verify E1 E2 M.cpus M.lnCeil params1 params2 inner1 inner2 =
      p'.verify E1 E2 M'.cpus M'.lnCeil params1 params2 inner1 inner2 := by
  have key : SameResult (· = ·) (p.verify E1 E2 M.cpus M.lnCeil params1 params2 inner1 inner2)
      (p'.verify E1 E2 M'.cpus M'.lnCeil params1 params2 inner1 inner2) := by
    unfold RecursiveProof.verify
    simp only [h.payload, h.deferred]
    refine .bind (verifyInner_same M M' h hp1 hp2 inner1 inner2) fun v v' hv => ?_
    rw [hv.deferred, leftovers_same M M' hv.leftovers1 hp1, leftovers_same M M' hv.leftovers2 hp2, hv.worked]
    exact .step _ fun _ => .step _ fun _ => .step _ fun _ => .step _ fun _ => .ok rfl
  revert key
  generalize p.verify E1 E2 M.cpus M.lnCeil params1 params2 inner1 inner2 = x
  generalize p'.verify E1 E2 M'.cpus M'.lnCeil params1 params2 inner1 inner2 = y
  intro key
  cases key with
  | ok h => rw [h]
  | error e => rfl

theorem carried_same {old old' : Option (RecursiveProof S B)} (h : Option.Rel (RecursiveProof.Same (E2.b : S) (E1.b : B)) old old')
    {params1 : Params (Proj B)} {g1 : ℕ → Pt (E1.b : B)} (hp1 : ValidParams (Denotes (E1.b : B)) g1 params1)
    {params2 : Params (Proj S)} {g2 : ℕ → Pt (E2.b : S)} (hp2 : ValidParams (Denotes (E2.b : S)) g2 params2)
    (inner1 : RecursiveCircuit S) (inner2 : RecursiveCircuit B) :
    SameResult (Inner.Same (E2.b : S) (E1.b : B)) (carried E1 E2 M.cpus M.lnCeil params1 params2 old inner1 inner2)
      (carried E1 E2 M'.cpus M'.lnCeil params1 params2 old' inner1 inner2) := by
  unfold carried
  cases h with
  | some h => exact verifyInner_same M M' h hp2 hp1 inner2 inner1
  | none =>
    exact .step _ fun d => .bind (sameResult_ofOption (dummy_same M M' hp2)) fun l l' hl =>
      .bind (sameResult_ofOption (dummy_same M M' hp1)) fun m m' hm => .ok ⟨rfl, rfl, hl, hm, rfl⟩

theorem createProof_same (fuel : ℕ) {old old' : Option (RecursiveProof S B)}
    (h : Option.Rel (RecursiveProof.Same (E2.b : S) (E1.b : B)) old old')
    {params1 : Params (Proj B)} {g1 : ℕ → Pt (E1.b : B)} (hp1 : ValidParams (Denotes (E1.b : B)) g1 params1)
    {params2 : Params (Proj S)} {g2 : ℕ → Pt (E2.b : S)} (hp2 : ValidParams (Denotes (E2.b : S)) g2 params2)
    (inner1 : RecursiveCircuit S) (inner2 : RecursiveCircuit B) (payload : List (BitVec 8)) :
    SameResult (RecursiveProof.Same (E1.b : B) (E2.b : S))
      (RecursiveProof.createProof E1 E2 M.cpus M.lnCeil fuel params1 params2 old inner1 inner2 payload)
      (RecursiveProof.createProof E1 E2 M'.cpus M'.lnCeil fuel params1 params2 old' inner1 inner2 payload) := by
  unfold RecursiveProof.createProof
  refine .bind (carried_same M M' h hp1 hp2 inner1 inner2) fun v v' hv => ?_
  have hc : SameCircuit E1 E2 (newCircuit params2 old inner1 payload v) (newCircuit params2 old' inner1 payload v') := by
    refine ⟨rfl, ?_, rfl, h, rfl, congrArg some hv.forkvalues, .some hv.leftovers2, .some hv.leftovers1, congrArg some hv.deferred⟩
    cases h <;> rfl
  simp only [synthesize_same hc]
  refine .bind (new_same M M' Transcript.rescue fuel hp1 _ hv.leftovers2) ?_
  rintro ⟨π, l⟩ ⟨π', l'⟩ ⟨h1, -⟩
  exact .ok ⟨h1, hv.leftovers2, hv.leftovers1, hv.deferred, rfl⟩

end proofs
end Recursion
end Halo
