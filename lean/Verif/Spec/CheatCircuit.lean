import Verif.Model.Recursion.Circuit
import Verif.Spec.CheatAdd
/-!
# A prover that lies about additions in the verification circuit

The verification circuit (`src/recursion.rs`) by a prover that folds the entries of the rounds of the
inner product argument in its own way; everything else is as in the code.
-/
namespace Halo
namespace Recursion
open Circuit Proofs
open Circuit.Sha256 (foldProg index)
variable {F S : Type} [Field F] [DecidableEq F] [FieldApi F] [Field S] [DecidableEq S] [FieldApi S]
  (E1 E2 : CurveConsts)

/-- How to fold the entries of a round, given its number and its challenge -/
abbrev Fold (F : Type) := Var → ℕ → List AllocatedBit →
  List ((CurvePoint F × CurvePoint F) × (CurvePoint F × CurvePoint F × CurvePoint F × CurvePoint F)) →
  Prog F (List (CurvePoint F × CurvePoint F))

/-- How the code does it (`src/recursion.rs:1242-1264`) -/
def realFold (S : Type) [Field S] [FieldApi S] : Fold F := fun one _ challenge l =>
  mapProg (fun e => foldEntry E2 S one challenge e.1 e.2) l

/-- `verifyRound` (`src/recursion.rs:1184-1265`) with this way of folding -/
def verifyRoundWith (fold : Fold F) (one : Var) (self : VerificationCircuit F S) (s : RoundState F) (i : ℕ) :
    Prog F (RoundState F) := do
  let (tmp, t) ← foldProg (witnessEntry E2 one self.proof i) (List.range s.pv.length) ([], s.transcript)
  let forkvalue ← AllocatedNum.alloc (← forkValue self.forkvalues i)
  let t ← t.absorb one (.ofAllocated forkvalue)
  let (challenge, t) ← getChallenge one t
  let pv ← fold one i challenge (s.pv.zip tmp)
  return ⟨t, pv, s.challenges ++ [challenge]⟩

/-- `verifyInnerProduct` (`src/recursion.rs:1169-1310`) with this way of folding -/
def verifyInnerProductWith (fold : Fold F) (one : Var) (self : VerificationCircuit F S) (baseCase : AllocatedBit)
    (t : RescueGadget F) (instances : List ((CurvePoint F × CurvePoint F) × List AllocatedBit)) :
    Prog F (CurvePoint F × List (List AllocatedBit)) := do
  let s ← foldProg (verifyRoundWith E2 fold one self) (List.range self.params.k) ⟨t, instances.map (·.1), []⟩
  let gNew ← CurvePoint.witness E2 one (.ok (match self.proof with
    | some proof => proof.proof.innerProduct.g
    | none => .zero))
  let g ← generator E2
  foldProg (fun _ e => checkEntry E2 one self baseCase gNew g e) ((s.pv.zip (instances.map (·.2))).zipIdx) ()
  return (gNew, s.challenges)

/-- `verifyProof` (`src/recursion.rs:689-1167`) with this way of folding -/
def verifyProofWith (fold : Fold F) (one : Var) (self : VerificationCircuit F S) (baseCase : AllocatedBit)
    (kCommitment : CurvePoint F) (oldLeftovers newDeferred newLeftovers : List AllocatedBit) :
    Prog F Unit := do
  let k := self.params.k
  let (d, t) ← commitAll E2 one self kCommitment newDeferred
  let sOld ← CurvePoint.witness E2 one (.ok (proofPoint self (·.oldproof1.sNewCommitment)))
  pointIs one baseCase sOld oldLeftovers 0
  let gOld ← CurvePoint.witness E2 one (.ok (proofPoint self (·.oldproof1.gNew)))
  pointIs one baseCase gOld oldLeftovers (256 * 2 + 128)
  let instances ← combineAll E2 one k kCommitment sOld gOld d newDeferred
  let (gNew, challenges) ← verifyInnerProductWith E2 fold one self baseCase t instances
  pointIs one baseCase d.sNew newLeftovers 0
  equalUnlessBaseCase one baseCase d.yNew (← slice newLeftovers 512 (512 + 128))
  pointIs one baseCase gNew newLeftovers (256 * 2 + 128)
  foldProg (fun _ e => challengeIs one k baseCase newDeferred newLeftovers e) challenges.zipIdx ()
  equalUnlessBaseCase one baseCase d.x (← slice newDeferred 0 128)
  equalUnlessBaseCase one baseCase d.yCur (← slice newDeferred (128 * 2) (128 * 2 + 128))
  equalUnlessBaseCase one baseCase d.yNew (← slice newDeferred (128 * 3) (128 * 3 + 128))

/-- `synthesize` (`src/recursion.rs:1408-1719`) with this way of folding -/
def VerificationCircuit.synthesizeWith (fold : Fold F) (self : VerificationCircuit F S) (one : Var) : Prog F Unit := do
  let ops1 := Proj.curveOps E1 S F
  let ops2 := Proj.curveOps E2 F S
  let k := self.params.k
  let payloadBits ← inputBits (bytesBits self.newPayload)
  let leftovers1 ← inputBits
    (bitsOr (self.oldLeftovers.map fun l => @Leftovers.toBytes _ _ _ _ _ _ ops1 l) (leftoversBits k))
  let leftovers2 ← inputBits
    (bitsOr (self.newLeftovers.map fun l => @Leftovers.toBytes _ _ _ _ _ _ ops2 l) (leftoversBits k))
  let deferred ← inputBits (bitsOr (self.deferred.map Deferred.toBytes) (deferredBits k))
  foldProg (fun _ b => AllocatedBit.check b) payloadBits ()
  foldProg (fun _ b => AllocatedBit.check b) leftovers1 ()
  foldProg (fun _ b => AllocatedBit.check b) leftovers2 ()
  foldProg (fun _ b => AllocatedBit.check b) deferred ()
  let baseCase ← AllocatedBit.alloc (orMissing self.baseCase)
  if self.params.generators.length < 2 then .panic else
  let oldPayload ← privateBits (match self.proof with
    | some proof => bytesBits proof.payload
    | none => self.inner.basePayload)
  foldProg (fun _ e => basePayloadIs one baseCase e) (self.inner.basePayload.zip oldPayload) ()
  let oldLeftovers1 ← privateBits (bitsOr
    (self.proof.map fun proof => @Leftovers.toBytes _ _ _ _ _ _ ops2 proof.oldproof1) (leftoversBits k))
  let oldDeferred ← privateBits (bytesBits (← oldDeferredBytes self))
  if oldDeferred.length ≠ deferred.length then .panic else
  let kc ← kCommitment E2 one self.params.generators (oldPayload ++ oldLeftovers1 ++ leftovers1 ++ oldDeferred)
  verifyDeferred one k oldDeferred
  verifyProofWith E2 fold one self baseCase kc oldLeftovers1 deferred leftovers2
  equalUnlessBaseCase one baseCase (← slice deferred (256 * 8) (256 * 8 + 128 * k))
    (← slice oldLeftovers1 (256 * 4 + 128) oldLeftovers1.length)
  equalUnlessBaseCase one baseCase (← slice deferred (128 * 1) (128 * 2))
    (← slice oldLeftovers1 (256 * 2) (256 * 2 + 128))
  self.inner.synthesize one oldPayload payloadBits

/-- Folded as in the code, the circuit is the one of the code. -/
theorem synthesizeWith_realFold (self : VerificationCircuit F S) (one : Var) :
    self.synthesizeWith E1 E2 (realFold E2 S) one = self.synthesize E1 E2 one := rfl

/-- What a lying prover claims for the four sums of an entry -/
abbrev Claims (F : Type) := (F × F) × (F × F) × (F × F) × (F × F)

/-- `foldEntry` (`src/recursion.rs:1242-1264`) with claims about the sums -/
def foldEntryTo (S : Type) [Field S] [FieldApi S] (claims : Claims F) (one : Var) (challenge : List AllocatedBit)
    (pv : (CurvePoint F × CurvePoint F))
    (e : CurvePoint F × CurvePoint F × CurvePoint F × CurvePoint F) :
    Prog F (CurvePoint F × CurvePoint F) := do
  let (p, v) := pv
  let L ← CurvePoint.multiplyEndo one e.1 challenge
  let R ← CurvePoint.multiplyInvEndo E2 S one e.2.1 challenge
  let l ← CurvePoint.multiplyEndo one e.2.2.1 challenge
  let r ← CurvePoint.multiplyInvEndo E2 S one e.2.2.2 challenge
  let p ← CurvePoint.addTo E2 (some claims.1) one p L
  let p ← CurvePoint.addTo E2 (some claims.2.1) one p R
  let v ← CurvePoint.addTo E2 (some claims.2.2.1) one v l
  let v ← CurvePoint.addTo E2 (some claims.2.2.2) one v r
  return (p, v)

/-- Be honest, except about the sums of the last of `k` rounds. -/
def cheatFold (S : Type) [Field S] [FieldApi S] (k : ℕ) (claims : ℕ → Claims F) : Fold F :=
  fun one i challenge l =>
    if i + 1 = k then
      mapProg (fun e => foldEntryTo E2 S (claims e.2) one challenge e.1.1 e.1.2) l.zipIdx
    else realFold E2 S one i challenge l

end Recursion
end Halo
