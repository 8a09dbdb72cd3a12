import Verif.Model.Recursion.Gadgets
import Verif.Model.Proofs.Proof
/-!
# The verification circuit (`src/recursion.rs`)

`VerificationCircuit<E1, E2, Inner>` is a circuit over `F`, the scalar field of `E1` and the base field
of `E2`; `S` is the scalar field of `E2` and the base field of `E1`.
-/
namespace Halo
namespace Recursion
open Circuit Proofs
open Circuit.Sha256 (foldProg index)

/-- `src/recursion.rs:8-15` `RecursiveProof<E1, E2>`: `B` is the base field of `E1`, `S` its scalar
field. -/
structure RecursiveProof (B S : Type) where
  proof : Proof (Proj B) S
  oldproof1 : Leftovers (Proj B) S
  oldproof2 : Leftovers (Proj S) B
  deferred : Deferred B
  payload : List (BitVec 8)

/-- `src/circuits.rs:22-31` the trait `RecursiveCircuit<F>`; `&self` is captured. -/
structure RecursiveCircuit (F : Type) where
  basePayload : List Bool
  synthesize : Var → List AllocatedBit → List AllocatedBit → Prog F Unit

/-- `src/recursion.rs:208-219` `VerificationCircuit`; the values of `forkvalues` are bytes. -/
structure VerificationCircuit (F S : Type) where
  params : Params (Proj F)
  baseCase : Option Bool
  inner : RecursiveCircuit F
  proof : Option (RecursiveProof F S)
  newPayload : List (BitVec 8)
  forkvalues : Option (List ℕ)
  oldLeftovers : Option (Leftovers (Proj S) F)
  newLeftovers : Option (Leftovers (Proj F) S)
  deferred : Option (Deferred S)

variable {F S : Type} [Field F] [DecidableEq F] [FieldApi F] [Field S] [DecidableEq S] [FieldApi S]
  (E1 E2 : CurveConsts)

/-- A witnessed point that is committed to right away (`src/recursion.rs:709-719` and others) -/
def commitWitness (one : Var) (t : RescueGadget F) (p : Proj F) :
    Prog F (CurvePoint F × RescueGadget F) := do
  let p ← CurvePoint.witness E2 one (.ok p)
  let t ← commitPoint one t p
  return (p, t)

/-- A multiple of the generator that is committed to right away (`src/recursion.rs:798-806` and
others) -/
def commitMultiple (one : Var) (g : CurvePoint F) (bits : List AllocatedBit) (t : RescueGadget F) :
    Prog F (CurvePoint F × RescueGadget F) := do
  let p ← CurvePoint.multiply E2 one g bits
  let t ← commitPoint one t p
  return (p, t)

/-- `E2::one()` as a constant (`src/recursion.rs:793-796`, `1274-1277`) -/
def generator : Prog F (CurvePoint F) := do
  let (x, y) ← orPanic (Proj.one E2 : Proj F).getXy
  return .const x y

/-- The coordinates of a point are the given bits, unless in the base case
(`src/recursion.rs:904-921` and others) -/
def pointIs (one : Var) (baseCase : AllocatedBit) (p : CurvePoint F) (bits : List AllocatedBit) (i : ℕ) :
    Prog F Unit := do
  let x ← unpackFe one p.x
  let y ← unpackFe one p.y
  equalUnlessBaseCase one baseCase x (← slice bits i (i + 256))
  equalUnlessBaseCase one baseCase y (← slice bits (i + 256) (i + 512))

/-- `[z] p + q` (`src/recursion.rs:960-962` and others) -/
def mulAdd (one : Var) (z : List AllocatedBit) (p q : CurvePoint F) : Prog F (CurvePoint F) := do
  let p ← CurvePoint.multiplyEndo one p z
  CurvePoint.add E2 one p q

/-- The `j`-th entry of a round of the proof, if there is a proof (`src/recursion.rs:1189-1212`); indices
out of bounds are panics. -/
def roundEntry (proof : Option (RecursiveProof F S)) (i j : ℕ) :
    Prog F (Proj F × Proj F × Proj F × Proj F) :=
  match proof with
  | none => return (.zero, .zero, .zero, .zero)
  | some proof => do
    let round ← index proof.proof.innerProduct.rounds i
    let L ← index round.L j
    let R ← index round.R j
    let l ← index round.l j
    let r ← index round.r j
    return (L, R, Proj.mul E2 (Proj.one E2) l, Proj.mul E2 (Proj.one E2) r)

/-- `src/recursion.rs:1189-1219`: witness and commit to the `j`-th entry of round `i` -/
def witnessEntry (one : Var) (proof : Option (RecursiveProof F S)) (i : ℕ)
    (s : List (CurvePoint F × CurvePoint F × CurvePoint F × CurvePoint F) × RescueGadget F) (j : ℕ) :
    Prog F (List (CurvePoint F × CurvePoint F × CurvePoint F × CurvePoint F) × RescueGadget F) := do
  let (L, R, l, r) ← roundEntry E2 proof i j
  let L ← CurvePoint.witness E2 one (.ok L)
  let R ← CurvePoint.witness E2 one (.ok R)
  let l ← CurvePoint.witness E2 one (.ok l)
  let r ← CurvePoint.witness E2 one (.ok r)
  let t ← commitPoint one s.2 L
  let t ← commitPoint one t R
  let t ← commitPoint one t l
  let t ← commitPoint one t r
  return (s.1 ++ [(L, R, l, r)], t)

/-- `src/recursion.rs:1242-1264`: fold an entry of the round into the commitment and the opening -/
def foldEntry (S : Type) [Field S] [FieldApi S] (one : Var) (challenge : List AllocatedBit)
    (pv : (CurvePoint F × CurvePoint F))
    (e : CurvePoint F × CurvePoint F × CurvePoint F × CurvePoint F) :
    Prog F (CurvePoint F × CurvePoint F) := do
  let (p, v) := pv
  let L ← CurvePoint.multiplyEndo one e.1 challenge
  let R ← CurvePoint.multiplyInvEndo E2 S one e.2.1 challenge
  let l ← CurvePoint.multiplyEndo one e.2.2.1 challenge
  let r ← CurvePoint.multiplyInvEndo E2 S one e.2.2.2 challenge
  let p ← CurvePoint.add E2 one p L
  let p ← CurvePoint.add E2 one p R
  let v ← CurvePoint.add E2 one v l
  let v ← CurvePoint.add E2 one v r
  return (p, v)

omit [DecidableEq F] in
/-- `src/recursion.rs:1223-1229`: the closure for the fork value, run by `alloc` before anything else;
an index out of bounds is a panic -/
def forkValue (forkvalues : Option (List ℕ)) (i : ℕ) : Prog F (Except SynthesisError F) :=
  match forkvalues with
  | none => return .error .assignmentMissing
  | some fs => do
    let v ← index fs i
    return .ok (FieldApi.fromU128 (BitVec.ofNat 128 v))

/-- The state of the loop over the rounds: the transcript, the commitments with their openings, the
challenges so far -/
structure RoundState (F : Type) where
  transcript : RescueGadget F
  pv : List (CurvePoint F × CurvePoint F)
  challenges : List (List AllocatedBit)

/-- `src/recursion.rs:1184-1265`: round `i` -/
def verifyRound (one : Var) (self : VerificationCircuit F S) (s : RoundState F) (i : ℕ) :
    Prog F (RoundState F) := do
  let (tmp, t) ← foldProg (witnessEntry E2 one self.proof i) (List.range s.pv.length) ([], s.transcript)
  let forkvalue ← AllocatedNum.alloc (← forkValue self.forkvalues i)
  let t ← t.absorb one (.ofAllocated forkvalue)
  let (challenge, t) ← getChallenge one t
  let pv ← mapProg (fun e => foldEntry E2 S one challenge e.1 e.2) (s.pv.zip tmp)
  return ⟨t, pv, s.challenges ++ [challenge]⟩

/-- `src/recursion.rs:1292-1295`: `p` and `q` have the same coordinates, unless in the base case -/
def samePoint (one : Var) (baseCase : AllocatedBit) (p q : CurvePoint F) : Prog F Unit := do
  numEqualUnlessBaseCase one baseCase (.ofNum p.x) (.ofNum q.x)
  numEqualUnlessBaseCase one baseCase (.ofNum p.y) (.ofNum q.y)

/-- `src/recursion.rs:1282-1284`: the final scalar of the proof, zero if there is none -/
def finalScalar (proof : Option (RecursiveProof F S)) (j : ℕ) : Prog F S :=
  match proof with
  | none => .pure 0
  | some proof => index proof.proof.innerProduct.a j

/-- `src/recursion.rs:1279-1307`: the final check of the `j`-th commitment and opening -/
def checkEntry (one : Var) (self : VerificationCircuit F S) (baseCase : AllocatedBit) (gNew g : CurvePoint F)
    (e : ((CurvePoint F × CurvePoint F) × List AllocatedBit) × ℕ) : Prog F Unit := do
  let value ← finalScalar self.proof e.2
  let a ← witnessBitsFromFe value
  let ag ← CurvePoint.multiply E2 one gNew a
  samePoint one baseCase e.1.1.1 ag
  let abg ← CurvePoint.multiply E2 one (← CurvePoint.multiply E2 one g a) e.1.2
  samePoint one baseCase e.1.1.2 abg

/-- `src/recursion.rs:1169-1310` `verify_inner_product`. The code has `commitments`, `openings` and `b`
in separate lists, of five elements at its only call; here they are one list. -/
def verifyInnerProduct (one : Var) (self : VerificationCircuit F S) (baseCase : AllocatedBit)
    (t : RescueGadget F) (instances : List ((CurvePoint F × CurvePoint F) × List AllocatedBit)) :
    Prog F (CurvePoint F × List (List AllocatedBit)) := do
  let s ← foldProg (verifyRound E2 one self) (List.range self.params.k) ⟨t, instances.map (·.1), []⟩
  let gNew ← CurvePoint.witness E2 one (.ok (match self.proof with
    | some proof => proof.proof.innerProduct.g
    | none => .zero))
  let g ← generator E2
  foldProg (fun _ e => checkEntry E2 one self baseCase gNew g e) ((s.pv.zip (instances.map (·.2))).zipIdx) ()
  return (gNew, s.challenges)

/-- A point of the proof, the identity if there is none (`src/recursion.rs:709-714` and others) -/
def proofPoint (self : VerificationCircuit F S) (f : RecursiveProof F S → Proj F) : Proj F :=
  (self.proof.map f).getD .zero

/-- The points and challenges that the first half of `verify_proof` produces -/
structure Committed (F : Type) where
  r : CurvePoint F
  sCur : CurvePoint F
  tPositive : CurvePoint F
  tNegative : CurvePoint F
  c : CurvePoint F
  sNew : CurvePoint F
  kyPt : CurvePoint F
  rxPt : CurvePoint F
  rxyPt : CurvePoint F
  sxOldPt : CurvePoint F
  sxCurPt : CurvePoint F
  txPositivePt : CurvePoint F
  txNegativePt : CurvePoint F
  sxNewPt : CurvePoint F
  gxOldPt : CurvePoint F
  yCur : List AllocatedBit
  x : List AllocatedBit
  yNew : List AllocatedBit
  z : List AllocatedBit

/-- `src/recursion.rs:698-894`: the commitments and openings enter the transcript -/
def commitAll (one : Var) (self : VerificationCircuit F S) (kCommitment : CurvePoint F)
    (newDeferred : List AllocatedBit) : Prog F (Committed F × RescueGadget F) := do
  let t ← RescueGadget.new one
  let t ← commitPoint one t kCommitment
  let (r, t) ← commitWitness E2 one t (proofPoint self (·.proof.rCommitment))
  let (yCur, t) ← getChallenge one t
  let (sCur, t) ← commitWitness E2 one t (proofPoint self (·.proof.sCurCommitment))
  let (tPositive, t) ← commitWitness E2 one t (proofPoint self (·.proof.tPositiveCommitment))
  let (tNegative, t) ← commitWitness E2 one t (proofPoint self (·.proof.tNegativeCommitment))
  let (x, t) ← getChallenge one t
  let (c, t) ← commitWitness E2 one t (proofPoint self (·.proof.cCommitment))
  let (yNew, t) ← getChallenge one t
  let (sNew, t) ← commitWitness E2 one t (proofPoint self (·.proof.sNewCommitment))
  let g ← generator E2
  let k := self.params.k
  let (kyPt, t) ← commitMultiple E2 one g (← slice newDeferred (128 * 4) (128 * 4 + 256)) t
  let (rxPt, t) ←
    commitMultiple E2 one g (← slice newDeferred (128 * 4 + 256 * 4) (128 * 4 + 256 * 4 + 256)) t
  let (rxyPt, t) ←
    commitMultiple E2 one g (← slice newDeferred (128 * 4 + 256 * 5) (128 * 4 + 256 * 5 + 256)) t
  let (sxOldPt, t) ← commitWitness E2 one t
    (proofPoint self fun proof => Proj.mul E2 (Proj.one E2) proof.proof.sxOldOpening)
  let (sxCurPt, t) ←
    commitMultiple E2 one g (← slice newDeferred (128 * 4 + 256 * 3) (128 * 4 + 256 * 3 + 256)) t
  let (txPositivePt, t) ←
    commitMultiple E2 one g (← slice newDeferred (128 * 4 + 256 * 1) (128 * 4 + 256 * 1 + 256)) t
  let (txNegativePt, t) ←
    commitMultiple E2 one g (← slice newDeferred (128 * 4 + 256 * 2) (128 * 4 + 256 * 2 + 256)) t
  let (sxNewPt, t) ← commitWitness E2 one t
    (proofPoint self fun proof => Proj.mul E2 (Proj.one E2) proof.proof.sxNewOpening)
  let (gxOldPt, t) ←
    commitMultiple E2 one g (← slice newDeferred (256 * 6 + (4 + k) * 128) (256 * 7 + (4 + k) * 128)) t
  let (z, t) ← getChallenge one t
  return ({
    r, sCur, tPositive, tNegative, c, sNew, kyPt, rxPt, rxyPt, sxOldPt, sxCurPt, txPositivePt
    txNegativePt, sxNewPt, gxOldPt, yCur, x, yNew, z }, t)

/-- `src/recursion.rs:948-1047`: the five commitments, their openings, and the bits of the `b`s -/
def combineAll (one : Var) (k : ℕ) (kCommitment sOld gOld : CurvePoint F) (d : Committed F)
    (newDeferred : List AllocatedBit) :
    Prog F (List ((CurvePoint F × CurvePoint F) × List AllocatedBit)) := do
  let p ← mulAdd E2 one d.z d.r sOld
  let p ← mulAdd E2 one d.z p d.sCur
  let p ← mulAdd E2 one d.z p d.tPositive
  let p ← mulAdd E2 one d.z p d.tNegative
  let p ← mulAdd E2 one d.z p d.sNew
  let p ← mulAdd E2 one d.z p gOld
  let v ← mulAdd E2 one d.z d.rxPt d.sxOldPt
  let v ← mulAdd E2 one d.z v d.sxCurPt
  let v ← mulAdd E2 one d.z v d.txPositivePt
  let v ← mulAdd E2 one d.z v d.txNegativePt
  let v ← mulAdd E2 one d.z v d.sxNewPt
  let v ← mulAdd E2 one d.z v d.gxOldPt
  let q ← mulAdd E2 one d.z kCommitment d.c
  let qy ← mulAdd E2 one d.z d.kyPt d.sxCurPt
  let start := (4 + 2 * k) * 128
  let b0 ← slice newDeferred (256 * 7 + start) (256 * 7 + start + 256)
  let b1 ← slice newDeferred (256 * 8 + start) (256 * 8 + start + 256)
  let b2 ← slice newDeferred (256 * 9 + start) (256 * 9 + start + 256)
  let b3 ← slice newDeferred (256 * 10 + start) (256 * 10 + start + 256)
  let b4 ← slice newDeferred (256 * 11 + start) (256 * 11 + start + 256)
  return [((p, v), b0), ((d.r, d.rxyPt), b1), ((d.c, d.sxOldPt), b2), ((q, qy), b3),
    ((d.c, d.sxNewPt), b4)]

/-- `src/recursion.rs:1118-1134`: the `i`-th challenge is the one in the new leftovers and in the deferred
data -/
def challengeIs (one : Var) (k : ℕ) (baseCase : AllocatedBit) (newDeferred newLeftovers : List AllocatedBit)
    (e : List AllocatedBit × ℕ) : Prog F Unit := do
  let i := e.2
  equalUnlessBaseCase one baseCase e.1
    (← slice newLeftovers (256 * 4 + 128 + 128 * i) (256 * 4 + 128 + 128 * i + 128))
  let start := 4 * 128 + 6 * 256 + k * 128 + 256
  equalUnlessBaseCase one baseCase e.1 (← slice newDeferred (start + i * 128) (start + i * 128 + 128))

/-- `src/recursion.rs:689-1167` `verify_proof` -/
def verifyProof (one : Var) (self : VerificationCircuit F S) (baseCase : AllocatedBit)
    (kCommitment : CurvePoint F) (oldLeftovers newDeferred newLeftovers : List AllocatedBit) :
    Prog F Unit := do
  let k := self.params.k
  let (d, t) ← commitAll E2 one self kCommitment newDeferred
  let sOld ← CurvePoint.witness E2 one (.ok (proofPoint self (·.oldproof1.sNewCommitment)))
  pointIs one baseCase sOld oldLeftovers 0
  let gOld ← CurvePoint.witness E2 one (.ok (proofPoint self (·.oldproof1.gNew)))
  pointIs one baseCase gOld oldLeftovers (256 * 2 + 128)
  let instances ← combineAll E2 one k kCommitment sOld gOld d newDeferred
  let (gNew, challenges) ← verifyInnerProduct E2 one self baseCase t instances
  pointIs one baseCase d.sNew newLeftovers 0
  equalUnlessBaseCase one baseCase d.yNew (← slice newLeftovers 512 (512 + 128))
  pointIs one baseCase gNew newLeftovers (256 * 2 + 128)
  foldProg (fun _ e => challengeIs one k baseCase newDeferred newLeftovers e) challenges.zipIdx ()
  equalUnlessBaseCase one baseCase d.x (← slice newDeferred 0 128)
  equalUnlessBaseCase one baseCase d.yCur (← slice newDeferred (128 * 2) (128 * 2 + 128))
  equalUnlessBaseCase one baseCase d.yNew (← slice newDeferred (128 * 3) (128 * 3 + 128))

/-- Public bits (`src/recursion.rs:1412-1504`) -/
def inputBits (bits : List Bool) : Prog F (List AllocatedBit) :=
  mapProg (fun b => AllocatedBit.allocInputUnchecked (.ok b)) bits

/-- Private bits (`src/recursion.rs:1544-1660`) -/
def privateBits (bits : List Bool) : Prog F (List AllocatedBit) :=
  mapProg (fun b => AllocatedBit.alloc (.ok b)) bits

/-- `256 * 4 + 128 * (k + 1)` (`src/recursion.rs:1443`) -/
def leftoversBits (k : ℕ) : ℕ := 256 * 4 + 128 * (k + 1)

/-- `12 * 256 + (4 + 2 * k) * 128` (`src/recursion.rs:1496`) -/
def deferredBits (k : ℕ) : ℕ := 12 * 256 + (4 + 2 * k) * 128

/-- The bits of bytes if there are any, else that many bits that are false (`src/recursion.rs:1429-1450`
and others) -/
def bitsOr (bytes : Option (List (BitVec 8))) (n : ℕ) : List Bool :=
  match bytes with
  | some bytes => bytesBits bytes
  | none => List.replicate n false

/-- `src/recursion.rs:1569-1602`: a bit of the old payload is the one of the base payload if this is the
base case -/
def basePayloadIs (one : Var) (baseCase : AllocatedBit) (e : Bool × AllocatedBit) : Prog F Unit := do
  let (bit, old) := e
  let basecaseVal : Option F := baseCase.value.map fun v => ofBool v
  let (a, b, c, _) ← .doMultiply (do
    let old ← orMissing old.value
    let basecaseVal ← orMissing basecaseVal
    .ok ((ofBool bit : F) - ofBool old, basecaseVal, 0))
  if bit then .enforce (((LC.ofVar a).subVar one).addVar old.var)
  else .enforce ((LC.ofVar a).addVar old.var)
  .enforce ((LC.ofVar b).subVar baseCase.var)
  .enforce (LC.ofVar c)

/-- `src/recursion.rs:1539-1542`, `1664-1684`: the commitment to `k(Y)`. `Params::new` stores the
coordinates of the generators, which have `z = 1`, as `generators_xy` (`src/proofs.rs:1154-1157`). -/
def kCommitment (one : Var) (generators : List (Proj F)) (bits : List AllocatedBit) :
    Prog F (CurvePoint F) := do
  let g ← index generators 1
  foldProg (fun (acc : CurvePoint F) (e : AllocatedBit × Proj F) =>
      CurvePoint.addConditionallyIncomplete E2 one acc (.const e.2.x e.2.y) (Boolean.is e.1))
    (bits.zip (generators.drop 2)) (.const g.x g.y)

/-- `src/recursion.rs:1635-1649`: the deferred data of the old proof, dummy data if there is none -/
def oldDeferredBytes (self : VerificationCircuit F S) : Prog F (List (BitVec 8)) :=
  match self.proof with
  | some proof => .pure proof.deferred.toBytes
  | none => do return (← orPanic (Deferred.dummy F self.params.k)).toBytes

/-- `src/recursion.rs:1408-1719` `synthesize` -/
def VerificationCircuit.synthesize (self : VerificationCircuit F S) (one : Var) : Prog F Unit := do
  let ops1 := Proj.curveOps E1 S F
  let ops2 := Proj.curveOps E2 F S
  let k := self.params.k
  let payloadBits ← inputBits (bytesBits self.newPayload)
  let leftovers1 ← inputBits
    (bitsOr (self.oldLeftovers.map fun l => @Leftovers.toBytes _ _ _ _ _ _ ops1 l) (leftoversBits k))
  let leftovers2 ← inputBits
    (bitsOr (self.newLeftovers.map fun l => @Leftovers.toBytes _ _ _ _ _ _ ops2 l) (leftoversBits k))
  let deferred ← inputBits (bitsOr (self.deferred.map Deferred.toBytes) (deferredBits k))
  foldProg (fun _ b => AllocatedBit.check b) payloadBits ()
  foldProg (fun _ b => AllocatedBit.check b) leftovers1 ()
  foldProg (fun _ b => AllocatedBit.check b) leftovers2 ()
  foldProg (fun _ b => AllocatedBit.check b) deferred ()
  let baseCase ← AllocatedBit.alloc (orMissing self.baseCase)
  if self.params.generators.length < 2 then .panic else
  let oldPayload ← privateBits (match self.proof with
    | some proof => bytesBits proof.payload
    | none => self.inner.basePayload)
  foldProg (fun _ e => basePayloadIs one baseCase e) (self.inner.basePayload.zip oldPayload) ()
  let oldLeftovers1 ← privateBits (bitsOr
    (self.proof.map fun proof => @Leftovers.toBytes _ _ _ _ _ _ ops2 proof.oldproof1) (leftoversBits k))
  let oldDeferred ← privateBits (bytesBits (← oldDeferredBytes self))
  if oldDeferred.length ≠ deferred.length then .panic else
  let kc ← kCommitment E2 one self.params.generators (oldPayload ++ oldLeftovers1 ++ leftovers1 ++ oldDeferred)
  verifyDeferred one k oldDeferred
  verifyProof E2 one self baseCase kc oldLeftovers1 deferred leftovers2
  equalUnlessBaseCase one baseCase (← slice deferred (256 * 8) (256 * 8 + 128 * k))
    (← slice oldLeftovers1 (256 * 4 + 128) oldLeftovers1.length)
  equalUnlessBaseCase one baseCase (← slice deferred (128 * 1) (128 * 2))
    (← slice oldLeftovers1 (256 * 2) (256 * 2 + 128))
  self.inner.synthesize one oldPayload payloadBits

end Recursion
end Halo
