import Verif.Model.Proofs.Deferred
import Verif.Model.Rescue
/-!
# `Proof` (`src/proofs.rs:315-995`)
-/
namespace Halo
namespace Proofs
open Circuit
variable {T C F S : Type}

/-- `src/proofs.rs:315-336` `Proof` -/
structure Proof (C S : Type) where
  rCommitment : C
  sCurCommitment : C
  tPositiveCommitment : C
  tNegativeCommitment : C
  cCommitment : C
  sNewCommitment : C
  rxOpening : S
  rxyOpening : S
  sxOldOpening : S
  sxCurOpening : S
  txPositiveOpening : S
  txNegativeOpening : S
  sxNewOpening : S
  innerProduct : MultiPolynomialOpening C S

/-- `*a += b` along the shorter of the two (`src/proofs.rs:662-666`) -/
def addTo [Add S] : List S → List S → List S
  | a :: as, b :: bs => (a + b) :: addTo as bs
  | as, _ => as

section
variable [Field F] [FieldApi F] [Field S] [DecidableEq S] [FieldApi S] [CurveOps C F S]
  (tr : Transcript T F) (fuel cpus : ℕ) (lnCeil : ℕ → ℕ)

/-- `src/proofs.rs:338-782` `Proof::new`. The circuit is synthesized with its values for the
assignment, and by the evaluators that have no values. -/
def Proof.new {α : Type} (params : Params C) (circuit : Var → Prog S α) (old : Leftovers C S) :
    Except Fail (Proof C S × Leftovers C S) := do
  let (_, drv) ← Basic.synthesize proverBackend ⟨0, 0, ⟨[], [], []⟩, []⟩ circuit
  let assignment := drv.backend
  if ¬ assignment.n < params.n then .error .panic
  if ¬ assignment.q < params.d then .error .panic
  let t := tr.new
  let yOld := old.yNew
  let sxOld ← computeSx params.n circuit yOld
  let (sqOld, challengesOld, challengesOldInv, allinvOld) ←
    ofOption (expandChallenges old.challengesSqPackedNew)
  let gxOld ← ofOption (Util.computeGCoeffs sqOld allinvOld)
  let gxOld := gxOld.toList
  let ky := kPoly assignment.inputs
  let kCommitment ← ofOption (params.commit cpus lnCeil ky false)
  let t := appendPoint tr kCommitment t
  let rx := rPoly params.n assignment.wires
  let rCommitment ← ofOption (params.commit cpus lnCeil rx true)
  let t := appendPoint tr rCommitment t
  let (yCur, t) ← ofOption (getChallenge S tr t)
  let yCurInv ← ofOption (FieldApi.invert yCur)
  let sxCur ← computeSx params.n circuit yCur
  let sCurCommitment ← ofOption (params.commit cpus lnCeil sxCur false)
  let t := appendPoint tr sCurCommitment t
  let rxy := rxyPoly params.n rx yCur yCurInv
  let sp := sPrime params.n sxCur yCur yCurInv
  let rp := rPrime params.n rxy sp
  let tx ← ofOption (Util.multiplyPolynomials cpus rx rp)
  if tx.length ≠ 7 * params.n + 1 then .error .panic
  let txPositive := tx.drop (4 * params.n + 1)
  let tPositiveCommitment ← ofOption (params.commit cpus lnCeil txPositive false)
  let t := appendPoint tr tPositiveCommitment t
  let txNegative := tx.take (4 * params.n)
  let tNegativeCommitment ← ofOption (params.commit cpus lnCeil txNegative false)
  if params.generators.length ≠ 4 * params.n then .error .panic
  let t := appendPoint tr tNegativeCommitment t
  let (x, t) ← ofOption (getChallenge S tr t)
  let sy ← computeSy params.n circuit x
  let sy := sy.map (· * x ^ params.n)
  let cCommitment ← ofOption (params.commit cpus lnCeil sy false)
  let t := appendPoint tr cCommitment t
  let (yNew, t) ← ofOption (getChallenge S tr t)
  let sxNew ← computeSx params.n circuit yNew
  let sNewCommitment ← ofOption (params.commit cpus lnCeil sxNew false)
  let t := appendPoint tr sNewCommitment t
  let kyOpening ← ofOption (params.computeOpening ky yCur false)
  let tx0 ← ofOption tx[4 * params.n]?
  if tx0 ≠ kyOpening * yCur ^ params.n then .error .panic
  let t := appendScalar C tr kyOpening t
  let rxOpening ← ofOption (params.computeOpening rx x true)
  let t := appendScalar C tr rxOpening t
  let rxyOpening ← ofOption (params.computeOpening rx (x * yCur) true)
  let t := appendScalar C tr rxyOpening t
  let sxOldOpening ← ofOption (params.computeOpening sxOld x false)
  let t := appendScalar C tr sxOldOpening t
  let sxCurOpening ← ofOption (params.computeOpening sxCur x false)
  let t := appendScalar C tr sxCurOpening t
  let txPositiveOpening ← ofOption (params.computeOpening txPositive x false)
  let t := appendScalar C tr txPositiveOpening t
  let txNegativeOpening ← ofOption (params.computeOpening txNegative x false)
  let t := appendScalar C tr txNegativeOpening t
  let sxNewOpening ← ofOption (params.computeOpening sxNew x false)
  let t := appendScalar C tr sxNewOpening t
  let gxOldOpening ← ofOption (params.computeOpening gxOld x false)
  let b ← ofOption (Util.computeB x challengesOld challengesOldInv)
  if gxOldOpening ≠ b then .error .panic
  let t := appendScalar C tr gxOldOpening t
  let (z, t) ← ofOption (getChallenge S tr t)
  let z : S := Util.getChallengeScalar z
  let pCommitment := rCommitment
  let pCommitment := CurveApi.add (CurveApi.mul pCommitment z) old.sNewCommitment
  let pCommitment := CurveApi.add (CurveApi.mul pCommitment z) sCurCommitment
  let pCommitment := CurveApi.add (CurveApi.mul pCommitment z) tPositiveCommitment
  let pCommitment := CurveApi.add (CurveApi.mul pCommitment z) tNegativeCommitment
  let pCommitment := CurveApi.add (CurveApi.mul pCommitment z) sNewCommitment
  let pCommitment := CurveApi.add (CurveApi.mul pCommitment z) old.gNew
  let pOpening := rxOpening
  let pOpening := pOpening * z + sxOldOpening
  let pOpening := pOpening * z + sxCurOpening
  let pOpening := pOpening * z + txPositiveOpening
  let pOpening := pOpening * z + txNegativeOpening
  let pOpening := pOpening * z + sxNewOpening
  let pOpening := pOpening * z + gxOldOpening
  if params.d < rx.length then .error .panic
  let px := List.replicate (params.d - rx.length) 0 ++ rx
  let px := addTo (px.map (· * z)) sxOld
  let px := addTo (px.map (· * z)) sxCur
  let px := addTo (px.map (· * z)) txPositive
  let px := addTo (px.map (· * z)) txNegative
  let px := addTo (px.map (· * z)) sxNew
  let px := addTo (px.map (· * z)) gxOld
  let qCommitment := CurveApi.add cCommitment (CurveApi.mul kCommitment z)
  let qyOpening := sxCurOpening + kyOpening * z
  if sy.length < ky.length then .error .panic
  let qy := addTo sy (ky.map (· * z))
  let (innerProduct, packedNew, gNew, _) ← ofOption (MultiPolynomialOpening.newProof tr fuel cpus lnCeil
    [(⟨pCommitment, pOpening, x, false⟩, px),
     (⟨rCommitment, rxyOpening, x * yCur, true⟩, rx),
     (⟨cCommitment, sxOldOpening, yOld, false⟩, sy),
     (⟨qCommitment, qyOpening, yCur, false⟩, qy),
     (⟨cCommitment, sxNewOpening, yNew, false⟩, sy)] params.generators params.k t)
  .ok ({
    rCommitment, sCurCommitment, tPositiveCommitment, tNegativeCommitment, cCommitment
    sNewCommitment, rxOpening, rxyOpening, sxOldOpening, sxCurOpening, txPositiveOpening
    txNegativeOpening, sxNewOpening, innerProduct }, ⟨sNewCommitment, yNew, gNew, packedNew⟩)

/-- `src/proofs.rs:784-995` `Proof::verify` -/
def Proof.verify {α : Type} (self : Proof C S) (leftovers : Leftovers C S) (params : Params C)
    (circuit : Var → Prog S α) (inputs : List S) (kCommitment : Option C) :
    Except Fail (Bool × Leftovers C S × Deferred S × List ℕ) := do
  let (_, drv) ← Basic.synthesize inputMapBackend [] circuit
  let inputmap := drv.backend
  if inputs.length ≠ inputmap.length - 1 then .error .panic
  let t := tr.new
  let ky := kPoly (inputmap.zip (1 :: inputs))
  let kCommitment ← match kCommitment with
    | some c => .ok c
    | none => ofOption (params.commit cpus lnCeil ky false)
  let t := appendPoint tr kCommitment t
  let t := appendPoint tr self.rCommitment t
  let (yCur, t) ← ofOption (getChallenge S tr t)
  let t := appendPoint tr self.sCurCommitment t
  let t := appendPoint tr self.tPositiveCommitment t
  let t := appendPoint tr self.tNegativeCommitment t
  let (x, t) ← ofOption (getChallenge S tr t)
  let t := appendPoint tr self.cCommitment t
  let (yNew, t) ← ofOption (getChallenge S tr t)
  let t := appendPoint tr self.sNewCommitment t
  let kyOpening ← ofOption (params.computeOpening ky yCur false)
  let t := appendScalar C tr kyOpening t
  let t := appendScalar C tr self.rxOpening t
  let t := appendScalar C tr self.rxyOpening t
  let t := appendScalar C tr self.sxOldOpening t
  let t := appendScalar C tr self.sxCurOpening t
  let t := appendScalar C tr self.txPositiveOpening t
  let t := appendScalar C tr self.txNegativeOpening t
  let t := appendScalar C tr self.sxNewOpening t
  let (_, challengesOld, challengesOldInv, _) ←
    ofOption (expandChallenges leftovers.challengesSqPackedNew)
  let gxOldOpening ← ofOption (Util.computeB x challengesOld challengesOldInv)
  let t := appendScalar C tr gxOldOpening t
  let (z, t) ← ofOption (getChallenge S tr t)
  let z : S := Util.getChallengeScalar z
  let pCommitment := self.rCommitment
  let pCommitment := CurveApi.add (CurveApi.mul pCommitment z) leftovers.sNewCommitment
  let pCommitment := CurveApi.add (CurveApi.mul pCommitment z) self.sCurCommitment
  let pCommitment := CurveApi.add (CurveApi.mul pCommitment z) self.tPositiveCommitment
  let pCommitment := CurveApi.add (CurveApi.mul pCommitment z) self.tNegativeCommitment
  let pCommitment := CurveApi.add (CurveApi.mul pCommitment z) self.sNewCommitment
  let pCommitment := CurveApi.add (CurveApi.mul pCommitment z) leftovers.gNew
  let pOpening := self.rxOpening
  let pOpening := pOpening * z + self.sxOldOpening
  let pOpening := pOpening * z + self.sxCurOpening
  let pOpening := pOpening * z + self.txPositiveOpening
  let pOpening := pOpening * z + self.txNegativeOpening
  let pOpening := pOpening * z + self.sxNewOpening
  let pOpening := pOpening * z + gxOldOpening
  let qCommitment := CurveApi.add self.cCommitment (CurveApi.mul kCommitment z)
  let qyOpening := self.sxCurOpening + kyOpening * z
  let (satisfied, packedNew, gNew, forkvalues, _) ← ofOption (self.innerProduct.verifyProof tr
    [⟨pCommitment, pOpening, x, false⟩,
     ⟨self.rCommitment, self.rxyOpening, x * yCur, true⟩,
     ⟨self.cCommitment, self.sxOldOpening, leftovers.yNew, false⟩,
     ⟨qCommitment, qyOpening, yCur, false⟩,
     ⟨self.cCommitment, self.sxNewOpening, yNew, false⟩] params.k t)
  let (_, challengesNew, challengesNewInv, _) ← ofOption (expandChallenges packedNew)
  let bX ← ofOption (Util.computeB x challengesNew challengesNewInv)
  let bXy ← ofOption (Util.computeB (x * yCur) challengesNew challengesNewInv)
  let bYOld ← ofOption (Util.computeB leftovers.yNew challengesNew challengesNewInv)
  let bYCur ← ofOption (Util.computeB yCur challengesNew challengesNewInv)
  let bYNew ← ofOption (Util.computeB yNew challengesNew challengesNewInv)
  .ok (satisfied, ⟨self.sNewCommitment, yNew, gNew, packedNew⟩, {
    x, yOld := leftovers.yNew, yCur, yNew, kyOpening
    txPositiveOpening := self.txPositiveOpening, txNegativeOpening := self.txNegativeOpening
    sxCurOpening := self.sxCurOpening, rxOpening := self.rxOpening, rxyOpening := self.rxyOpening
    challengesSqPackedOld := leftovers.challengesSqPackedNew, gxOldOpening
    challengesSqPackedNew := packedNew, bX, bXy, bYOld, bYCur, bYNew }, forkvalues)

end

/-- The transcript of the code: `src/rescue.rs` -/
def Transcript.rescue [Field F] [FieldApi F] : Transcript (Rescue F) F where
  new := Rescue.new
  absorb := Rescue.absorb
  squeeze := Rescue.squeeze

end Proofs
end Halo
