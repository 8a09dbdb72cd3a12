import Verif.Spec.Acceptance
import Verif.Model.Recursion.Circuit
/-!
# Specification: proofs that differ only in what the verifiers do not look at

`pt` says which points the encodings stand for.
-/
namespace Halo
namespace Proofs
variable {C S G : Type}

/-- The lower halves of the packed challenges are the same. -/
def AlikePacked [FieldApi S] (l l' : List S) : Prop := l.map FieldApi.lower128 = l'.map FieldApi.lower128

/-- The first five entries of the messages of a round are the same. -/
structure InnerProductRound.Alike (pt : C → G) (r r' : InnerProductRound C S) : Prop where
  L : (r.L.take 5).map pt = (r'.L.take 5).map pt
  R : (r.R.take 5).map pt = (r'.R.take 5).map pt
  l : r.l.take 5 = r'.l.take 5
  r : r.r.take 5 = r'.r.take 5

/-- The points and the openings are the same, and of every list the first five entries. -/
structure Proof.Alike (pt : C → G) (π π' : Proof C S) : Prop where
  r : pt π.rCommitment = pt π'.rCommitment
  sCur : pt π.sCurCommitment = pt π'.sCurCommitment
  tPositive : pt π.tPositiveCommitment = pt π'.tPositiveCommitment
  tNegative : pt π.tNegativeCommitment = pt π'.tNegativeCommitment
  c : pt π.cCommitment = pt π'.cCommitment
  sNew : pt π.sNewCommitment = pt π'.sNewCommitment
  rx : π.rxOpening = π'.rxOpening
  rxy : π.rxyOpening = π'.rxyOpening
  sxOld : π.sxOldOpening = π'.sxOldOpening
  sxCur : π.sxCurOpening = π'.sxCurOpening
  txPositive : π.txPositiveOpening = π'.txPositiveOpening
  txNegative : π.txNegativeOpening = π'.txNegativeOpening
  sxNew : π.sxNewOpening = π'.sxNewOpening
  rounds : List.Forall₂ (InnerProductRound.Alike pt) π.innerProduct.rounds π'.innerProduct.rounds
  last : π.innerProduct.a.take 5 = π'.innerProduct.a.take 5
  g : pt π.innerProduct.g = pt π'.innerProduct.g

/-- The points, the value `y` and the lower halves of the challenges are the same. -/
structure Leftovers.Alike [FieldApi S] (pt : C → G) (lo lo' : Leftovers C S) : Prop where
  s : pt lo.sNewCommitment = pt lo'.sNewCommitment
  y : lo.yNew = lo'.yNew
  g : pt lo.gNew = pt lo'.gNew
  packed : AlikePacked lo.challengesSqPackedNew lo'.challengesSqPackedNew

/-- Everything but the upper halves of the challenges is the same. -/
structure Deferred.Alike [FieldApi S] (d d' : Deferred S) : Prop where
  rest : d' = { d with
    challengesSqPackedOld := d'.challengesSqPackedOld, challengesSqPackedNew := d'.challengesSqPackedNew }
  old : AlikePacked d.challengesSqPackedOld d'.challengesSqPackedOld
  new : AlikePacked d.challengesSqPackedNew d'.challengesSqPackedNew

end Proofs

namespace Recursion
open Proofs

/-- The parts of the recursive proofs are alike, and the payload is the same. -/
structure RecursiveProof.Alike {B S : Type} [Field B] [DecidableEq B] [FieldApi B] [Field S] [DecidableEq S] [FieldApi S]
    (E1 E2 : CurveConsts) (p p' : RecursiveProof B S) : Prop where
  proof : p.proof.Alike (pointOf E1) p'.proof
  oldproof1 : p.oldproof1.Alike (pointOf E1) p'.oldproof1
  oldproof2 : p.oldproof2.Alike (pointOf E2) p'.oldproof2
  deferred : p.deferred.Alike p'.deferred
  payload : p.payload = p'.payload

/-- The points of a recursive proof are on the curves, as they are when they have been read from bytes. -/
structure RecursiveProof.Points {B S : Type} [Field B] [DecidableEq B] [Field S] [DecidableEq S] (E1 E2 : CurveConsts)
    (p : RecursiveProof B S) : Prop where
  proof : p.proof.Points (Denotes (E1.b : B)) (pointOf E1)
  s1 : ∃ A, Denotes (E1.b : B) p.oldproof1.sNewCommitment A
  g1 : ∃ A, Denotes (E1.b : B) p.oldproof1.gNew A
  s2 : ∃ A, Denotes (E2.b : S) p.oldproof2.sNewCommitment A
  g2 : ∃ A, Denotes (E2.b : S) p.oldproof2.gNew A

end Recursion
end Halo
