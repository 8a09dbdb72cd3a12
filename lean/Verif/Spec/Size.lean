import Verif.Model.Recursion.Proof
/-!
# What a proof consists of (C88)

All points and all scalars that somebody who sends a proof has to send. Nothing here is computed by the code.
-/
namespace Halo
namespace Proofs
variable {C S : Type}

/-- The points of an opening proof (`src/proofs.rs:1242-1256`) -/
def MultiPolynomialOpening.points (o : MultiPolynomialOpening C S) : List C :=
  o.rounds.flatMap (fun r => r.L ++ r.R) ++ [o.g]

/-- The scalars of an opening proof (`src/proofs.rs:1242-1256`) -/
def MultiPolynomialOpening.scalars (o : MultiPolynomialOpening C S) : List S :=
  o.rounds.flatMap (fun r => r.l ++ r.r) ++ o.a

/-- The points of a proof (`src/proofs.rs:315-335`) -/
def Proof.points (π : Proof C S) : List C :=
  [π.rCommitment, π.sCurCommitment, π.tPositiveCommitment, π.tNegativeCommitment, π.cCommitment, π.sNewCommitment] ++
    π.innerProduct.points

/-- The scalars of a proof (`src/proofs.rs:315-335`) -/
def Proof.scalars (π : Proof C S) : List S :=
  [π.rxOpening, π.rxyOpening, π.sxOldOpening, π.sxCurOpening, π.txPositiveOpening, π.txNegativeOpening, π.sxNewOpening] ++
    π.innerProduct.scalars

/-- The points of leftovers -/
def Leftovers.points (l : Leftovers C S) : List C := [l.sNewCommitment, l.gNew]

/-- The scalars of leftovers -/
def Leftovers.scalars (l : Leftovers C S) : List S := l.yNew :: l.challengesSqPackedNew

/-- The scalars of a deferred record, which has no points -/
def Deferred.scalars (d : Deferred S) : List S :=
  [d.x, d.yOld, d.yCur, d.yNew, d.kyOpening, d.txPositiveOpening, d.txNegativeOpening, d.sxCurOpening, d.rxOpening,
    d.rxyOpening] ++ d.challengesSqPackedOld ++ [d.gxOldOpening] ++ d.challengesSqPackedNew ++
  [d.bX, d.bXy, d.bYOld, d.bYCur, d.bYNew]

end Proofs

namespace Recursion
open Proofs
variable {B S : Type}

/-- How large a recursive proof is (`src/recursion.rs:8-15`): the numbers of points and scalars of its own curve, of
points and scalars of the other curve, and of bytes of the payload -/
structure Size where
  points : ℕ
  scalars : ℕ
  otherPoints : ℕ
  otherScalars : ℕ
  bytes : ℕ
deriving DecidableEq

def RecursiveProof.size (p : RecursiveProof B S) : Size where
  points := p.proof.points.length + p.oldproof1.points.length
  scalars := p.proof.scalars.length + p.oldproof1.scalars.length
  otherPoints := p.oldproof2.points.length
  otherScalars := p.oldproof2.scalars.length + p.deferred.scalars.length
  bytes := p.payload.length

end Recursion
end Halo
