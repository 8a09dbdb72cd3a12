import Verif.Spec.Curve
import Verif.Model.Recursion.Circuit
import Mathlib.Data.List.Forall2
/-!
# Specification: results that are the same but for the encodings of points

A point has many projective encodings. `R` says which encodings stand for the same point.
-/
namespace Halo

/-- Two encodings of the same point of the curve -/
def SamePoint {F : Type} [Field F] [DecidableEq F] (b : F) (p q : Proj F) : Prop := ∃ A, Denotes b p A ∧ Denotes b q A

/-- What a machine has: at least one core, and a logarithm, for choosing the window of multiexponentiations, which is in its range. -/
structure Machine where
  cpus : ℕ
  lnCeil : ℕ → ℕ
  cpus_pos : 0 < cpus
  range : ∀ n, 32 ≤ n → n < 2 ^ 32 → 1 ≤ lnCeil n ∧ lnCeil n ≤ 57

/-- Both computations fail in the same way, or both return something, and this is related. -/
inductive SameResult {ε α β : Type} (R : α → β → Prop) : Except ε α → Except ε β → Prop
  | ok {a : α} {b : β} : R a b → SameResult R (.ok a) (.ok b)
  | error (e : ε) : SameResult R (.error e) (.error e)

namespace Proofs
variable {C S : Type}

structure InnerProductRound.Same (R : C → C → Prop) (r r' : InnerProductRound C S) : Prop where
  L : List.Forall₂ R r.L r'.L
  R : List.Forall₂ R r.R r'.R
  l : r.l = r'.l
  r : r.r = r'.r

structure MultiPolynomialOpening.Same (R : C → C → Prop) (o o' : MultiPolynomialOpening C S) : Prop where
  rounds : List.Forall₂ (InnerProductRound.Same R) o.rounds o'.rounds
  a : o.a = o'.a
  g : R o.g o'.g

structure Proof.Same (R : C → C → Prop) (π π' : Proof C S) : Prop where
  r : R π.rCommitment π'.rCommitment
  sCur : R π.sCurCommitment π'.sCurCommitment
  tPositive : R π.tPositiveCommitment π'.tPositiveCommitment
  tNegative : R π.tNegativeCommitment π'.tNegativeCommitment
  c : R π.cCommitment π'.cCommitment
  sNew : R π.sNewCommitment π'.sNewCommitment
  rx : π.rxOpening = π'.rxOpening
  rxy : π.rxyOpening = π'.rxyOpening
  sxOld : π.sxOldOpening = π'.sxOldOpening
  sxCur : π.sxCurOpening = π'.sxCurOpening
  txPositive : π.txPositiveOpening = π'.txPositiveOpening
  txNegative : π.txNegativeOpening = π'.txNegativeOpening
  sxNew : π.sxNewOpening = π'.sxNewOpening
  innerProduct : π.innerProduct.Same R π'.innerProduct

structure Leftovers.Same (R : C → C → Prop) (lo lo' : Leftovers C S) : Prop where
  s : R lo.sNewCommitment lo'.sNewCommitment
  y : lo.yNew = lo'.yNew
  g : R lo.gNew lo'.gNew
  packed : lo.challengesSqPackedNew = lo'.challengesSqPackedNew

end Proofs

namespace Recursion
open Proofs
variable {B S : Type} [Field B] [DecidableEq B] [Field S] [DecidableEq S]

structure RecursiveProof.Same (b1 : B) (b2 : S) (p p' : RecursiveProof B S) : Prop where
  proof : p.proof.Same (SamePoint b1) p'.proof
  oldproof1 : p.oldproof1.Same (SamePoint b1) p'.oldproof1
  oldproof2 : p.oldproof2.Same (SamePoint b2) p'.oldproof2
  deferred : p.deferred = p'.deferred
  payload : p.payload = p'.payload

end Recursion
end Halo
