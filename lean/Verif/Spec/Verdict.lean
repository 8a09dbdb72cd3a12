import Verif.Spec.Soundness
/-!
# Specification: what it takes for the verifier to return
-/
namespace Halo
namespace Proofs
variable {T F C S : Type}

/-- A proof for `2^k` generators: `k` rounds, and in each of them two points and two scalars for each of the five claims;
at the end one scalar for each claim. -/
structure Proof.WellFormed (k : ℕ) (π : Proof C S) : Prop where
  rounds : π.innerProduct.rounds.length = k
  entries : ∀ r ∈ π.innerProduct.rounds, 5 ≤ r.L.length ∧ 5 ≤ r.R.length ∧ 5 ≤ r.l.length ∧ 5 ≤ r.r.length
  last : 5 ≤ π.innerProduct.a.length

section
variable [Field F] [FieldApi F] [Field S] [DecidableEq S] [FieldApi S] [CurveOps C F S] (tr : Transcript T F)

/-- The transcript, fed with the messages of the rounds, yields their challenges: each time one of the first 256
attempts is a square. -/
inductive Draws (m : ℕ) : List (InnerProductRound C S) → T → Prop
  | nil (t : T) : Draws m [] t
  | cons {r : InnerProductRound C S} {rounds es t ch t'} (hes : r.entries m = some es)
      (h : squareChallenge S tr 256 (appendRound tr es t) = some (ch, t')) (hrest : Draws m rounds t') :
      Draws m (r :: rounds) t

/-- The transcript, fed with the messages of the proof, yields all of its challenges. `K` is the commitment to the
public inputs, `ky` their polynomial and `us` the square roots of the old challenges. -/
def Proof.Draws (π : Proof C S) (K : C) (ky : List S) (us : List S) : Prop :=
  ∃ (y x yNew z : S) (t1 t2 t3 t4 : T),
    getChallenge S tr (appendPoint tr π.rCommitment (appendPoint tr K tr.new)) = some (y, t1) ∧
    getChallenge S tr (appendPoint tr π.tNegativeCommitment (appendPoint tr π.tPositiveCommitment
      (appendPoint tr π.sCurCommitment t1))) = some (x, t2) ∧
    getChallenge S tr (appendPoint tr π.cCommitment t2) = some (yNew, t3) ∧
    getChallenge S tr ([combine (y ^ ·) 0 ky, π.rxOpening, π.rxyOpening, π.sxOldOpening, π.sxCurOpening,
      π.txPositiveOpening, π.txNegativeOpening, π.sxNewOpening, collapse us (x ^ ·)].foldl
        (fun t s => appendScalar C tr s t) (appendPoint tr π.sNewCommitment t3)) = some (z, t4) ∧
    Proofs.Draws tr 5 π.innerProduct.rounds t4
end

end Proofs
end Halo
