import Verif.Model.Proofs.Opening
/-!
# Specification: a prover that does not find a challenge
-/
namespace Halo
namespace Proofs
variable {T C F S : Type} [Field F] [FieldApi F] [Field S] [DecidableEq S] [FieldApi S] [CurveOps C F S]
  (tr : Transcript T F) (fuel cpus : ℕ) (lnCeil : ℕ → ℕ)

/-- The rounds of the opening argument, with `2^k` generators in the first one, come to a round in which `fuel` attempts to
find a challenge that is a square fail. (The code tries forever, the verifier gives up after 256.) -/
inductive Stuck : ℕ → List (List S × List S) → List C → T → Prop
  | here {k ab gens t es} (hes : ab.mapM (proveEntry cpus lnCeil (1 <<< k) gens) = some es)
      (h : squareChallenge S tr fuel (appendRound tr es t) = none) : Stuck (k + 1) ab gens t
  | later {k ab gens t es ch t' gens'} (hes : ab.mapM (proveEntry cpus lnCeil (1 <<< k) gens) = some es)
      (h : squareChallenge S tr fuel (appendRound tr es t) = some (ch, t'))
      (hg : Util.generatorCollapse cpus gens ch.challenge ch.challengeInv = some gens')
      (hs : Stuck k (ab.map (foldVectors (1 <<< k) ch)) (gens'.take (1 <<< k)) t') : Stuck (k + 1) ab gens t

/-- The same for the argument for some claims: the vectors are the polynomials, padded, and the powers of the points. -/
def StuckOpening (instances : List (PolynomialOpening C S × List S)) (generators : List C) (k : ℕ) (t : T) : Prop :=
  ∃ as : List (List S), List.Forall₂ (fun i a => padInstance k i.1.rightEdge i.2 = some a) instances as ∧
    Stuck tr fuel cpus lnCeil k (as.zip (instances.map fun i => pointPowers k i.1.point)) generators t

end Proofs
end Halo
