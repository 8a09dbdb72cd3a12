import Verif.Spec.Proofs
import Mathlib.Algebra.BigOperators.Fin
/-!
# Specification of the extractor of the inner product argument

An extractor runs a prover and rewinds it: at every round it answers the same message with three
challenges. What it gets is a tree of messages and challenges.
-/
namespace Halo
namespace Proofs
variable {C F S G : Type}

/-- What an extractor sees: the last message (the scalars `a`, one per instance, and the generator), or
a message, three challenges and what follows each of them. -/
inductive Tree (C S : Type) : ℕ → Type
  | leaf (a : List S) (g : C) : Tree C S 0
  | node {k : ℕ} (round : InnerProductRound C S) (u : Fin 3 → S) (next : Fin 3 → Tree C S k) :
    Tree C S (k + 1)

/-- A path from the root to a leaf: the messages, the challenges and the last message. -/
inductive Branch : {k : ℕ} → Tree C S k → List (InnerProductRound C S) → List S → List S → C → Prop
  | leaf (a : List S) (g : C) : Branch (.leaf a g) [] [] a g
  | node {k : ℕ} {round : InnerProductRound C S} {u : Fin 3 → S} {next : Fin 3 → Tree C S k}
    (i : Fin 3) {rounds us a g} (h : Branch (next i) rounds us a g) :
    Branch (.node round u next) (round :: rounds) (u i :: us) a g

/-- The squares of the three challenges of every message differ. -/
def Tree.Distinct [Field S] : {k : ℕ} → Tree C S k → Prop
  | _, .leaf _ _ => True
  | _, .node _ u next => (∀ i j, i ≠ j → u i ^ 2 ≠ u j ^ 2) ∧ ∀ i, (next i).Distinct

/-- Coefficients `ν` with `∑ ν = 1`, `∑ ν s = 0` and `∑ ν s⁻¹ = 0` for three different numbers `s`. -/
def nu [Field S] (s : Fin 3 → S) (i : Fin 3) : S :=
  -(s i * (s (i + 1) + s (i + 2))) / ((s i - s (i + 1)) * (s i - s (i + 2)))

/-- The coefficients of the polynomial that the extractor computes for instance `j`. -/
def Tree.coeff [Field S] (j : ℕ) : {k : ℕ} → Tree C S k → ℕ → S
  | _, .leaf a _, _ => a.getD j 0
  | _, .node (k := k) _ u next, m =>
    if m < 2 ^ k then ∑ i, nu (fun i => u i ^ 2) i * (u i)⁻¹ * (next i).coeff j m
    else ∑ i, nu (fun i => u i ^ 2) i * u i * (next i).coeff j (m - 2 ^ k)

/-- The polynomial that the extractor computes for instance `j`, from scalars of the tree alone. -/
def Tree.extract [Field S] (j : ℕ) {k : ℕ} (tree : Tree C S k) : List S :=
  (List.range (2 ^ k)).map (tree.coeff j)

/-- The verifier accepts the branch, for some transcript in which the challenges are `us`, and so does
the check that is left over. -/
def Accepted [Field F] [FieldApi F] [Field S] [DecidableEq S] [FieldApi S] [CurveOps C F S]
    [AddCommGroup G] [Module S G] (rep : C → G → Prop) (g : ℕ → G)
    (instances : List (PolynomialOpening C S)) (k : ℕ) (rounds : List (InnerProductRound C S))
    (us a : List S) (gNew : C) : Prop :=
  ∃ (T : Type) (tr : Transcript T F) (t t' : T) (packed : List S) (forks : List ℕ),
    (⟨rounds, a, gNew⟩ : MultiPolynomialOpening C S).verifyProof tr instances k t =
      some (true, packed, gNew, forks, t') ∧ Roots packed us ∧ rep gNew (collapse us g)

/-- `B` is the commitment `A` of instance `j` after the rounds: in each round `u² • L + u⁻² • R` is added
to it. The messages must be points of the curve. -/
def Folded [Field S] [AddCommGroup G] [Module S G] (rep : C → G → Prop) (j : ℕ) :
    List (InnerProductRound C S) → List S → G → G → Prop
  | round :: rounds, u :: us, A, B => ∃ pL pR L R, round.L[j]? = some pL ∧ round.R[j]? = some pR ∧
      rep pL L ∧ rep pR R ∧ Folded rep j rounds us (A + u ^ 2 • L + u⁻¹ ^ 2 • R) B
  | _, _, A, B => A = B

end Proofs
end Halo
