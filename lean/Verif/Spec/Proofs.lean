import Verif.Model.Proofs.Proof
import Verif.Spec.Collapse
import Verif.Spec.System
import Mathlib.Algebra.BigOperators.Group.Finset.Basic
/-!
# Specification of commitments, openings and leftovers

Group elements are those of a module `G` over the scalar field; `rep p a` says that the point `p` of
the code stands for the group element `a` (for the two curves this is `Denotes`).
-/
namespace Halo
namespace Proofs
open Circuit
variable {C F S G : Type} [Field S] [AddCommGroup G] [Module S G]

/-- The position of the first coefficient of a vector: vectors are aligned with the left or the right
end of the `d` generators. -/
def offset (d : ℕ) (rightEdge : Bool) (v : List S) : ℕ := if rightEdge then d - v.length else 0

/-- The sum of the `g (i + offset)` with the coefficients `v i`. For generators `g` it is the Pedersen
commitment to `v`; for the powers of a point, the value of the polynomial `X^offset · v(X)`. -/
def combine (g : ℕ → G) (offset : ℕ) (v : List S) : G :=
  ∑ i ∈ Finset.range v.length, v.getD i 0 • g (i + offset)

/-- A claim about an opening of a polynomial is true: it is short enough, the commitment is a
commitment to it, and the opening is its value at the point. -/
structure ValidClaim (rep : C → G → Prop) (g : ℕ → G) (k : ℕ) (claim : PolynomialOpening C S)
    (v : List S) : Prop where
  size : v.length ≤ 2 ^ k
  commitment : rep claim.commitment (combine g (offset (2 ^ k) claim.rightEdge v) v)
  opening : claim.opening = combine (claim.point ^ ·) (offset (2 ^ k) claim.rightEdge v) v

/-- The generators are `2^k` points that stand for `g 0, g 1, …`, and the sizes are as set by
`Params::new`. The bound on `k` is what the two-adicity of the fields allows. -/
structure ValidParams (rep : C → G → Prop) (g : ℕ → G) (params : Params C) : Prop where
  k_gt : 3 < params.k
  k_le : params.k ≤ 30
  d_eq : params.d = 2 ^ params.k
  n_eq : params.n = 2 ^ (params.k - 2)
  length : params.generators.length = 2 ^ params.k
  gens : ∀ i, (h : i < params.generators.length) → rep params.generators[i] (g i)

/-- `us` are the square roots, computed by the code, of the scalars of the packed challenges. -/
def Roots [FieldApi S] (packed us : List S) : Prop :=
  List.Forall₂ (fun p u => FieldApi.sqrt (Util.getChallengeScalar p : S) = some u) packed us

/-- Leftovers are correct for a circuit: the commitment is to the vector of `s(X, y)` (what
`compute_sx` returns, see C30) and the generator is the folded generator. -/
structure ValidLeftovers [FieldApi S] {α : Type} (rep : C → G → Prop) (g : ℕ → G) (params : Params C)
    (circuit : Var → Prog S α) (lo : Leftovers C S) : Prop where
  s : ∃ sx, computeSx params.n circuit lo.yNew = .ok sx ∧ rep lo.sNewCommitment (combine g 0 sx)
  len : lo.challengesSqPackedNew.length = params.k
  g : ∃ us, Roots lo.challengesSqPackedNew us ∧ rep lo.gNew (collapse us g)

/-- Run with or without values, the circuit asks for these numbers of gates, these linear constraints,
and exposes its public inputs by the constraints with these numbers; the constraints only mention
variables that exist. -/
def HasShape {α : Type} (known : Bool) (circuit : Var → Prog S α) (gates : ℕ) (lcs : List (LC S))
    (positions : List ℕ) : Prop :=
  ∃ a s, circuitSystem known circuit = .ok (a, s) ∧ s.gates = gates ∧ s.lcs = lcs ∧
    (s.inputs.map fun p => p.1) = positions ∧ s.wellScoped = true

/-- The deferred relation between the openings, for `n` multiplication gates: with `x`, `y = yCur`,
`t(x) = r(x)·(r(xy) + s'(x, y))`, where `r(x) = rx·x^(1-3n)`, `r(xy) = rxy·(xy)^(1-3n)`,
`s'(x, y) = y^n·s·x^(-n) - x^n·∑_{i=1}^{n} ((xy)^i + (x/y)^i)`, and
`t(x) = t⁺·x + k(y)·y^n + t⁻·x^(-4n)`. -/
def DeferredRelation (n : ℕ) (d : Deferred S) : Prop :=
  d.rxOpening * d.x⁻¹ ^ (3 * n - 1) *
    (d.rxyOpening * (d.x * d.yCur)⁻¹ ^ (3 * n - 1) +
      (d.yCur ^ n * d.sxCurOpening * d.x⁻¹ ^ n - d.x ^ n *
        ∑ i ∈ Finset.range n, ((d.x * d.yCur) ^ (i + 1) + (d.x * d.yCur⁻¹) ^ (i + 1)))) =
    d.txPositiveOpening * d.x + d.kyOpening * d.yCur ^ n + d.txNegativeOpening * d.x⁻¹ ^ (4 * n)

/-- A deferred record makes sense: its challenges have square roots and no divisor is zero. -/
structure WellFormedDeferred [FieldApi S] (k : ℕ) (d : Deferred S) : Prop where
  k_ge : 2 ≤ k
  x_ne : d.x ≠ 0
  y_ne : d.yCur ≠ 0
  old_ne : d.challengesSqPackedOld ≠ []
  new_ne : d.challengesSqPackedNew ≠ []
  old_sq : ∀ p ∈ d.challengesSqPackedOld, IsSquare (Util.getChallengeScalar p : S)
  new_sq : ∀ p ∈ d.challengesSqPackedNew, IsSquare (Util.getChallengeScalar p : S)

/-- The claims of a deferred record are true: the relation holds, `gx` is the opening of the old
folding vector at `x`, and the `b`s are those of the new one. -/
structure TrueDeferred [FieldApi S] (k : ℕ) (d : Deferred S) : Prop where
  relation : DeferredRelation (2 ^ (k - 2)) d
  old : ∃ us, Roots d.challengesSqPackedOld us ∧ d.gxOldOpening = collapse us (d.x ^ ·)
  new : ∃ us, Roots d.challengesSqPackedNew us ∧ d.bX = collapse us (d.x ^ ·) ∧
    d.bXy = collapse us ((d.x * d.yCur) ^ ·) ∧ d.bYOld = collapse us (d.yOld ^ ·) ∧
    d.bYCur = collapse us (d.yCur ^ ·) ∧ d.bYNew = collapse us (d.yNew ^ ·)

end Proofs
end Halo
