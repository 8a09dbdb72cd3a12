import Verif.Spec.Gadget
import Mathlib.Algebra.BigOperators.Group.Finset.Basic
/-!
# Specification: what the prover checks of its own values
-/
namespace Halo
namespace Circuit
variable {F : Type} [Field F]

/-- All that the values of a system violate, in one number: gate `i` weighs `y^i + y^(-i)`, and linear constraint `q` weighs
`y^(n+q)`. The public inputs are those of the values. -/
def System.violation (s : System F) (n : ℕ) (y : F) : F :=
  ∑ i ∈ Finset.range s.gates, (s.w (.A (i + 1)) * s.w (.B (i + 1)) - s.w (.C (i + 1))) * (y ^ (i + 1) + (y ^ (i + 1))⁻¹) +
    y ^ n * ∑ q ∈ Finset.range s.lcs.length, y ^ (q + 1) *
      ((s.lcs.getD q LC.zero).eval s.w - rhs ((s.inputs.map fun p => p.1).zip (1 :: s.publicInputs)) (q + 1))

/-- The values as the vector that the prover commits to, for `n` gates: the last wires in reverse, the middle ones in reverse,
zero, and the first ones -/
def System.values (s : System F) (n : ℕ) : List F :=
  ((List.range n).map fun i => s.w (.C (i + 1))).reverse ++ ((List.range n).map fun i => s.w (.B (i + 1))).reverse ++ [0] ++
    (List.range n).map fun i => s.w (.A (i + 1))

end Circuit
end Halo
