import Mathlib.Algebra.BigOperators.Group.Finset.Basic
/-!
# Specification of the commitment to the public inputs
-/
namespace Halo
namespace Recursion
variable {G : Type} [AddCommGroup G]

/-- The commitment, with the generators `g 0, g 1, …`, to the polynomial whose coefficients are the
constant one and then the public inputs, here bits: `g 1` and the `g (i + 2)` for the bits that are set. -/
def inputSum (g : ℕ → G) (bits : List Bool) : G :=
  g 1 + ∑ i ∈ Finset.range bits.length, if bits.getD i false then g (i + 2) else 0

/-- When the generators are added one after another, the sum so far is never the identity, and is never
the next generator or its negative. -/
def Apart (g : ℕ → G) (bits : List Bool) : Prop :=
  ∀ i < bits.length, inputSum g (bits.take i) ≠ 0 ∧ inputSum g (bits.take i) ≠ g (i + 2) ∧
    inputSum g (bits.take i) ≠ -g (i + 2)

end Recursion
end Halo
