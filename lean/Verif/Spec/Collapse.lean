import Mathlib.Algebra.Module.Basic
import Mathlib.Algebra.Field.Defs
/-!
# Folding a vector in half, repeatedly
-/
namespace Halo

/-- Folding a vector of length `2^k` by the challenges `u₁, …, u_k` in this order: each step replaces
`g` by `u⁻¹ • (lower half) + u • (upper half)`.  The vector is a function of the index; what it
does at indices `≥ 2^k` is irrelevant. -/
def collapse {F G : Type} [Field F] [AddCommGroup G] [Module F G] : List F → (ℕ → G) → G
  | [], g => g 0
  | u :: us, g => collapse us fun i => u⁻¹ • g i + u • g (i + 2 ^ us.length)

end Halo
