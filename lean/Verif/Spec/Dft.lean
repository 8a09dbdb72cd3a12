import Mathlib.Algebra.BigOperators.Ring.Finset
import Mathlib.Algebra.Field.Basic
/-!
# Specification of the transforms
-/
namespace Halo
open Finset

/-- Discrete Fourier transform of length `n`: the value at `ω^k` of the polynomial with
coefficients `f 0, …, f (n-1)`. -/
def dft {F : Type} [Field F] (n : ℕ) (ω : F) (f : ℕ → F) (k : ℕ) : F :=
  ∑ i ∈ range n, f i * (ω ^ k) ^ i

end Halo
