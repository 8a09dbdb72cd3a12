import Mathlib.Algebra.Polynomial.Basic
/-!
# Polynomials given by coefficient lists
-/
namespace Halo
open Polynomial

/-- the polynomial `Σ l[i] X^i` -/
noncomputable def listPoly {F : Type} [Semiring F] (l : List F) : F[X] :=
  ∑ i ∈ Finset.range l.length, C (l.getD i 0) * X ^ i

end Halo
