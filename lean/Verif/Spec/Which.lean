import Verif.Spec.Proofs
/-!
# Specification: which circuit a proof is for
-/
namespace Halo
namespace Proofs
open Circuit
variable {S G : Type} [Field S] [AddCommGroup G] [Module S G]

/-- Some linear constraint of the one list is not the same as in the other: for some values of the variables, the two
linear combinations have different values. (A constraint that is missing counts as zero.) -/
def Differ (lcs lcs' : List (LC S)) : Prop :=
  ∃ q w, (lcs.getD q LC.zero).eval w ≠ (lcs'.getD q LC.zero).eval w

/-- One of these two vectors is not zero, but its commitment is; or they are different vectors, with the same
commitment. -/
def Collide (g : ℕ → G) (v v' : List S) : Prop :=
  (combine g 0 v = 0 ∧ ∃ c ∈ v, c ≠ 0) ∨ (combine g 0 v' = 0 ∧ ∃ c ∈ v', c ≠ 0) ∨
    (combine g 0 v = combine g 0 v' ∧ v ≠ v')

end Proofs
end Halo
