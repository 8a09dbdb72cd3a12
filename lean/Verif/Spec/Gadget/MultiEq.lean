import Verif.Spec.Gadget
/-!
# Specification: values of a bounded size
-/
namespace Halo
namespace Circuit
variable {F : Type} [Field F]

/-- The value of the linear combination is an integer below `2^n`. -/
def FitsIn (w : Var → F) (n : ℕ) (lc : LC F) : Prop := ∃ v : ℕ, v < 2 ^ n ∧ lc.eval w = v

end Circuit
end Halo
