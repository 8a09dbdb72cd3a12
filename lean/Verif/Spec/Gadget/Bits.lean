import Verif.Model.Gadget.Boolean
import Verif.Spec.Gadget
/-!
# What bit wires mean under an assignment
-/
namespace Halo
namespace Circuit
variable {F : Type} [Field F]

/-- The wire carries the bit `v`. -/
def AllocatedBit.Means (w : Var → F) (b : AllocatedBit) (v : Bool) : Prop :=
  w b.var = if v then 1 else 0

/-- The gadget value stands for the bit `v`. -/
def Boolean.Means (w : Var → F) : Boolean → Bool → Prop
  | .is b, v => b.Means w v
  | .not b, v => b.Means w !v
  | .constant c, v => c = v

/-- The wire carries the bit `v`, and the prover knows this. -/
def AllocatedBit.Honest (w : Var → F) (b : AllocatedBit) (v : Bool) : Prop :=
  b.Means w v ∧ b.value = some v

/-- The gadget value stands for the bit `v`, and the prover knows this. -/
def Boolean.Honest (w : Var → F) : Boolean → Bool → Prop
  | .is b, v => b.Honest w v
  | .not b, v => b.Honest w !v
  | .constant c, v => c = v

end Circuit
end Halo
