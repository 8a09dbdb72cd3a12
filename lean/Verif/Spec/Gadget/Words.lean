import Verif.Model.Gadget.UInt
import Verif.Spec.Gadget.Nums
/-!
# What words of bit wires mean under an assignment
-/
namespace Halo
namespace Circuit
variable {F : Type} [Field F] {k : ℕ}

/-- The bits of a word, least significant first -/
def bitsOf (x : BitVec k) : List Bool := (List.range k).map fun i => x.getLsbD i

/-- The bit wires of the gadget carry the word `x`. -/
def UInt.Means (w : Var → F) (u : UInt k) (x : BitVec k) : Prop :=
  List.Forall₂ (fun b v => b.Means w v) u.bits (bitsOf x)

/-- The bit wires of the gadget carry the word `x`, and the prover knows this. -/
def UInt.Honest (w : Var → F) (u : UInt k) (x : BitVec k) : Prop :=
  List.Forall₂ (fun b v => b.Honest w v) u.bits (bitsOf x) ∧ u.value = some x

/-- A constant is equal to `v`. -/
def Boolean.Fits : Boolean → Bool → Prop
  | .constant c, v => c = v
  | _, _ => True

/-- All gadget words that the interface builds satisfy this: the value of the word, if present, has
the constant bits. -/
def UInt.Wf (u : UInt k) : Prop :=
  ∀ v, u.value = some v → List.Forall₂ Boolean.Fits u.bits (bitsOf v)

/-- A word whose constants fit its value, and that carries `x` -/
def UInt.Carries (w : Var → F) (u : UInt k) (x : BitVec k) : Prop := u.Means w x ∧ u.Wf

end Circuit
end Halo
