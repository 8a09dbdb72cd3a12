import Verif.Model.Gadget.Num
import Verif.Spec.Gadget.Bits
/-!
# What number wires mean under an assignment
-/
namespace Halo
namespace Circuit
variable {F : Type} [Field F]

/-- The number that a `Num` stands for -/
def Num.wire (w : Var → F) : Num F → F
  | .constant c => c.value
  | .allocated c n => c.value * w n.var

/-- The number that a `Combination` stands for -/
def Combination.wire (w : Var → F) (a : Combination F) : F := (a.terms.map fun t => t.wire w).sum

/-- The prover knows the value of the wire. -/
def AllocatedNum.Honest (w : Var → F) (n : AllocatedNum F) : Prop := n.value = some (w n.var)
/-- The prover knows the number. -/
def Num.Honest (w : Var → F) (n : Num F) : Prop := n.value = some (n.wire w)
/-- The prover knows the number. -/
def Combination.Honest (w : Var → F) (a : Combination F) : Prop := a.value = some (a.wire w)

/-- Combinations that are built with the operations of the interface satisfy this: when they have
only constant terms, then their value, if present, is the sum of the constants. -/
def Combination.Wf (a : Combination F) : Prop :=
  (∀ t ∈ a.terms, t.isConstant = true) → ∀ v, a.value = some v → ∀ w, v = a.wire w

/-- The number with these bits, least significant first -/
def bitsValue : List Bool → ℕ
  | [] => 0
  | b :: bs => b.toNat + 2 * bitsValue bs

end Circuit
end Halo
