import Verif.Spec.Gadget.Nums
import Verif.Model.Gadget.Ecc
/-!
# Which numbers `multiply_fast` can multiply points by
-/
namespace Halo
namespace Circuit

/-- For a group of order `r` and little-endian bits: none of the numbers `a` that remain when some of the low bits, but
not all bits, are removed is `0`, `-1` or `-1/2` modulo `r`. -/
def Regular (r : ℕ) (vs : List Bool) : Prop := ∀ i, 0 < i → i < vs.length →
  ¬ r ∣ bitsValue (vs.drop i) ∧ ¬ r ∣ bitsValue (vs.drop i) + 1 ∧ ¬ r ∣ 2 * bitsValue (vs.drop i) + 1

variable {F : Type} [Field F] [DecidableEq F] [FieldApi F]

/-- The circuit that witnesses a point, allocates bits, and multiplies the point by them -/
def fastCircuit (E : CurveConsts) (p : Proj F) (vs : List Bool) (one : Var) : Prog F (CurvePoint F) := do
  let P ← CurvePoint.witness E one (.ok p)
  let bits ← mapProg (fun v => AllocatedBit.alloc (.ok v)) vs
  CurvePoint.multiplyFast one P bits

/-- The same with division -/
def divideCircuit (E : CurveConsts) (S : Type) [Field S] [FieldApi S] (p : Proj F) (vs : List Bool) (one : Var) :
    Prog F (CurvePoint F) := do
  let P ← CurvePoint.witness E one (.ok p)
  let bits ← mapProg (fun v => AllocatedBit.alloc (.ok v)) vs
  CurvePoint.multiplyInvFast E S one P bits

end Circuit
end Halo
