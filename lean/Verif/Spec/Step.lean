import Verif.Spec.Gadget
import Verif.Spec.Gadget.Bits
import Verif.Model.Recursion.Circuit
/-!
# The steps that a user's circuit allows
-/
namespace Halo
namespace Recursion
open Circuit
open Circuit.Sha256 (foldProg)
variable {F : Type} [Field F]

/-- The part of the verification circuit (`src/recursion.rs:1408-1719`) that has to do with payloads: the new
payload is public, the old one is private, and the user's circuit relates them. -/
def stepCircuit (inner : RecursiveCircuit F) (old new : List Bool) (one : Var) : Prog F (List AllocatedBit) := do
  let newBits ← inputBits new
  foldProg (fun _ b => AllocatedBit.check b) newBits ()
  let oldBits ← privateBits old
  inner.synthesize one oldBits newBits
  return oldBits

/-- The constraints that the verifier derives from a user's circuit and the new payload, for which it needs no
old payload, have a solution in which the public inputs are the new payload and the private bits for the old
payload are `old`. -/
def Allows (inner : RecursiveCircuit F) (old new : List Bool) : Prop :=
  ∃ bits s w, circuitSystem false (stepCircuit inner (List.replicate old.length false) new) = .ok (bits, s) ∧
    s.Satisfied w (new.map ofBool) ∧ List.Forall₂ (fun b v => b.Means w v) bits old

end Recursion
end Halo
