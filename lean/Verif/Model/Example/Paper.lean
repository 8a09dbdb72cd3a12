import Verif.Model.Recursion.Circuit
/-!
# The circuit of the example `examples/paper.rs`
-/
namespace Halo
namespace Example
open Circuit Recursion
variable {F : Type} [Field F] [FieldApi F]

/-- `examples/paper.rs:17-39` `MyCircuit` -/
def paper : RecursiveCircuit F where
  basePayload := [false, false, false, false, false, false, false, false]
  synthesize _ oldPayload newPayload :=
    if oldPayload.length ≠ 8 then .panic else
    if newPayload.length ≠ 8 then .panic else do
      let _ ← Prog.doMultiply (.ok (FieldApi.fromU64 10, FieldApi.fromU64 10, FieldApi.fromU64 100))
      return ()

end Example
end Halo
