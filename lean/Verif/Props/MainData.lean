import Verif.Model.Example.Main
import Verif.Spec.Bitcoin
/-!
# The blocks in `examples/bitcoin.rs` (C77)
-/
namespace Halo
namespace Example
open Circuit Recursion

instance (old new : List Bool) : Decidable (Bitcoin.Extends old new) :=
  decidable_of_iff (Bitcoin.height new = Bitcoin.height old + 1 ∧ Bitcoin.prevHash new = Bitcoin.hash (Bitcoin.header old) ∧
    Bitcoin.negative new = false ∧ Bitcoin.chainWork new = Bitcoin.chainWork old + Bitcoin.blockWork (Bitcoin.target new))
    ⟨fun ⟨h1, h2, h3, h4⟩ => ⟨h1, h2, h3, h4⟩, fun ⟨h1, h2, h3, h4⟩ => ⟨h1, h2, h3, h4⟩⟩

/-- **C77**: each of the ten blocks that are written down in `examples/bitcoin.rs` extends the one before, with the work that
is written down; the first of them extends the genesis block. -/
theorem C77_blocks : List.IsChain Bitcoin.Extends
    (packPayloadBits 0 genesisChainWork genesisHeader :: bitcoinInputs.map bytesBits) := by
  decide +kernel

/-- What the blocks of the example satisfy, apart from extending each other -/
def Regular (p : List (BitVec 8)) : Prop :=
  8 * p.length = Bitcoin.payloadBits ∧ Bitcoin.Fine (bytesBits p) ∧ Bitcoin.size (bytesBits p) < 32 ∧
    Bitcoin.Mirrored (bytesBits p)

instance (p : List Bool) : Decidable (Bitcoin.Fine p) :=
  decidable_of_iff (4 ≤ Bitcoin.size p ∧ Bitcoin.size p ≤ 32 ∧ Bitcoin.mantissa p ≠ 0)
    ⟨fun ⟨h1, h2, h3⟩ => ⟨h1, h2, h3⟩, fun ⟨h1, h2, h3⟩ => ⟨h1, h2, h3⟩⟩

instance (p : List Bool) : Decidable (Bitcoin.Mirrored p) := by
  unfold Bitcoin.Mirrored
  infer_instance

instance (p : List (BitVec 8)) : Decidable (Regular p) := by
  unfold Regular
  infer_instance

theorem inputs_regular : ∀ p ∈ bitcoinInputs, Regular p := by
  decide +kernel

end Example
end Halo
