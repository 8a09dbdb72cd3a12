import Verif.Spec.Proofs
import Verif.Spec.FieldApi
/-!
# Records whose challenges are 128-bit numbers
-/
namespace Halo
namespace Proofs
open LawfulField
variable {S : Type} [Field S] [LawfulField S]

/-- The challenges in the leftovers are 128-bit numbers, as are all challenges that come out of a
transcript. -/
def Leftovers.Small {C : Type} (lo : Leftovers C S) : Prop :=
  val lo.yNew < 2 ^ 128 ∧ ∀ a ∈ lo.challengesSqPackedNew, val a < 2 ^ 128

/-- The challenges in the deferred record are 128-bit numbers. -/
def Deferred.Small (d : Deferred S) : Prop :=
  (val d.x < 2 ^ 128 ∧ val d.yOld < 2 ^ 128 ∧ val d.yCur < 2 ^ 128 ∧ val d.yNew < 2 ^ 128) ∧
  (∀ a ∈ d.challengesSqPackedOld, val a < 2 ^ 128) ∧ ∀ a ∈ d.challengesSqPackedNew, val a < 2 ^ 128

end Proofs
end Halo
