import Mathlib.Data.List.Basic
import Mathlib.Logic.Function.Iterate
/-!
# Specification of a duplex sponge with rate twelve

Over an abstract block function `dup state block` (add a block of at most twelve elements to the
state, permute) and an abstract read-out `out state i`.
-/
namespace Halo
namespace SpongeSpec
variable {F St : Type} (dup : St → List F → St) (out : St → ℕ → F)

/-- Absorb a message in blocks of twelve; the last block may be shorter, and is empty only for
the empty message. -/
def absorbAll (s : St) (xs : List F) : St :=
  if xs.length ≤ 12 then dup s xs else absorbAll (dup s (xs.take 12)) (xs.drop 12)
termination_by xs.length
decreasing_by simp; omega

/-- The stream of outputs read from a freshly permuted state: twelve elements, then permute with
an empty block, and so on. -/
def stream (s : St) (j : ℕ) : F := out ((fun s => dup s [])^[j / 12] s) (j % 12)

/-- The outputs of a history made of phases; phase `(xs, n)` absorbs the elements `xs` and then
squeezes `n + 1` elements. -/
def phases (s : St) : List (List F × ℕ) → List F
  | [] => []
  | (xs, n) :: rest =>
    let s := absorbAll dup s xs
    (List.range (n + 1)).map (stream dup out s) ++ phases ((fun s => dup s [])^[n / 12] s) rest

end SpongeSpec
end Halo
