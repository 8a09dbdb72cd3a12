import Verif.Spec.Proofs
import Verif.Spec.Gadget.Nums
/-!
# Specification of the recursion
-/
namespace Halo
namespace Recursion
open Circuit Proofs
variable {F : Type} [Field F]

/-- The number with the `len` bits at `start` -/
def bitsAt (vs : List Bool) (start len : ℕ) : F := (bitsValue ((vs.drop start).take len) : F)

/-- The deferred record that is encoded by these bits, for `k` challenges: four numbers of 16 bytes, six
of 32, `k` packed challenges of 16, a number of 32, `k` packed challenges and five numbers of 32. -/
def deferredOf (k : ℕ) (vs : List Bool) : Deferred F where
  x := bitsAt vs 0 128
  yOld := bitsAt vs 128 128
  yCur := bitsAt vs 256 128
  yNew := bitsAt vs 384 128
  kyOpening := bitsAt vs 512 256
  txPositiveOpening := bitsAt vs 768 256
  txNegativeOpening := bitsAt vs 1024 256
  sxCurOpening := bitsAt vs 1280 256
  rxOpening := bitsAt vs 1536 256
  rxyOpening := bitsAt vs 1792 256
  challengesSqPackedOld := (List.range k).map fun i => bitsAt vs (2048 + 128 * i) 128
  gxOldOpening := bitsAt vs (2048 + 128 * k) 256
  challengesSqPackedNew := (List.range k).map fun i => bitsAt vs (2304 + 128 * k + 128 * i) 128
  bX := bitsAt vs (2304 + 256 * k) 256
  bXy := bitsAt vs (2560 + 256 * k) 256
  bYOld := bitsAt vs (2816 + 256 * k) 256
  bYCur := bitsAt vs (3072 + 256 * k) 256
  bYNew := bitsAt vs (3328 + 256 * k) 256

/-- The number of bits of such a record -/
def deferredSize (k : ℕ) : ℕ := 3584 + 256 * k

/-- The claims of a deferred record are true up to the sign of `gx`, and up to a common sign of the
`b`s. -/
def TrueUpToSigns [FieldApi F] (k : ℕ) (d : Deferred F) : Prop :=
  ∃ σ τ : F, (σ = 1 ∨ σ = -1) ∧ (τ = 1 ∨ τ = -1) ∧
    TrueDeferred k { d with
      gxOldOpening := σ * d.gxOldOpening
      bX := τ * d.bX, bXy := τ * d.bXy, bYOld := τ * d.bYOld, bYCur := τ * d.bYCur
      bYNew := τ * d.bYNew }

end Recursion
end Halo
