import Verif.Spec.Step
import Verif.Spec.Recursion
/-!
# What the verification circuit attests to
-/
namespace Halo
namespace Recursion
open Circuit
variable {F : Type} [Field F]

/-- In every assignment that satisfies the constraints of the user's circuit, the two payloads are in the
relation `R`. -/
def Demands (inner : RecursiveCircuit F) (R : List Bool → List Bool → Prop) : Prop :=
  ∀ (w : Var → F) (one : Var), w one = 1 → ∀ (oldBits newBits : List AllocatedBit) (old new : List Bool),
    List.Forall₂ (fun b v => b.Means w v) oldBits old → List.Forall₂ (fun b v => b.Means w v) newBits new →
    Sound w (inner.synthesize one oldBits newBits) fun _ => R old new

/-- `n` bits from position `i` on -/
def part (l : List Bool) (i n : ℕ) : List Bool := (l.drop i).take n

/-- The bits that the circuit takes for a challenge when `v` is squeezed from the transcript: the lowest 127 bits
of some number of 256 bits that is `v` in the field, and a one. (The number need not be less than the modulus,
so there may be several.) -/
def IsChallenge (v : F) (bits : List Bool) : Prop :=
  ∃ n : List Bool, n.length = 256 ∧ (bitsValue n : F) = v ∧ bits = n.take 127 ++ [true]

/-- The challenges belong to what was absorbed before them; the transcript then is `T'`. -/
def Challenged [FieldApi F] (T : Rescue F) : List (List F × List Bool) → Rescue F → Prop
  | [], T' => T' = T
  | (absorbed, challenge) :: rest, T' => ∃ v T'', Rescue.squeeze (absorbed.foldl (fun T x => Rescue.absorb x T) T) =
      some (v, T'') ∧ IsChallenge v challenge ∧ Challenged T'' rest T'

/-- The coordinates of points one after the other -/
def flat (points : List (F × F)) : List F := points.flatMap fun p => [p.1, p.2]

/-- The prover's messages in the proof of the previous step: pairs of coordinates. `openings` are the points for
the openings, a round has the points for its entries and the fork value. -/
structure Messages (F : Type) where
  k : F × F
  r : F × F
  sCur : F × F
  tPositive : F × F
  tNegative : F × F
  c : F × F
  sNew : F × F
  openings : List (F × F)
  rounds : List (List (F × F) × F)

/-- The challenges of the previous step -/
structure ChallengeBits where
  yCur : List Bool
  x : List Bool
  yNew : List Bool
  z : List Bool
  rounds : List (List Bool)

/-- The challenges are those of the transcript of the messages. -/
def Transcribed [FieldApi F] (m : Messages F) (c : ChallengeBits) : Prop :=
  m.openings.length = 9 ∧ (∀ r ∈ m.rounds, r.1.length = 20) ∧ m.rounds.length = c.rounds.length ∧
  ∃ T, Challenged Rescue.new ([(flat [m.k, m.r], c.yCur), (flat [m.sCur, m.tPositive, m.tNegative], c.x),
    (flat [m.c], c.yNew), (flat (m.sNew :: m.openings), c.z)] ++
    (m.rounds.map fun r => flat r.1 ++ [r.2]).zip c.rounds) T

/-- The coordinates of a point are encoded by 512 bits from position `i` on. -/
def IsPoint (l : List Bool) (i : ℕ) (p : F × F) : Prop :=
  (bitsValue (part l i 256) : F) = p.1 ∧ (bitsValue (part l (i + 256) 256) : F) = p.2

/-- What is known of the previous step, unless this is the base case: `oldLeftovers` are the leftovers of the
same curve that the proof of the previous step used, `leftovers` those that it left, `deferred` is its deferred
record. Leftovers are encoded as a point, a number, a point, and the challenges. -/
structure Previous [FieldApi F] (k : ℕ) (oldLeftovers leftovers deferred : List Bool) (m : Messages F)
    (c : ChallengeBits) (gNew : F × F) : Prop where
  transcribed : Transcribed m c
  rounds : c.rounds.length = k
  sNew : IsPoint leftovers 0 m.sNew
  yNew : part leftovers 512 128 = c.yNew
  gNew : IsPoint leftovers 640 gNew
  us : ∀ (i : ℕ) u, c.rounds[i]? = some u → part leftovers (1152 + 128 * i) 128 = u ∧
    part deferred (2304 + 128 * k + 128 * i) 128 = u
  deferredX : part deferred 0 128 = c.x
  deferredYCur : part deferred 256 128 = c.yCur
  deferredYNew : part deferred 384 128 = c.yNew
  deferredYOld : part deferred 128 128 = part oldLeftovers 512 128
  deferredUs : part deferred 2048 (128 * k) = part oldLeftovers 1152 (128 * k)

variable (F) in
/-- What a verification circuit with the public inputs `new`, (leftovers of the other curve,) `leftovers` and
`deferred` says. `R` is what the user's circuit demands of the payloads. -/
structure LastStep [FieldApi F] (basePayload : List Bool) (k : ℕ) (R : List Bool → List Bool → Prop)
    (new leftovers deferred : List Bool) (base : Bool) (old oldLeftovers oldDeferred : List Bool) : Prop where
  step : R old new
  baseCase : base = true → old = basePayload
  oldLength : old.length = basePayload.length
  oldLeftoversLength : oldLeftovers.length = leftoversBits k
  oldDeferredLength : oldDeferred.length = deferredSize k
  wellFormed : Proofs.WellFormedDeferred k (deferredOf k oldDeferred : Proofs.Deferred F)
  deferredTrue : TrueUpToSigns k (deferredOf k oldDeferred : Proofs.Deferred F)
  previous : base = false → ∃ (m : Messages F) (c : ChallengeBits) (gNew : F × F),
    Previous k oldLeftovers leftovers deferred m c gNew

end Recursion
end Halo
