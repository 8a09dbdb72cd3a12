import Verif.Model.CurveApi
import Verif.Model.Eval
import Verif.Model.Util
/-!
# What `src/proofs.rs` uses of the curves and fields
-/
namespace Halo

/-- The methods of trait `Curve` (`src/curves/mod.rs:6-62`) used by `src/proofs.rs`: those of
`CurveApi`, and `one`, `==` and `get_xy`. `F` is the base field. -/
class CurveOps (C : Type) (F S : outParam Type) extends CurveApi C S where
  one : C
  ctEq : C → C → Bool
  getXy : C → Option (F × F)

/-- `impl Curve for Ec0` / `Ec1`. -/
@[instance_reducible] def Proj.curveOps (E : CurveConsts) (F S : Type) [Field F] [DecidableEq F]
    [FieldApi F] [FieldApi S] : CurveOps (Proj F) F S where
  toCurveApi := Proj.curveApi E F S
  one := Proj.one E
  ctEq := Proj.ctEq
  getXy := Proj.getXy

section batch
variable {F : Type} [Field F] [DecidableEq F] [FieldApi F]

omit [FieldApi F] in
/-- `src/fields/mod.rs:113-117`, the first loop of `batch_invert` (as `Fe.batchForward`) -/
def batchForward : List F → F → List F × F
  | [], acc => ([], acc)
  | p :: v, acc =>
    let r := batchForward v (if p = 0 then acc else acc * p)
    (acc :: r.1, r.2)

omit [FieldApi F] in
/-- `src/fields/mod.rs:122-128`, the second loop of `batch_invert` (as `Fe.batchBackward`) -/
def batchBackward : List (F × F) → F → List F
  | [], _ => []
  | (p, tmp) :: rest, acc =>
    (if p = 0 then p else tmp * acc) :: batchBackward rest (if p = 0 then acc else acc * p)

/-- `src/fields/mod.rs:107-131` `batch_invert` over field elements; the same algorithm over limbs
is `Fe.batchInvert` (C09). -/
def batchInvert (v : List F) : Option (List F × F) :=
  let fwd := batchForward v 1
  match FieldApi.invert fwd.2 with
  | none => none
  | some acc => some ((batchBackward (v.reverse.zip fwd.1.reverse) acc).reverse, acc)

end batch

namespace Proofs
variable {T F S C : Type}

/-- The transcript of `src/proofs.rs` is a Rescue sponge over the base field, of which it uses `new`,
`absorb` and `squeeze`.  The model is over any such object, since the properties proved do not depend
on it; `Transcript.rescue` is the one in the code. `none` is a panic. -/
structure Transcript (T F : Type) where
  new : T
  absorb : F → T → T
  squeeze : T → Option (F × T)

section transcript
variable [Field F] [FieldApi F] [FieldApi S] [CurveOps C F S] (tr : Transcript T F)

/-- `src/proofs.rs:1484-1494` `append_point` -/
def appendPoint (p : C) (t : T) : T :=
  match CurveOps.getXy p with
  | some (x, y) => tr.absorb y (tr.absorb x t)
  | none => tr.absorb 0 (tr.absorb 0 t)

variable (C) in
/-- `src/proofs.rs:1496-1498` `append_scalar` -/
def appendScalar (s : S) (t : T) : T :=
  appendPoint tr (CurveApi.mul (CurveOps.one : C) s) t

omit [Field F] in
variable (S) in
/-- `src/proofs.rs:1500-1507` `get_challenge` -/
def getChallenge (t : T) : Option (S × T) := do
  let (challenge, t) ← tr.squeeze t
  let challenge := FieldApi.lower128 challenge
  let challenge := challenge ||| (1#128 <<< 127)
  some (FieldApi.fromU128 challenge, t)

/-- A challenge of the inner product argument -/
structure Challenge (S : Type) where
  challenge : S
  challengeInv : S
  challengeSq : S
  challengeSqPacked : S
  /-- `forkvalue_u8` -/
  fork : ℕ

variable (S) in
/-- `src/proofs.rs:1308-1324`, `1416-1430`: the `loop`, with fuel; `none` if it has not returned
after that many iterations.  `count` is the verifier's `forkvalue_u8`. Returns the value of
`forkvalue`, this counter, the packed challenge, its scalar and the square root of the latter. -/
def forkLoop [Field S] (t : T) : ℕ → F → ℕ → Option (F × ℕ × S × S × S)
  | 0, _, _ => none
  | fuel + 1, forkvalue, count => do
    let (packed, _) ← getChallenge S tr (tr.absorb forkvalue t)
    let challengeSq : S := Util.getChallengeScalar packed
    match FieldApi.sqrt challengeSq with
    | some challenge => some (forkvalue, count, packed, challengeSq, challenge)
    | none => forkLoop t fuel (forkvalue + 1) (count + 1)

variable (S) in
/-- `src/proofs.rs:1308-1336`, `1416-1438`: obtain a challenge that is a square.

The loop does not terminate if there is no suitable `forkvalue`; the model gives up after `fuel`
attempts.  The verifier's counter is a `u8`, so it panics (in a debug build) when it would make
attempt 257: it is the model with `fuel = 256`. -/
def squareChallenge [Field S] [DecidableEq S] (fuel : ℕ) (t : T) : Option (Challenge S × T) := do
  let (forkvalue, count, packed, challengeSq, challenge) ← forkLoop S tr t fuel 0 0
  let t := tr.absorb forkvalue t
  let (packed', t) ← getChallenge S tr t
  if packed' = packed then
    let challengeInv ← FieldApi.invert challenge
    some (⟨challenge, challengeInv, challengeSq, packed, count⟩, t)
  else none

end transcript

/-- `src/proofs.rs:60-70`, `175-185`, `270-282`, `287-298`, `472-484`, `872-884`, `957-968`: expand packed challenges,
take their square roots and invert these. Returns the squares, the roots, their inverses, and the
inverse of the product of the roots; `none` is a panic. -/
def expandChallenges [Field S] [DecidableEq S] [FieldApi S] (packed : List S) :
    Option (List S × List S × List S × S) := do
  let sq : List S := packed.map fun v => Util.getChallengeScalar v
  let challenges ← sq.mapM fun v => FieldApi.sqrt v
  let (inv, allinv) ← batchInvert challenges
  some (sq, challenges, inv, allinv)

end Proofs
end Halo
