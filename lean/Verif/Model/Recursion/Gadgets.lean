import Verif.Model.Gadget.Rescue
import Verif.Model.Gadget.Ecc
/-!
# The parts of the verification circuit that do not depend on a proof (`src/recursion.rs`)

The methods of `VerificationCircuit` use of `self` at most `self.params.k`, which is the argument `k`
here.  `one` is the constant `CS::ONE`.
-/
namespace Halo
namespace Recursion
open Circuit
open Circuit.Sha256 (foldProg index)
variable {F : Type} [Field F]

/-- `&l[a..b]`; out of bounds is a panic. -/
def slice {α : Type} (l : List α) (a b : ℕ) : Prog F (List α) :=
  if a ≤ b ∧ b ≤ l.length then return (l.take b).drop a else .panic

/-- `&l[0..n]` and `&l[n..]` -/
def split {α : Type} (n : ℕ) (l : List α) : Prog F (List α × List α) :=
  if n ≤ l.length then return (l.take n, l.drop n) else .panic

/-- `src/recursion.rs:541-570` `num_equal_unless_base_case` -/
def numEqualUnlessBaseCase (one : Var) (baseCase : AllocatedBit) (lhs rhs : Combination F) :
    Prog F Unit := do
  let notBasecase : Option F := baseCase.value.map fun v => ofBool !v
  let (a, b, c, _) ← .doMultiply (do
    let lhs ← orMissing lhs.value
    let rhs ← orMissing rhs.value
    let notBasecase ← orMissing notBasecase
    .ok (lhs - rhs, notBasecase, 0))
  let lhsLc := lhs.lc one
  let rhsLc := rhs.lc one
  .enforce (((LC.ofVar a).subLC lhsLc).addLC rhsLc)
  .enforce (((LC.ofVar b).subVar one).addVar baseCase.var)
  .enforce (LC.ofVar c)

/-- `src/recursion.rs:584-595`: both sides of a chunk as combinations with doubling coefficients -/
def packPairs (pairs : List (AllocatedBit × AllocatedBit)) : Combination F × Combination F :=
  (pairs.foldl (fun (s : F × Combination F × Combination F) p =>
    (s.1 + s.1, s.2.1.addScaled (.full s.1) (.ofAllocated (.ofBit p.1)),
      s.2.2.addScaled (.full s.1) (.ofAllocated (.ofBit p.2)))) (1, .zero, .zero)).2

/-- `src/recursion.rs:572-633` `equal_unless_base_case` -/
def equalUnlessBaseCase (one : Var) (baseCase : AllocatedBit) (lhs rhs : List AllocatedBit) :
    Prog F Unit :=
  if lhs.length ≠ rhs.length then .panic else
    foldProg (fun _ chunk =>
      let lc := packPairs chunk
      numEqualUnlessBaseCase one baseCase lc.1 lc.2) (Sha256.chunks 250 (lhs.zip rhs)) ()

/-- `src/recursion.rs:640-651`: the value of the bits; unknown bits count as zero. -/
def scalarValue (bits : List AllocatedBit) : F :=
  (bits.foldl (fun (s : F × F) bit =>
    (if bit.value = some true then s.1 + s.2 else s.1, s.2 + s.2)) (0, 1)).1

/-- `src/recursion.rs:635-660` `obtain_scalar_from_bits`; the combination is built as in
`unpack_fe`. -/
def obtainScalarFromBits (bits : List AllocatedBit) : Prog F (AllocatedNum F) := do
  let newnum ← AllocatedNum.alloc (.ok (scalarValue bits))
  .enforce ((packBits bits).subVar newnum.var)
  return newnum

/-- `src/recursion.rs:662-687` `witness_bits_from_fe`; `S` is the field of the value. -/
def witnessBitsFromFe {S : Type} [FieldApi S] (value : S) : Prog F (List AllocatedBit) :=
  mapProg (fun b => AllocatedBit.alloc (.ok b)) (bytesBits (FieldApi.toBytes value).toList)

section
variable [FieldApi F]

/-- `src/recursion.rs:1333-1379`: one iteration of `get_challenge_scalar` -/
def challengeStep (one : Var) (bits : List AllocatedBit) (acc : Combination F) (i : ℕ) :
    Prog F (Combination F) := do
  let shouldNegate ← index bits (i * 2)
  let shouldEndo ← index bits (i * 2 + 1)
  let acc := acc.scale (FieldApi.fromU128 2)
  let acc := acc.add (.ofAllocated (.one one))
  let acc := acc.add ((Combination.ofAllocated (.ofBit shouldNegate)).scale (-FieldApi.fromU128 2))
  let lhs : Option F := shouldEndo.value.map fun b =>
    let e : F := if b then 1 else 0
    e * FieldApi.beta - e
  let (a, b, c, ran) ← .doMultiply (do
    let acc ← orMissing acc.value
    let lhs ← orMissing lhs
    .ok (lhs, acc, lhs * acc))
  .enforce (((LC.ofVar a).addVar shouldEndo.var).sub (.full FieldApi.beta) shouldEndo.var)
  .enforce ((LC.ofVar b).subLC (acc.lc one))
  return acc.add (.ofNum (.ofAllocated ⟨assignedBy ran (both (fun lhs acc => lhs * acc) lhs acc.value), c⟩))

/-- `src/recursion.rs:1325-1389` `get_challenge_scalar` -/
def getChallengeScalar (one : Var) (bits : List AllocatedBit) : Prog F (AllocatedNum F) := do
  if bits.length ≠ 128 then .panic else
    let acc ← foldProg (challengeStep one bits) (List.range' 1 63) (.ofNum (.const (1 + 1 + 1)))
    let newacc ← AllocatedNum.alloc (orMissing acc.value)
    .enforce ((LC.ofVar newacc.var).subLC (acc.lc one))
    return newacc

/-- `src/recursion.rs:1312-1323` `commit_point` -/
def commitPoint (one : Var) (t : RescueGadget F) (p : CurvePoint F) : Prog F (RescueGadget F) := do
  let t ← t.absorb one p.x
  t.absorb one p.y

/-- `src/recursion.rs:1391-1402` `get_challenge` -/
def getChallenge (one : Var) (t : RescueGadget F) : Prog F (List AllocatedBit × RescueGadget F) := do
  let (num, t) ← t.squeeze one
  let bits ← unpackFe one (.ofAllocated num)
  return (bits.take 127 ++ [AllocatedBit.one one], t)

omit [FieldApi F] in
/-- `src/recursion.rs:507-539`: `compute_b` on reversed slices -/
def computeBRev (one : Var) (x : AllocatedNum F) : List (AllocatedNum F) → List (AllocatedNum F) →
    Prog F (Combination F)
  | [], _ => .panic
  | _, [] => .panic
  | [u], ui :: _ => do
    let tmp ← x.mul u
    return (Combination.ofAllocated ui).addAllocated tmp
  | u :: us, ui :: uis => do
    let tmp ← x.mul u
    let tmp := (Combination.ofAllocated ui).addAllocated tmp
    let x2 ← x.mul x
    let rest ← computeBRev one x2 us uis
    return .ofAllocated (← rest.mul one tmp)

omit [FieldApi F] in
/-- `src/recursion.rs:498-539` `compute_b` -/
def computeB (one : Var) (x : AllocatedNum F) (challenges challengesInv : List (AllocatedNum F)) :
    Prog F (Combination F) :=
  if challenges.length < 1 ∨ challenges.length ≠ challengesInv.length then .panic else
    computeBRev one x challenges.reverse challengesInv.reverse

/-- The numbers that `verify_deferred` unpacks (`src/recursion.rs:229-294`) -/
structure DeferredNums (F : Type) where
  x : AllocatedNum F
  yOld : AllocatedNum F
  yCur : AllocatedNum F
  yNew : AllocatedNum F
  kyOpening : AllocatedNum F
  txPositiveOpening : AllocatedNum F
  txNegativeOpening : AllocatedNum F
  sxCurOpening : AllocatedNum F
  rxOpening : AllocatedNum F
  rxyOpening : AllocatedNum F
  challengesSqOld : List (AllocatedNum F)
  gxOldOpening : AllocatedNum F
  challengesSqNew : List (AllocatedNum F)
  bX : AllocatedNum F
  bXy : AllocatedNum F
  bYOld : AllocatedNum F
  bYCur : AllocatedNum F
  bYNew : AllocatedNum F

omit [FieldApi F] in
/-- `let v = self.obtain_scalar_from_bits(.., &deferred[0..n])?; deferred = &deferred[n..];` -/
def takeScalar (n : ℕ) (bits : List AllocatedBit) : Prog F (AllocatedNum F × List AllocatedBit) := do
  let (now, rest) ← split n bits
  let v ← obtainScalarFromBits now
  return (v, rest)

/-- `src/recursion.rs:263-270`, `274-281`: `k` challenges -/
def takeChallenges (one : Var) : ℕ → List AllocatedBit →
    Prog F (List (AllocatedNum F) × List AllocatedBit)
  | 0, bits => return ([], bits)
  | k + 1, bits => do
    let (now, rest) ← split 128 bits
    let v ← getChallengeScalar one now
    let (vs, rest) ← takeChallenges one k rest
    return (v :: vs, rest)

/-- `src/recursion.rs:229-296`: unpack all of the deferred data -/
def unpackDeferred (one : Var) (k : ℕ) (bits : List AllocatedBit) : Prog F (DeferredNums F) := do
  let (x, bits) ← takeScalar 128 bits
  let (yOld, bits) ← takeScalar 128 bits
  let (yCur, bits) ← takeScalar 128 bits
  let (yNew, bits) ← takeScalar 128 bits
  let (kyOpening, bits) ← takeScalar 256 bits
  let (txPositiveOpening, bits) ← takeScalar 256 bits
  let (txNegativeOpening, bits) ← takeScalar 256 bits
  let (sxCurOpening, bits) ← takeScalar 256 bits
  let (rxOpening, bits) ← takeScalar 256 bits
  let (rxyOpening, bits) ← takeScalar 256 bits
  let (challengesSqOld, bits) ← takeChallenges one k bits
  let (gxOldOpening, bits) ← takeScalar 256 bits
  let (challengesSqNew, bits) ← takeChallenges one k bits
  let (bX, bits) ← takeScalar 256 bits
  let (bXy, bits) ← takeScalar 256 bits
  let (bYOld, bits) ← takeScalar 256 bits
  let (bYCur, bits) ← takeScalar 256 bits
  let (bYNew, bits) ← takeScalar 256 bits
  if bits.length ≠ 0 then .panic else
  return {
    x, yOld, yCur, yNew, kyOpening, txPositiveOpening, txNegativeOpening, sxCurOpening, rxOpening
    rxyOpening, challengesSqOld, gxOldOpening, challengesSqNew, bX, bXy, bYOld, bYCur, bYNew }

omit [FieldApi F] in
/-- `for i in 0..n { x = x.mul(&x)? }` (`src/recursion.rs:310-348`) -/
def squareTimes (n : ℕ) (x : AllocatedNum F) : Prog F (AllocatedNum F) :=
  foldProg (fun x _ => x.mul x) (List.range n) x

omit [FieldApi F] in
/-- `src/recursion.rs:369-387` `compute_thing`, the state is `(acc, cur)` -/
def computeThing (one : Var) (x : AllocatedNum F) (k : ℕ) : Prog F (Combination F) := do
  let (acc, _) ← foldProg (fun (s : Combination F × AllocatedNum F) _ => do
    let tmp ← s.1.mul one (.ofAllocated s.2)
    let cur ← s.2.mul s.2
    return (s.1.addAllocated tmp, cur)) (List.range k) (Combination.ofAllocated x, x)
  return acc

/-- `src/recursion.rs:301-413`: both sides of the relation between the openings, and `xy`.
`self.params.k - 2` overflows for `k < 2`. -/
def deferredSides (one : Var) (k : ℕ) (d : DeferredNums F) :
    Prog F (Combination F × Combination F × AllocatedNum F) := do
  let xinv ← d.x.invert one
  let yinv ← d.yCur.invert one
  let xyinv ← xinv.mul yinv
  let xy ← d.x.mul d.yCur
  let xInvy ← d.x.mul yinv
  if k < 2 then .panic else
  let nk := k - 2
  let xinvn ← squareTimes nk xinv
  let xinvd ← squareTimes 2 xinvn
  let yn ← squareTimes nk d.yCur
  let xn ← squareTimes nk d.x
  let xyinvn31 ← squareTimes nk xyinv
  let tmp ← xyinvn31.mul xyinvn31
  let xyinvn31 ← xyinvn31.mul tmp
  let xyinvn31 ← xyinvn31.mul xy
  let xinvn31 ← xinvn.mul xinvn
  let xinvn31 ← xinvn31.mul xinvn
  let xinvn31 ← xinvn31.mul d.x
  let rhs ← d.txPositiveOpening.mul d.x
  let tmp ← d.txNegativeOpening.mul xinvd
  let rhs := (Combination.ofAllocated rhs).addAllocated tmp
  let lhs ← d.sxCurOpening.mul xinvn
  let lhs ← lhs.mul yn
  let thing ← computeThing one xy nk
  let thing2 ← computeThing one xInvy nk
  let thing ← (thing.add thing2).mul one (.ofAllocated xn)
  let tmp ← d.rxyOpening.mul xyinvn31
  let lhs := (Combination.ofAllocated lhs).addAllocated tmp
  let lhs := lhs.subAllocated thing
  let tmp ← d.rxOpening.mul xinvn31
  let lhs ← lhs.mul one (.ofAllocated tmp)
  let ky ← d.kyOpening.mul yn
  return ((Combination.ofAllocated lhs).subAllocated ky, rhs, xy)

/-- `let lc = expected.lc(&mut cs); cs.enforce_zero(lc - v.get_variable());` -/
def enforceIs (one : Var) (expected : Combination F) (v : AllocatedNum F) : Prog F Unit :=
  .enforce ((expected.lc one).subVar v.var)

/-- `src/recursion.rs:421-428`, `441-448`: the roots of the challenges, and their inverses -/
def rootsOf (one : Var) (challengesSq : List (AllocatedNum F)) :
    Prog F (List (AllocatedNum F) × List (AllocatedNum F)) := do
  let challenges ← mapProg (fun c => AllocatedNum.sqrt c) challengesSq
  let challengesInv ← mapProg (fun c => AllocatedNum.invert one c) challenges
  return (challenges, challengesInv)

/-- `src/recursion.rs:224-496` `verify_deferred` -/
def verifyDeferred (one : Var) (k : ℕ) (bits : List AllocatedBit) : Prog F Unit := do
  let d ← unpackDeferred one k bits
  let (lhs, rhs, xy) ← deferredSides one k d
  .enforce ((lhs.lc one).subLC (rhs.lc one))
  let (challengesOld, challengesOldInv) ← rootsOf one d.challengesSqOld
  let expectedGxOldOpening ← computeB one d.x challengesOld challengesOldInv
  enforceIs one expectedGxOldOpening d.gxOldOpening
  let (challengesNew, challengesNewInv) ← rootsOf one d.challengesSqNew
  let expectedBX ← computeB one d.x challengesNew challengesNewInv
  let expectedBXy ← computeB one xy challengesNew challengesNewInv
  let expectedBYOld ← computeB one d.yOld challengesNew challengesNewInv
  let expectedBYCur ← computeB one d.yCur challengesNew challengesNewInv
  let expectedBYNew ← computeB one d.yNew challengesNew challengesNewInv
  enforceIs one expectedBX d.bX
  enforceIs one expectedBXy d.bXy
  enforceIs one expectedBYOld d.bYOld
  enforceIs one expectedBYCur d.bYCur
  enforceIs one expectedBYNew d.bYNew

end
end Recursion
end Halo
