import Verif.Model.Proofs.Opening
/-!
# `Leftovers` and `Deferred` (`src/proofs.rs:1-313`)
-/
namespace Halo
namespace Proofs
open Circuit
variable {C F S : Type}

/-- A panic if there is no value -/
def ofOption {α : Type} : Option α → Except Fail α
  | some a => .ok a
  | none => .error .panic

/-- `src/proofs.rs:5` `MAGIC` -/
def MAGIC : BitVec 64 := 12

/-- `src/proofs.rs:7-17` `Leftovers` -/
structure Leftovers (C S : Type) where
  sNewCommitment : C
  yNew : S
  gNew : C
  challengesSqPackedNew : List S
deriving DecidableEq

/-- `to_bytes()[..]` -/
def bytes32 [FieldApi F] (a : F) : List (BitVec 8) := (FieldApi.toBytes a).toList

/-- `to_bytes()[..].take(16)` -/
def bytes16 [FieldApi F] (a : F) : List (BitVec 8) := (bytes32 a).take 16

/-- `src/proofs.rs:23-34`, `36-47`: the coordinates of a point -/
def pointBytes [Field F] [FieldApi F] [CurveOps C F S] (p : C) : List (BitVec 8) :=
  match CurveOps.getXy p with
  | some (x, y) => bytes32 x ++ bytes32 y
  | none => bytes32 (0 : F) ++ bytes32 (0 : F)

/-- `src/proofs.rs:20-53` `Leftovers::to_bytes` -/
def Leftovers.toBytes [Field F] [FieldApi F] [FieldApi S] [CurveOps C F S] (self : Leftovers C S) :
    List (BitVec 8) :=
  pointBytes self.sNewCommitment ++ bytes16 self.yNew ++ pointBytes self.gNew ++
    self.challengesSqPackedNew.flatMap bytes16

section
variable [Field S] [DecidableEq S] [FieldApi S] [CurveOps C F S] (cpus : ℕ) (lnCeil : ℕ → ℕ)

/-- `src/proofs.rs:57-80` `Leftovers::dummy` -/
def Leftovers.dummy (params : Params C) : Option (Leftovers C S) := do
  let packed : List S := List.replicate params.k (FieldApi.fromU64 MAGIC)
  let (sq, _, _, allinv) ← expandChallenges packed
  let gNew ← Util.computeG cpus lnCeil params.generators sq allinv
  some ⟨CurveApi.zero, 0, gNew, packed⟩

/-- `src/proofs.rs:83-106` `Leftovers::verify`. The points are compared by the `==` of the curve, with
the recomputed point on the left. -/
def Leftovers.verify {α : Type} (self : Leftovers C S) (params : Params C)
    (circuit : Var → Prog S α) : Except Fail Bool := do
  let sx ← computeSx params.n circuit self.yNew
  let sNewCommitment ← ofOption (params.commit cpus lnCeil sx false)
  if self.challengesSqPackedNew.length ≠ params.k then .error .panic
  else
    let sq : List S := self.challengesSqPackedNew.map fun v => Util.getChallengeScalar v
    let allinv ← ofOption (sq.foldlM (fun allinv c => (FieldApi.sqrt c).map fun r => allinv * r) 1)
    let allinv ← ofOption (FieldApi.invert allinv)
    let gNew ← ofOption (Util.computeG cpus lnCeil params.generators sq allinv)
    .ok (CurveOps.ctEq gNew self.gNew && CurveOps.ctEq sNewCommitment self.sNewCommitment)

end

/-- `src/proofs.rs:112-141` `Deferred` -/
structure Deferred (S : Type) where
  x : S
  yOld : S
  yCur : S
  yNew : S
  kyOpening : S
  txPositiveOpening : S
  txNegativeOpening : S
  sxCurOpening : S
  rxOpening : S
  rxyOpening : S
  challengesSqPackedOld : List S
  gxOldOpening : S
  challengesSqPackedNew : List S
  bX : S
  bXy : S
  bYOld : S
  bYCur : S
  bYNew : S

/-- `src/proofs.rs:144-172` `Deferred::to_bytes` -/
def Deferred.toBytes [FieldApi S] (self : Deferred S) : List (BitVec 8) :=
  bytes16 self.x ++ bytes16 self.yOld ++ bytes16 self.yCur ++ bytes16 self.yNew ++
  bytes32 self.kyOpening ++ bytes32 self.txPositiveOpening ++ bytes32 self.txNegativeOpening ++
  bytes32 self.sxCurOpening ++ bytes32 self.rxOpening ++ bytes32 self.rxyOpening ++
  self.challengesSqPackedOld.flatMap bytes16 ++
  bytes32 self.gxOldOpening ++
  self.challengesSqPackedNew.flatMap bytes16 ++
  bytes32 self.bX ++ bytes32 self.bXy ++ bytes32 self.bYOld ++ bytes32 self.bYCur ++
  bytes32 self.bYNew

section
variable [Field S] [DecidableEq S] [FieldApi S]

/-- `src/proofs.rs:174-208` `Deferred::dummy` -/
def Deferred.dummy (S : Type) [Field S] [DecidableEq S] [FieldApi S] (k : ℕ) :
    Option (Deferred S) := do
  let packed : List S := List.replicate k (FieldApi.fromU64 MAGIC)
  let (_, challenges, inv, _) ← expandChallenges packed
  let bOne ← Util.computeB 1 challenges inv
  some {
    x := 1, yOld := 1, yCur := 1, yNew := 1
    kyOpening := 0, txPositiveOpening := 0, txNegativeOpening := 0
    sxCurOpening := 0, rxOpening := 0, rxyOpening := 0
    challengesSqPackedOld := packed, gxOldOpening := bOne, challengesSqPackedNew := packed
    bX := bOne, bXy := bOne, bYOld := bOne, bYCur := bOne, bYNew := bOne }

omit [DecidableEq S] [FieldApi S] in
/-- `src/proofs.rs:242-252` `compute_thing`: the state is `(acc, cur)` -/
def computeThing (x : S) (k : ℕ) : S :=
  ((List.range k).foldl (fun (s : S × S) _ => (s.1 + s.1 * s.2, s.2 ^ 2)) (x, x)).1

/-- `src/proofs.rs:210-264` `Deferred::compute`; `k - 2` overflows for `k < 2`.  In the code
`d` and `n` are `i32`, which they fit in for `k ≤ 30`. -/
def Deferred.compute (self : Deferred S) (k : ℕ) : Option (S × S) := do
  if self.x = 0 then none
  if self.yCur = 0 then none
  if k < 2 then none
  let d := 1 <<< k
  let n := d / 4
  let xinv ← FieldApi.invert self.x
  let yinv ← FieldApi.invert self.yCur
  let xyinv := xinv * yinv
  let xinvn := xinv ^ n
  let xinvd := (xinvn ^ 2) ^ 2
  let yn := self.yCur ^ n
  let xn := self.x ^ n
  let xyinvn31 := xyinv ^ (3 * n - 1)
  let xinvn31 := (xinvn ^ 2 * xinvn) * self.x
  let rhs := self.txPositiveOpening * self.x
  let rhs := rhs + self.txNegativeOpening * xinvd
  let lhs := self.sxCurOpening * xinvn
  let lhs := lhs * yn
  let thing := computeThing (self.x * self.yCur) (k - 2)
  let thing := thing + computeThing (self.x * yinv) (k - 2)
  let thing := thing * xn
  let lhs := lhs - thing
  let lhs := lhs + self.rxyOpening * xyinvn31
  let lhs := lhs * (self.rxOpening * xinvn31)
  let ky := self.kyOpening * yn
  let lhs := lhs - ky
  some (lhs, rhs)

/-- `src/proofs.rs:266-312` `Deferred::verify` -/
def Deferred.verify (self : Deferred S) (k : ℕ) : Option Bool := do
  let (lhs, rhs) ← self.compute k
  let (_, challenges, inv, _) ← expandChallenges self.challengesSqPackedOld
  let correctGxOldOpening ← Util.computeB self.x challenges inv
  let (_, challenges, inv, _) ← expandChallenges self.challengesSqPackedNew
  let bX ← Util.computeB self.x challenges inv
  let bXy ← Util.computeB (self.x * self.yCur) challenges inv
  let bYOld ← Util.computeB self.yOld challenges inv
  let bYCur ← Util.computeB self.yCur challenges inv
  let bYNew ← Util.computeB self.yNew challenges inv
  some (decide (lhs = rhs) && decide (correctGxOldOpening = self.gxOldOpening) &&
    decide (self.bX = bX) && decide (self.bXy = bXy) && decide (self.bYOld = bYOld) &&
    decide (self.bYCur = bYCur) && decide (self.bYNew = bYNew))

end
end Proofs
end Halo
