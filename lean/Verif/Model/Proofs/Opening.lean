import Verif.Model.Proofs.Params
/-!
# The inner product argument (`src/proofs.rs:1236-1482`)
-/
namespace Halo
namespace Proofs
open Circuit
variable {T C F S : Type}

/-- `src/proofs.rs:1236-1241` `PolynomialOpening` -/
structure PolynomialOpening (C S : Type) where
  commitment : C
  opening : S
  point : S
  rightEdge : Bool

/-- `src/proofs.rs:1250-1257` `InnerProductRound` -/
structure InnerProductRound (C S : Type) where
  L : List C
  R : List C
  l : List S
  r : List S

/-- `src/proofs.rs:1243-1248` `MultiPolynomialOpening` -/
structure MultiPolynomialOpening (C S : Type) where
  rounds : List (InnerProductRound C S)
  a : List S
  g : C

/-- The entries `(L[j], R[j], l[j], r[j])` for `j < m`; indexing panics if there are fewer. -/
def InnerProductRound.entries (r : InnerProductRound C S) (m : ℕ) :
    Option (List (C × C × S × S)) :=
  if m ≤ r.L.length ∧ m ≤ r.R.length ∧ m ≤ r.l.length ∧ m ≤ r.r.length then
    some ((r.L.zip (r.R.zip (r.l.zip r.r))).take m)
  else none

section
variable [Field F] [FieldApi F] [Field S] [DecidableEq S] [FieldApi S] [CurveOps C F S]
  (tr : Transcript T F)

omit [FieldApi F] [Field S] [DecidableEq S] [FieldApi S] in
/-- `src/proofs.rs:1302-1307`, `1406-1409` -/
def appendRound (es : List (C × C × S × S)) (t : T) : T :=
  es.foldl (fun t e => appendScalar C tr e.2.2.2 (appendScalar C tr e.2.2.1
    (appendPoint tr e.2.1 (appendPoint tr e.1 t)))) t

omit [Field F] [FieldApi F] [DecidableEq S] [FieldApi S] in
/-- `src/proofs.rs:1338-1343`: the update of the commitment and the opening of one instance -/
def foldInstance (ch : Challenge S) (pv : C × S) (e : C × C × S × S) : C × S :=
  let inv := ch.challengeInv ^ 2
  (CurveApi.add (CurveApi.add pv.1 (CurveApi.mul e.1 ch.challengeSq)) (CurveApi.mul e.2.1 inv),
    pv.2 + e.2.2.1 * ch.challengeSq + e.2.2.2 * inv)

/-- `src/proofs.rs:1301-1344`: the loop over the rounds. Returns the commitments and openings, the
challenges, and the transcript. -/
def verifyRounds : List (InnerProductRound C S) → List (C × S) → T →
    Option (List (C × S) × List (Challenge S) × T)
  | [], pv, t => some (pv, [], t)
  | round :: rounds, pv, t => do
    let es ← round.entries pv.length
    let (ch, t) ← squareChallenge S tr 256 (appendRound tr es t)
    let (pv, chs, t) ← verifyRounds rounds (List.zipWith (foldInstance ch) pv es) t
    some (pv, ch :: chs, t)

omit [FieldApi F] [FieldApi S] in
/-- `src/proofs.rs:1346-1356`: the final comparisons; `none` is a panic. The points are compared by
the `==` of the curve, with the folded commitment on the left. -/
def checkFinal (g : C) (chs invs : List S) : List S → List (C × S) → List S → Option Bool
  | [], _, _ => some true
  | point :: points, pv, as =>
    match pv, as with
    | (p, v) :: pv, a :: as => do
      let b ← Util.computeB point chs invs
      if ¬ CurveOps.ctEq p (CurveApi.mul g a) then some false
      else if v ≠ a * b then some false
      else checkFinal g chs invs points pv as
    | _, _ => none

/-- `src/proofs.rs:1279-1359` `verify_proof`: whether the proof is accepted, the packed challenges,
the generator, the fork values, and the transcript. -/
def MultiPolynomialOpening.verifyProof (self : MultiPolynomialOpening C S)
    (instances : List (PolynomialOpening C S)) (k : ℕ) (t : T) :
    Option (Bool × List S × C × List ℕ × T) := do
  if self.rounds.length ≠ k then none
  let (pv, chs, t) ← verifyRounds tr self.rounds
    (instances.map fun i => (i.commitment, i.opening)) t
  let ok ← checkFinal self.g (chs.map (·.challenge)) (chs.map (·.challengeInv))
    (instances.map (·.point)) pv self.a
  some (ok, chs.map (·.challengeSqPacked), self.g, chs.map (·.fork), t)

omit [FieldApi S] [DecidableEq S] in
/-- `src/proofs.rs:1373-1381`: the coefficients of one instance, padded to `2^k`; `none` is a panic
(overflow of the subtraction) -/
def padInstance (k : ℕ) (rightEdge : Bool) (v : List S) : Option (List S) :=
  if rightEdge then
    if v.length ≤ 1 <<< k then some (List.replicate ((1 <<< k) - v.length) 0 ++ v) else none
  else some (resize v (1 <<< k))

omit [FieldApi S] [DecidableEq S] in
/-- `src/proofs.rs:1382-1387`: the powers of the point -/
def pointPowers (k : ℕ) (point : S) : List S := (List.range (1 <<< k)).map fun i => point ^ i

/-- `src/proofs.rs:1402-1414`: the entries of one instance -/
def proveEntry (cpus : ℕ) (lnCeil : ℕ → ℕ) (l : ℕ) (generators : List C) (ab : List S × List S) :
    Option (C × C × S × S) := do
  let L ← Util.multiexp cpus lnCeil (ab.1.take l) (generators.drop l)
  let R ← Util.multiexp cpus lnCeil (ab.1.drop l) (generators.take l)
  let lo ← Util.computeInnerProduct (ab.1.take l) (ab.2.drop l)
  let hi ← Util.computeInnerProduct (ab.1.drop l) (ab.2.take l)
  some (L, R, lo, hi)

omit [DecidableEq S] [FieldApi S] in
/-- `src/proofs.rs:1441-1446`: fold the vectors of one instance -/
def foldVectors (l : ℕ) (ch : Challenge S) (ab : List S × List S) : List S × List S :=
  (List.zipWith (fun lo hi => lo * ch.challenge + hi * ch.challengeInv) (ab.1.take l) (ab.1.drop l),
    List.zipWith (fun lo hi => lo * ch.challengeInv + hi * ch.challenge) (ab.2.take l) (ab.2.drop l))

/-- `src/proofs.rs:1391-1462`: the rounds, from the one with `2^k` generators on. Within a round the
entries of all instances are computed first and then appended to the transcript; the code alternates,
but the entries do not depend on the transcript. -/
def proveRounds (fuel cpus : ℕ) (lnCeil : ℕ → ℕ) : ℕ → List (List S × List S) → List C → T →
    Option (List (InnerProductRound C S) × List S × List (List S × List S) × List C × T)
  | 0, ab, generators, t => some ([], [], ab, generators, t)
  | k + 1, ab, generators, t => do
    let l := 1 <<< k
    let es ← ab.mapM (proveEntry cpus lnCeil l generators)
    let (ch, t) ← squareChallenge S tr fuel (appendRound tr es t)
    let ab := ab.map (foldVectors l ch)
    let generators ← Util.generatorCollapse cpus generators ch.challenge ch.challengeInv
    let (rounds, packed, ab, generators, t) ←
      proveRounds fuel cpus lnCeil k ab (generators.take l) t
    let round : InnerProductRound C S := ⟨es.map (·.1), es.map (·.2.1), es.map (·.2.2.1), es.map (·.2.2.2)⟩
    some (round :: rounds, ch.challengeSqPacked :: packed, ab, generators, t)

omit [Field F] [FieldApi F] [Field S] [DecidableEq S] [FieldApi S] [CurveOps C F S] in
/-- `src/proofs.rs:1466-1470`: `assert_eq!(l.len(), 1)` and `l[0]` -/
def theOnly {α : Type} : List α → Option α
  | [a] => some a
  | _ => none

/-- `src/proofs.rs:1361-1481` `new_proof`: the proof, the packed challenges, the generator and the
transcript. -/
def MultiPolynomialOpening.newProof (fuel cpus : ℕ) (lnCeil : ℕ → ℕ)
    (instances : List (PolynomialOpening C S × List S)) (generators : List C) (k : ℕ) (t : T) :
    Option (MultiPolynomialOpening C S × List S × C × T) := do
  let ab ← instances.mapM fun i => do
    let a ← padInstance k i.1.rightEdge i.2
    some (a, pointPowers k i.1.point)
  let (rounds, packed, ab, generators, t) ← proveRounds tr fuel cpus lnCeil k ab generators t
  let a ← ab.mapM fun ab => theOnly ab.1
  let g ← theOnly generators
  some (⟨rounds, a, g⟩, packed, g, t)

end
end Proofs
end Halo
