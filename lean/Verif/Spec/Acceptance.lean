import Verif.Spec.Verdict
import Verif.Spec.Curve
/-!
# Specification: which proofs the verifier accepts
-/
namespace Halo
namespace Proofs
open Circuit
variable {T F C S G : Type}

/-- The challenges of a run of the verifier -/
structure RunChallenges (S : Type) where
  y : S
  x : S
  yNew : S
  z : S
  rounds : List (Challenge S)

/-- The square roots of the challenges of the rounds -/
def RunChallenges.us (c : RunChallenges S) : List S := c.rounds.map (·.challenge)

section
variable [Field F] [FieldApi F] [Field S] [DecidableEq S] [FieldApi S] [CurveOps C F S] (tr : Transcript T F)

/-- The transcript, fed with the messages of the rounds, yields these challenges. -/
inductive RoundsYield (m : ℕ) : List (InnerProductRound C S) → T → List (Challenge S) → Prop
  | nil (t : T) : RoundsYield m [] t []
  | cons {r : InnerProductRound C S} {rounds es t ch t' chs} (hes : r.entries m = some es)
      (h : squareChallenge S tr 256 (appendRound tr es t) = some (ch, t')) (hrest : RoundsYield m rounds t' chs) :
      RoundsYield m (r :: rounds) t (ch :: chs)

/-- The transcript, fed with the messages of the proof, yields these challenges. `K` is the commitment to the public
inputs, `ky` the value of their polynomial at `y`, and `gx` the value of the old folding vector at `x`. -/
def Proof.Yields (π : Proof C S) (K : C) (ky gx : S) (c : RunChallenges S) : Prop :=
  ∃ (ζ : S) (t1 t2 t3 t4 : T),
    getChallenge S tr (appendPoint tr π.rCommitment (appendPoint tr K tr.new)) = some (c.y, t1) ∧
    getChallenge S tr (appendPoint tr π.tNegativeCommitment (appendPoint tr π.tPositiveCommitment
      (appendPoint tr π.sCurCommitment t1))) = some (c.x, t2) ∧
    getChallenge S tr (appendPoint tr π.cCommitment t2) = some (c.yNew, t3) ∧
    getChallenge S tr ([ky, π.rxOpening, π.rxyOpening, π.sxOldOpening, π.sxCurOpening, π.txPositiveOpening,
      π.txNegativeOpening, π.sxNewOpening, gx].foldl
        (fun t s => appendScalar C tr s t) (appendPoint tr π.sNewCommitment t3)) = some (ζ, t4) ∧
    c.z = Util.getChallengeScalar ζ ∧ RoundsYield tr 5 π.innerProduct.rounds t4 c.rounds
end

/-- The claim that a polynomial with this commitment has this value at this point -/
structure PointClaim (G S : Type) where
  commitment : G
  value : S
  point : S

section
variable [Field S] [AddCommGroup G] [Module S G] (pt : C → G)

/-- The five claims that a proof reduces its statement to. `pt` says which points of the curve the encodings stand for. -/
def Proof.claims (π : Proof C S) (old : Leftovers C S) (K : C) (ky gx : S) (c : RunChallenges S) : List (PointClaim G S) :=
  [⟨c.z ^ 6 • pt π.rCommitment + c.z ^ 5 • pt old.sNewCommitment + c.z ^ 4 • pt π.sCurCommitment +
      c.z ^ 3 • pt π.tPositiveCommitment + c.z ^ 2 • pt π.tNegativeCommitment + c.z • pt π.sNewCommitment + pt old.gNew,
    c.z ^ 6 * π.rxOpening + c.z ^ 5 * π.sxOldOpening + c.z ^ 4 * π.sxCurOpening + c.z ^ 3 * π.txPositiveOpening +
      c.z ^ 2 * π.txNegativeOpening + c.z * π.sxNewOpening + gx, c.x⟩,
   ⟨pt π.rCommitment, π.rxyOpening, c.x * c.y⟩,
   ⟨pt π.cCommitment, π.sxOldOpening, old.yNew⟩,
   ⟨pt π.cCommitment + c.z • pt K, π.sxCurOpening + c.z * ky, c.y⟩,
   ⟨pt π.cCommitment, π.sxNewOpening, c.yNew⟩]

/-- The commitment of claim `j` after the rounds with challenges `us` -/
def foldedCommitment (j : ℕ) (rounds : List (InnerProductRound C S)) (us : List S) (A : G) : G :=
  A + ((rounds.zip us).map fun e => e.2 ^ 2 • (e.1.L.map pt).getD j 0 + e.2⁻¹ ^ 2 • (e.1.R.map pt).getD j 0).sum

omit [AddCommGroup G] [Module S G] in
/-- The value of claim `j` after the rounds with challenges `us` -/
def foldedValue (j : ℕ) (rounds : List (InnerProductRound C S)) (us : List S) (v : S) : S :=
  v + ((rounds.zip us).map fun e => e.2 ^ 2 * e.1.l.getD j 0 + e.2⁻¹ ^ 2 * e.1.r.getD j 0).sum

/-- The last message opens claim `j`, after the rounds; or the commitment is the identity, which the code takes to be equal to
every point (see C17). -/
structure PointClaim.Opens (j : ℕ) (op : MultiPolynomialOpening C S) (us : List S) (claim : PointClaim G S) : Prop where
  commitment : foldedCommitment pt j op.rounds us claim.commitment = 0 ∨
    foldedCommitment pt j op.rounds us claim.commitment = op.a.getD j 0 • pt op.g
  value : foldedValue j op.rounds us claim.value = op.a.getD j 0 * collapse us (claim.point ^ ·)

end

section
variable [Field F] [FieldApi F] [Field S] [DecidableEq S] [FieldApi S] [CurveOps C F S] [AddCommGroup G] [Module S G]

/-- The proof passes, for `2^k` generators, with these challenges. `K` is the commitment to the public inputs and `kPoly`
their polynomial; `uso` are the square roots of the challenges of the old leftovers. -/
structure Proof.Passes (π : Proof C S) (tr : Transcript T F) (pt : C → G) (k : ℕ) (old : Leftovers C S) (kPoly : List S) (K : C)
    (uso : List S) (c : RunChallenges S) : Prop where
  rounds : π.innerProduct.rounds.length = k
  last : 5 ≤ π.innerProduct.a.length
  old_ne : old.challengesSqPackedNew ≠ []
  old_roots : Roots old.challengesSqPackedNew uso
  yields : π.Yields tr K (combine (c.y ^ ·) 0 kPoly) (collapse uso (c.x ^ ·)) c
  opens : ∀ (j : ℕ) (claim : PointClaim G S),
    (π.claims pt old K (combine (c.y ^ ·) 0 kPoly) (collapse uso (c.x ^ ·)) c)[j]? = some claim →
      claim.Opens pt j π.innerProduct c.us
end

/-- The leftovers pass for this circuit and the generators `g 0, g 1, …`: both points are what they should be, or what they
should be is the identity, which the code takes to be equal to every point (see C17). -/
structure Leftovers.Passes [Field S] [FieldApi S] [AddCommGroup G] [Module S G] {α : Type} (pt : C → G) (g : ℕ → G)
    (params : Params C) (circuit : Var → Prog S α) (lo : Leftovers C S) : Prop where
  len : lo.challengesSqPackedNew.length = params.k
  generator : ∃ us, Roots lo.challengesSqPackedNew us ∧ (collapse us g = 0 ∨ pt lo.gNew = collapse us g)
  commitment : ∃ sx, computeSx params.n circuit lo.yNew = .ok sx ∧
    (combine g 0 sx = 0 ∨ pt lo.sNewCommitment = combine g 0 sx)

/-- What the verifier leaves over: the new leftovers -/
def Proof.newLeftovers (π : Proof C S) (c : RunChallenges S) : Leftovers C S :=
  ⟨π.sNewCommitment, c.yNew, π.innerProduct.g, c.rounds.map (·.challengeSqPacked)⟩

/-- What the verifier leaves over: the deferred record -/
def Proof.newDeferred [Field S] (π : Proof C S) (old : Leftovers C S) (ky gx : S) (c : RunChallenges S) : Deferred S where
  x := c.x
  yOld := old.yNew
  yCur := c.y
  yNew := c.yNew
  kyOpening := ky
  txPositiveOpening := π.txPositiveOpening
  txNegativeOpening := π.txNegativeOpening
  sxCurOpening := π.sxCurOpening
  rxOpening := π.rxOpening
  rxyOpening := π.rxyOpening
  challengesSqPackedOld := old.challengesSqPackedNew
  gxOldOpening := gx
  challengesSqPackedNew := c.rounds.map (·.challengeSqPacked)
  bX := collapse c.us (c.x ^ ·)
  bXy := collapse c.us ((c.x * c.y) ^ ·)
  bYOld := collapse c.us (old.yNew ^ ·)
  bYCur := collapse c.us (c.y ^ ·)
  bYNew := collapse c.us (c.yNew ^ ·)

/-- The points of a proof are points of the curve, as they are when they have been read from bytes. -/
structure Proof.Points (rep : C → G → Prop) (pt : C → G) (π : Proof C S) : Prop where
  r : rep π.rCommitment (pt π.rCommitment)
  sCur : rep π.sCurCommitment (pt π.sCurCommitment)
  tPositive : rep π.tPositiveCommitment (pt π.tPositiveCommitment)
  tNegative : rep π.tNegativeCommitment (pt π.tNegativeCommitment)
  c : rep π.cCommitment (pt π.cCommitment)
  sNew : rep π.sNewCommitment (pt π.sNewCommitment)
  rounds : ∀ r ∈ π.innerProduct.rounds, (∀ p ∈ r.L, rep p (pt p)) ∧ ∀ p ∈ r.R, rep p (pt p)
  g : rep π.innerProduct.g (pt π.innerProduct.g)

/-- The point of the curve that an encoding stands for; the identity if it is not on the curve -/
noncomputable def pointOf [Field F] [DecidableEq F] (E : CurveConsts) (p : Proj F) : Pt (E.b : F) :=
  open Classical in if h : ∃ A, Denotes (E.b : F) p A then h.choose else 0

end Proofs
end Halo
