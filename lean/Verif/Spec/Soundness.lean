import Verif.Spec.Extract
import Mathlib.LinearAlgebra.Lagrange
/-!
# Specification of the soundness of proofs

A prover that does not know its challenges in advance is a function from the challenges so far to the
next message. An extractor runs it with many challenges of its own choice. What it computes from the
answers are lists of coefficients.
-/
namespace Halo
namespace Proofs
open Circuit
variable {C F S G : Type}

/-- A transcript that ignores what it absorbs and returns prescribed numbers: the verifier that uses it
draws these challenges. -/
def scripted (f : ℕ → F) : Transcript ℕ F where
  new := 0
  absorb _ t := t
  squeeze t := some (f t, t + 1)

/-- The openings that a proof claims -/
structure Openings (S : Type) where
  rx : S
  rxy : S
  sxOld : S
  sxCur : S
  txPositive : S
  txNegative : S
  sxNew : S

/-- A prover: every message is a function of the challenges that precede it. These are `y`, `x`, `yNew`,
`z`, and one for each round of the opening argument. -/
structure Prover (C S : Type) where
  r : C
  sCur : S → C
  tPositive : S → C
  tNegative : S → C
  c : S → S → C
  sNew : S → S → S → C
  openings : S → S → S → Openings S
  round : S → S → S → S → List S → InnerProductRound C S
  last : S → S → S → S → List S → List S × C

/-- The messages in the rounds that follow the challenges `pre`, for the further challenges `us` -/
def Prover.rounds (P : Prover C S) (y x yNew z : S) : List S → List S → List (InnerProductRound C S)
  | _, [] => []
  | pre, u :: us => P.round y x yNew z pre :: P.rounds y x yNew z (pre ++ [u]) us

/-- The proof that it makes for these challenges -/
def Prover.proof (P : Prover C S) (y x yNew z : S) (us : List S) : Proof C S where
  rCommitment := P.r
  sCurCommitment := P.sCur y
  tPositiveCommitment := P.tPositive y
  tNegativeCommitment := P.tNegative y
  cCommitment := P.c y x
  sNewCommitment := P.sNew y x yNew
  rxOpening := (P.openings y x yNew).rx
  rxyOpening := (P.openings y x yNew).rxy
  sxOldOpening := (P.openings y x yNew).sxOld
  sxCurOpening := (P.openings y x yNew).sxCur
  txPositiveOpening := (P.openings y x yNew).txPositive
  txNegativeOpening := (P.openings y x yNew).txNegative
  sxNewOpening := (P.openings y x yNew).sxNew
  innerProduct := ⟨P.rounds y x yNew z [] us, (P.last y x yNew z us).1, (P.last y x yNew z us).2⟩

/-- The points that it sends are points of the curve. -/
structure Prover.OnCurve (rep : C → G → Prop) (P : Prover C S) : Prop where
  r : ∃ a, rep P.r a
  sCur : ∀ y, ∃ a, rep (P.sCur y) a
  tPositive : ∀ y, ∃ a, rep (P.tPositive y) a
  tNegative : ∀ y, ∃ a, rep (P.tNegative y) a
  c : ∀ y x, ∃ a, rep (P.c y x) a
  sNew : ∀ y x yNew, ∃ a, rep (P.sNew y x yNew) a
  L : ∀ y x yNew z pre, ∀ p ∈ (P.round y x yNew z pre).L, ∃ a, rep p a
  R : ∀ y x yNew z pre, ∀ p ∈ (P.round y x yNew z pre).R, ∃ a, rep p a
  g : ∀ y x yNew z us, ∃ a, rep (P.last y x yNew z us).2 a

/-- The challenges that the extractor tries, after those that precede them -/
structure Challenges (S : Type) where
  ys : Finset S
  xs : S → Finset S
  yNews : S → S → Finset S
  zs : S → S → S → Finset S
  us : S → S → S → S → List S → Finset S

/-- `y`, `x`, `yNew` and `z` are tried. -/
def Challenges.Tried (ch : Challenges S) (y x yNew z : S) : Prop :=
  y ∈ ch.ys ∧ x ∈ ch.xs y ∧ yNew ∈ ch.yNews y x ∧ z ∈ ch.zs y x yNew

/-- So are the challenges `us` of the rounds, after `pre`. -/
def Challenges.Path (ch : Challenges S) (y x yNew z : S) : List S → List S → Prop
  | _, [] => True
  | pre, u :: us => u ∈ ch.us y x yNew z pre ∧ ch.Path y x yNew z (pre ++ [u]) us

/-- There are enough of them, for `d = 2^k` generators and `Q` linear constraints. -/
structure Challenges.Enough [Field S] (ch : Challenges S) (k Q : ℕ) : Prop where
  ys : 2 ^ k + 3 * Q < ch.ys.card
  xs : ∀ y ∈ ch.ys, 3 * 2 ^ k ≤ (ch.xs y).card
  yNews : ∀ y ∈ ch.ys, ∀ x ∈ ch.xs y, 2 ^ k + 2 * Q < (ch.yNews y x).card
  zs : ∀ y ∈ ch.ys, ∀ x ∈ ch.xs y, ∀ yNew ∈ ch.yNews y x, 13 ≤ (ch.zs y x yNew).card
  us : ∀ y x yNew z, ch.Tried y x yNew z → ∀ pre, 5 ≤ (ch.us y x yNew z pre).card ∧
    ∀ u ∈ ch.us y x yNew z pre, ∀ v ∈ ch.us y x yNew z pre, u ^ 2 = v ^ 2 → u = v

section
variable [Field F] [FieldApi F] [Field S] [DecidableEq S] [FieldApi S] [CurveOps C F S]
  [AddCommGroup G] [Module S G]

/-- What everybody agrees on before the proof: the parameters, the circuit, its public inputs, and the old
leftovers. The verifier may be given the commitment to the public inputs. -/
structure Statement (C S α : Type) where
  params : Params C
  circuit : Var → Prog S α
  inputs : List S
  kCommitment : Option C
  old : Leftovers C S

/-- The verifier accepts the proof for these challenges, and so do both of the checks that it leaves over. -/
def Statement.Accepts {α : Type} (st : Statement C S α) (cpus : ℕ) (lnCeil : ℕ → ℕ) (P : Prover C S)
    (y x yNew z : S) (us : List S) : Prop :=
  ∃ (f : ℕ → F) (z' : S) (new : Leftovers C S) (d : Deferred S) (forks : List ℕ),
    getChallenge S (scripted f) 0 = some (y, 1) ∧ getChallenge S (scripted f) 1 = some (x, 2) ∧
    getChallenge S (scripted f) 2 = some (yNew, 3) ∧ getChallenge S (scripted f) 3 = some (z', 4) ∧
    Util.getChallengeScalar z' = z ∧
    (P.proof y x yNew z us).verify (scripted f) cpus lnCeil st.old st.params st.circuit st.inputs
      st.kCommitment = .ok (true, new, d, forks) ∧
    Roots new.challengesSqPackedNew us ∧
    d.verify st.params.k = some true ∧ new.verify cpus lnCeil st.params st.circuit = .ok true

end

/-- A ternary tree of answers of the prover to challenges that are tried -/
def Prover.Answers (P : Prover C S) (ch : Challenges S) (y x yNew z : S) :
    {k : ℕ} → List S → Tree C S k → Prop
  | _, pre, .leaf a g => (a, g) = P.last y x yNew z pre
  | _, pre, .node round u next => round = P.round y x yNew z pre ∧
      ∀ i, u i ∈ ch.us y x yNew z pre ∧ P.Answers ch y x yNew z (pre ++ [u i]) (next i)

/-- The number of challenges `z` from which the extractor separates what instance `j` of the opening
argument combines: the first combines seven commitments, the fourth two. -/
def parts (j : ℕ) : ℕ := if j = 0 then 7 else if j = 3 then 2 else 1

/-- The vectors of coefficients that the extractor computes: zero, the public polynomials `k(Y)` and
`s(X, yNew)`, the vector that folds the generators for a path of challenges, and what it gets from the
answers of the prover. The latter are the polynomials of C54, or the coefficients of the polynomial in `z`
that interpolates them. -/
inductive Found [Field S] [FieldApi S] [DecidableEq S] {α : Type} (st : Statement C S α) (P : Prover C S)
    (ch : Challenges S) (positions : List ℕ) : (ℕ → S) → Prop
  | zero : Found st P ch positions fun _ => 0
  | k : Found st P ch positions fun m => (kPoly (positions.zip (1 :: st.inputs))).getD m 0
  | s {y x yNew : S} {sx : List S} (hy : y ∈ ch.ys) (hx : x ∈ ch.xs y) (hn : yNew ∈ ch.yNews y x)
      (h : computeSx st.params.n st.circuit yNew = .ok sx) : Found st P ch positions fun m => sx.getD m 0
  | folded {y x yNew z : S} {us : List S} (h : ch.Tried y x yNew z) (hl : us.length = st.params.k)
      (hp : ch.Path y x yNew z [] us) :
      Found st P ch positions fun m => collapse us fun i => if i = m then (1 : S) else 0
  | opened {y x yNew : S} (j i : ℕ) (zs : Finset S) (hz : zs.card = parts j)
      (tree : S → Tree C S st.params.k)
      (h : ∀ z ∈ zs, ch.Tried y x yNew z ∧ (tree z).Distinct ∧ P.Answers ch y x yNew z [] (tree z)) :
      Found st P ch positions fun m => (Lagrange.interpolate zs id fun z => (tree z).coeff j m).coeff i

/-- No two different vectors that the extractor computes have the same commitment. If there are two, it has
computed a relation between the generators, that is, broken the commitment scheme. -/
def Binding [Field S] [FieldApi S] [DecidableEq S] [AddCommGroup G] [Module S G] {α : Type} (g : ℕ → G)
    (st : Statement C S α) (P : Prover C S) (ch : Challenges S) (positions : List ℕ) : Prop :=
  ∀ v w, Found st P ch positions v → Found st P ch positions w →
    ∑ m ∈ Finset.range (2 ^ st.params.k), v m • g m = ∑ m ∈ Finset.range (2 ^ st.params.k), w m • g m →
    ∀ m < 2 ^ st.params.k, v m = w m

/-- The values of the wires in the coefficients of `r(X)`, of which there are `4n`: the wire `A(i)` is
the coefficient of `X^i`, `B(i)` that of `X^(-i)` and `C(i)` that of `X^(-i-n)`, and the first
coefficient is that of `X^(1-3n)`. -/
def wires (n : ℕ) (v : ℕ → S) : Var → S
  | .A i => v (3 * n - 1 + i)
  | .B i => v (3 * n - 1 - i)
  | .C i => v (2 * n - 1 - i)

end Proofs
end Halo
