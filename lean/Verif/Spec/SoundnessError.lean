import Verif.Spec.Soundness
import Mathlib.Data.Rat.Defs
import Mathlib.Data.Finset.Union
import Mathlib.Algebra.Order.Field.Rat
/-!
# Specification of the soundness error

The challenges are drawn at random from finite sets. The probability of an event is the fraction of the outcomes
that belong to it.
-/
namespace Halo
namespace Proofs
variable {S : Type}

open Classical in
/-- The fraction of the elements of `s` that have the property `p` -/
noncomputable def fraction {α : Type} (s : Finset α) (p : α → Prop) : ℚ := (s.filter p).card / s.card

/-- All lists of `k` elements of `U` -/
def sequences [DecidableEq S] (U : Finset S) : ℕ → Finset (List S)
  | 0 => {[]}
  | k + 1 => (U ×ˢ sequences U k).image fun p => p.1 :: p.2

theorem mem_sequences [DecidableEq S] {U : Finset S} {k : ℕ} {us : List S} :
    us ∈ sequences U k ↔ us.length = k ∧ ∀ u ∈ us, u ∈ U := by
  induction k generalizing us with
  | zero => cases us <;> simp [sequences]
  | succ k ih =>
    cases us with
    | nil => simp [sequences]
    | cons u us => simp [sequences, ih]; tauto

/-- The sets from which the challenges `y`, `x`, `yNew` and `z` are drawn, and those of the rounds -/
structure Spaces (S : Type) where
  y : Finset S
  x : Finset S
  yNew : Finset S
  z : Finset S
  u : Finset S

/-- All outcomes for `k` rounds -/
def Spaces.outcomes [DecidableEq S] (sp : Spaces S) (k : ℕ) : Finset (S × S × S × S × List S) :=
  sp.y ×ˢ sp.x ×ˢ sp.yNew ×ˢ sp.z ×ˢ sequences sp.u k

/-- The soundness error, for `2^k` generators and `Q` linear constraints -/
def Spaces.error (sp : Spaces S) (k Q : ℕ) : ℚ :=
  (2 ^ k + 3 * Q) / sp.y.card + 3 * 2 ^ k / sp.x.card + (2 ^ k + 2 * Q) / sp.yNew.card + 12 / sp.z.card +
    4 * k / sp.u.card

/-- The extractor tries challenges from these sets, and exactly so many: a number of runs that is polynomial in the
number `2^k` of generators and the number `Q` of linear constraints. -/
structure Challenges.Few (ch : Challenges S) (sp : Spaces S) (k Q : ℕ) : Prop where
  ys : ch.ys ⊆ sp.y ∧ ch.ys.card = 2 ^ k + 3 * Q + 1
  xs : ∀ y ∈ ch.ys, ch.xs y ⊆ sp.x ∧ (ch.xs y).card = 3 * 2 ^ k
  yNews : ∀ y ∈ ch.ys, ∀ x ∈ ch.xs y, ch.yNews y x ⊆ sp.yNew ∧ (ch.yNews y x).card = 2 ^ k + 2 * Q + 1
  zs : ∀ y ∈ ch.ys, ∀ x ∈ ch.xs y, ∀ yNew ∈ ch.yNews y x, ch.zs y x yNew ⊆ sp.z ∧ (ch.zs y x yNew).card = 13
  us : ∀ y x yNew z, ch.Tried y x yNew z → ∀ pre, ch.us y x yNew z pre ⊆ sp.u ∧ (ch.us y x yNew z pre).card = 5

/-- The prover that has decided on its messages before it knows any challenge: those of the given proof -/
def Prover.fixed {C : Type} (π : Proof C S) : Prover C S where
  r := π.rCommitment
  sCur _ := π.sCurCommitment
  tPositive _ := π.tPositiveCommitment
  tNegative _ := π.tNegativeCommitment
  c _ _ := π.cCommitment
  sNew _ _ _ := π.sNewCommitment
  openings _ _ _ := ⟨π.rxOpening, π.rxyOpening, π.sxOldOpening, π.sxCurOpening, π.txPositiveOpening, π.txNegativeOpening,
    π.sxNewOpening⟩
  round _ _ _ _ pre := π.innerProduct.rounds.getD pre.length ⟨[], [], [], []⟩
  last _ _ _ _ _ := (π.innerProduct.a, π.innerProduct.g)

section
variable (S) [Field S] [FieldApi S] [DecidableEq S]

/-- The challenges that the code can draw: numbers of 128 bits whose highest bit is one -/
def challengeSpace : Finset S := (Finset.range (2 ^ 127)).image fun i => ((2 ^ 127 + i : ℕ) : S)

/-- The scalars that they stand for -/
def scalarSpace : Finset S := (challengeSpace S).image fun c => Util.getChallengeScalar c

/-- The square roots of these scalars, as far as they have any: the code draws until it finds one. -/
def rootSpace : Finset S := (challengeSpace S).biUnion fun c => (FieldApi.sqrt (Util.getChallengeScalar c : S)).toFinset

/-- The sets from which the code draws -/
def Spaces.code : Spaces S := ⟨challengeSpace S, challengeSpace S, challengeSpace S, scalarSpace S, rootSpace S⟩

end
end Proofs
end Halo
