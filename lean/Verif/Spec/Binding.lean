import Verif.Spec.Acceptance
/-!
# Specification: what of the messages of a proof the challenges depend on
-/
namespace Halo
namespace Proofs
variable {F C S : Type}

/-- The two lists of field elements have the same length and agree at every position that is not a multiple of twelve. -/
def SameSeen (m m' : List F) : Prop :=
  m.length = m'.length ∧ ∀ i, i % 12 ≠ 0 → m[i]? = m'[i]?

section
variable [Field F] [FieldApi F] [FieldApi S] [CurveOps C F S]

/-- A point as it is sent: its two coordinates; two zeros for the identity -/
def sent (p : C) : List F :=
  match CurveOps.getXy p with
  | some (x, y) => [x, y]
  | none => [0, 0]

variable (C) in
/-- A scalar as it is sent: as a multiple of the generator of the curve -/
def sentScalar (s : S) : List F := sent (CurveApi.mul (CurveOps.one : C) s)

/-- The messages before the challenges `y`, `x`, `yNew` and `z` -/
def Proof.messages (π : Proof C S) (K : C) (ky gx : S) : List (List F) :=
  [sent K ++ sent π.rCommitment,
   sent π.sCurCommitment ++ sent π.tPositiveCommitment ++ sent π.tNegativeCommitment,
   sent π.cCommitment,
   sent π.sNewCommitment ++ [ky, π.rxOpening, π.rxyOpening, π.sxOldOpening, π.sxCurOpening, π.txPositiveOpening,
      π.txNegativeOpening, π.sxNewOpening, gx].flatMap (sentScalar C)]

/-- The message of a round: the five entries `L`, `R`, `l`, `r` -/
def roundMessage (es : List (C × C × S × S)) : List F :=
  es.flatMap fun e => sent e.1 ++ sent e.2.1 ++ sentScalar C e.2.2.1 ++ sentScalar C e.2.2.2

/-- The messages of the two rounds agree at every position that is not a multiple of twelve; or neither has five entries. -/
def InnerProductRound.SameSeen (r r' : InnerProductRound C S) : Prop :=
  (r.entries 5 = none ∧ r'.entries 5 = none) ∨
    ∃ es es', r.entries 5 = some es ∧ r'.entries 5 = some es' ∧ Proofs.SameSeen (roundMessage es) (roundMessage es')

end

section
variable [Field S] [FieldApi S] [Field F] [FieldApi F]

/-- The image of a point under the endomorphism `(x, y) ↦ (βx, y)` of the curve -/
def turnPoint (p : Proj F) : Proj F := ⟨FieldApi.beta * p.x, p.y, p.z⟩

/-- A round with `L 0` and `L 3` replaced by their images, and `l 1` and `l 4` by their multiples -/
def InnerProductRound.turn (r : InnerProductRound (Proj F) S) : InnerProductRound (Proj F) S :=
  { r with L := r.L.mapIdx fun j p => if j = 0 ∨ j = 3 then turnPoint p else p,
           l := r.l.mapIdx fun j s => if j = 1 ∨ j = 4 then FieldApi.beta * s else s }

/-- A proof with three commitments replaced by their images, one opening by its multiple, and the rounds turned -/
def Proof.turn (π : Proof (Proj F) S) : Proof (Proj F) S :=
  { π with sCurCommitment := turnPoint π.sCurCommitment, cCommitment := turnPoint π.cCommitment,
           sNewCommitment := turnPoint π.sNewCommitment, txPositiveOpening := FieldApi.beta * π.txPositiveOpening,
           innerProduct := { π.innerProduct with rounds := π.innerProduct.rounds.map (·.turn) } }
end

end Proofs
end Halo
