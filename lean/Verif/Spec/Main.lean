import Verif.Model.Example.Main
import Verif.Spec.Stuck
import Verif.Spec.RecursionHonest
import Verif.Lemmas.CurveEndo
/-!
# Specification for the programs of the examples
-/
namespace Halo
namespace Example
open Circuit Proofs Recursion
variable {E1 E2 : CurveConsts} {B S : Type} [Field B] [DecidableEq B] [LawfulField B] [Field S] [DecidableEq S]
  [LawfulField S] [HaloCurve E1 B S] [HaloCurve E2 S B]

/-- The two things that can keep `create_proof` from returning a proof for a step on the first curve that is possible: an
addition in the commitment to the old public inputs is exceptional; or a round of the opening argument, which is one for true
claims, finds no challenge that is a square, so that the code would go on looking for one. -/
def Unlucky (s : Setup E1 E2 B S) (e : Env) (i1 : RecursiveCircuit S) (i2 : RecursiveCircuit B)
    (old : Option (RecursiveProof S B)) (payload : List (BitVec 8)) : Prop :=
  letI := Proj.curveOps E1 B S
  letI := HaloCurve.module (E := E1) (F := B) (S := S)
  (∃ bits, OldBits s e i1 old bits ∧ ¬ Apart s.g2 bits) ∨
  ∃ (claims : List (PolynomialOpening (Proj B) S × List S)) (t : Rescue B),
    (∀ c ∈ claims, ValidClaim (Denotes (E1.b : B)) s.g1 s.params1.k c.1 c.2) ∧
    (∀ fuel ≤ 256,
      (∃ p, RecursiveProof.createProof E1 E2 e.cpus e.lnCeil fuel s.params1 s.params2 old i1 i2 payload = .ok p) ↔
        ¬ StuckOpening Transcript.rescue fuel e.cpus e.lnCeil claims s.params1.generators s.params1.k t) ∧
    StuckOpening Transcript.rescue e.fuel e.cpus e.lnCeil claims s.params1.generators s.params1.k t

/-- The same for the curve whose turn it is -/
def CycleStep.Unlucky (s : Setup E1 E2 B S) (e : Env) (i1 : RecursiveCircuit S) (i2 : RecursiveCircuit B) :
    CycleStep B S → List (BitVec 8) → Prop
  | .stepA old, payload => Example.Unlucky s e i1 i2 old payload
  | .stepB old, payload => Example.Unlucky s.swap e i2 i1 old payload

/-- The last proof, if there is one, is one of a history of honest participants. -/
def CycleStep.Made (s : Setup E1 E2 B S) : CycleStep B S → Prop
  | .stepA old => ∀ q ∈ old, Recursion.Made s (.inr q)
  | .stepB old => ∀ q ∈ old, Recursion.Made s (.inl q)

/-- The payload of the last proof, as bits; the base payload if there is none -/
def CycleStep.payload (i1 : RecursiveCircuit S) (i2 : RecursiveCircuit B) : CycleStep B S → List Bool
  | .stepA old => oldPayload i1 old
  | .stepB old => oldPayload i2 old

/-- Both circuits allow the steps of this chain of payloads. -/
def Allowed (i1 : RecursiveCircuit S) (i2 : RecursiveCircuit B) (start : List Bool) (inputs : List (List (BitVec 8))) :
    Prop :=
  List.IsChain (fun a b => Accepts i1 a b ∧ Accepts i2 a b) (start :: inputs.map bytesBits)

end Example
end Halo
