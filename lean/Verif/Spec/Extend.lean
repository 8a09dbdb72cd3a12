import Verif.Spec.Attest
import Verif.Model.Recursion.Proof
/-!
# Specification of a step that only accepts right proofs
-/
namespace Halo
namespace Recursion
open Circuit Proofs
variable {B S : Type} [Field B] [DecidableEq B] [FieldApi B] [Field S] [DecidableEq S] [FieldApi S]

/-- The old proof `q` of a step to the new payload is right, but for the three records that the new proof carries:
its deferred record is true; the verifier accepts it if and only if the new deferred record is true and the new leftovers and the
other leftovers of `q` are correct; and the step from its payload is one that the user's circuit allows. `v` is what the step
makes of `q`. -/
structure Extends (E1 E2 : CurveConsts) (cpus : ℕ) (lnCeil : ℕ → ℕ) (e1params : Params (Proj B)) (e2params : Params (Proj S))
    (q : RecursiveProof S B) (i1 : RecursiveCircuit S) (i2 : RecursiveCircuit B) (payload : List (BitVec 8))
    (v : Inner S B) : Prop where
  deferred : q.deferred.verify e1params.k = some true
  rest : q.verify E2 E1 cpus lnCeil e2params e1params i2 i1 = .ok true ↔
    v.deferred.verify e2params.k = some true ∧
    @Leftovers.verify _ _ _ _ _ (Proj.curveOps E2 S B) cpus lnCeil _ v.leftovers1 e2params
      ((blankCircuit e1params i2 q.payload : VerificationCircuit B S).synthesize E2 E1) = .ok true ∧
    @Leftovers.verify _ _ _ _ _ (Proj.curveOps E1 B S) cpus lnCeil _ q.oldproof2 e1params
      ((blankCircuit e2params i1 q.payload : VerificationCircuit S B).synthesize E1 E2) = .ok true
  step : ∀ R, Demands i1 R → R (bytesBits q.payload) (bytesBits payload)

end Recursion
end Halo
