import Verif.Model.Recursion.Proof
import Verif.Model.Dev
import Verif.Model.Count
/-!
# Development tools for recursive circuits (`src/dev.rs`)
-/
namespace Halo
namespace Recursion
open Circuit Proofs
variable {B S : Type} [Field B] [DecidableEq B] [FieldApi B] [Field S] [DecidableEq S] [FieldApi S]
  (E1 E2 : CurveConsts) (cpus : ℕ) (lnCeil : ℕ → ℕ)

/-- `src/dev.rs:344-348`: the public inputs as bytes -/
def satisfiedBytes (newPayload : List (BitVec 8)) (oldLeftovers : Leftovers (Proj B) S) (newLeftovers : Leftovers (Proj S) B)
    (newdeferred : Deferred B) : List (BitVec 8) :=
  newPayload ++ @Leftovers.toBytes _ _ _ _ _ _ (Proj.curveOps E1 B S) oldLeftovers ++
    @Leftovers.toBytes _ _ _ _ _ _ (Proj.curveOps E2 S B) newLeftovers ++ newdeferred.toBytes

/-- `src/dev.rs:291-363` `recursive_is_satisfied`, for the `Basic` driver. Lines 309-341 repeat lines 29-63 of
`src/recursion.rs`, which are `carried` and `newCircuit`; an error of the verifier is turned into a `SatisfactionError`. -/
def recursiveIsSatisfied (e1params : Params (Proj B)) (e2params : Params (Proj S))
    (oldProof : Option (RecursiveProof S B)) (inner1 : RecursiveCircuit S) (inner2 : RecursiveCircuit B)
    (newPayload : List (BitVec 8)) : Except (SatError S) Bool :=
  match carried E1 E2 cpus lnCeil e1params e2params oldProof inner1 inner2 with
  | .error (.err e) => .error (.synthesis e)
  | .error .panic => .error .panic
  | .ok v =>
    let circuit := newCircuit e2params oldProof inner1 newPayload v
    let inputs := satisfiedBytes E1 E2 newPayload v.leftovers2 v.leftovers1 v.deferred
    let bitinputs : List S := (bytesBits inputs).map fun b => if b then 1 else 0
    isSatisfied (circuit.synthesize E1 E2) bitinputs

/-- A circuit without namespaces -/
def anonymous {F α : Type} : Prog F α → Named F α
  | .pure a => .pure a
  | .throw e => .throw e
  | .panic => .panic
  | .alloc v k => .alloc [] v fun x o => anonymous (k x o)
  | .allocInput v k => .allocInput [] v fun x o => anonymous (k x o)
  | .enforceZero lc k => .enforceZero lc (anonymous k)
  | .multiply v k => .multiply [] v fun a b c o => anonymous (k a b c o)

/-- `src/dev.rs:722-756` `recursive_constraint_count`, for the `Basic` driver. The namespaces of the library's gadgets are not
modelled, so only the entry for the whole circuit, with the empty path, is; there is no slash in their names. -/
def recursiveConstraintCount (e2params : Params (Proj S)) (inner1 : RecursiveCircuit S) (newPayload : List (BitVec 8)) :
    Except Fail (Option Counts) := do
  let circuit : VerificationCircuit S B := blankCircuit e2params inner1 newPayload
  let counts ← constraintCount fun one => anonymous (circuit.synthesize E1 E2 one)
  .ok (counts [])

end Recursion
end Halo
