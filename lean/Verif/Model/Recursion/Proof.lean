import Verif.Model.Recursion.Circuit
/-!
# `RecursiveProof` (`src/recursion.rs:17-206`)

The user's circuit implements `RecursiveCircuit` for both fields, which are `inner1` and `inner2`.
-/
namespace Halo
namespace Recursion
open Circuit Proofs
variable {B S : Type} [Field B] [DecidableEq B] [FieldApi B] [Field S] [DecidableEq S] [FieldApi S]
  (E1 E2 : CurveConsts) (cpus : ℕ) (lnCeil : ℕ → ℕ)

/-- `src/recursion.rs:91-102`, `172-183`: the circuit without values, for a payload. The code makes
`circuit2` the same way, with the curves swapped (`104-115`, `185-196`). -/
def blankCircuit (params : Params (Proj S)) (inner : RecursiveCircuit S) (payload : List (BitVec 8)) :
    VerificationCircuit S B where
  params := params
  baseCase := none
  inner := inner
  proof := none
  newPayload := payload
  forkvalues := none
  oldLeftovers := none
  newLeftovers := none
  deferred := none

/-- `src/recursion.rs:125-129`: the public inputs as bytes -/
def RecursiveProof.inputBytes (self : RecursiveProof B S) : List (BitVec 8) :=
  self.payload ++ @Leftovers.toBytes _ _ _ _ _ _ (Proj.curveOps E1 B S) self.oldproof1 ++
    @Leftovers.toBytes _ _ _ _ _ _ (Proj.curveOps E2 S B) self.oldproof2 ++ self.deferred.toBytes

/-- `src/recursion.rs:131-145`: the commitment to the public inputs; generators that run out at a set
bit are a panic -/
def inputCommitment (generators : List (Proj B)) (bits : List Bool) : Option (Proj B) := do
  let start ← generators[1]?
  bits.zipIdx.foldlM (fun acc e =>
    if e.1 then (generators.drop 2)[e.2]?.map fun g => acc.add E1 g else some acc) start

/-- What `verify_inner` returns (`src/recursion.rs:81-90`) -/
structure Inner (B S : Type) where
  worked : Bool
  deferred : Deferred S
  leftovers1 : Leftovers (Proj B) S
  leftovers2 : Leftovers (Proj S) B
  forkvalues : List ℕ

/-- `src/recursion.rs:76-164` `verify_inner` -/
def RecursiveProof.verifyInner (self : RecursiveProof B S) (e1params : Params (Proj B))
    (e2params : Params (Proj S)) (inner1 : RecursiveCircuit S) (inner2 : RecursiveCircuit B) :
    Except Fail (Inner B S) := do
  let ops1 := Proj.curveOps E1 B S
  let ops2 := Proj.curveOps E2 S B
  let circuit1 : VerificationCircuit S B := blankCircuit e2params inner1 self.payload
  let circuit2 : VerificationCircuit B S := blankCircuit e1params inner2 self.payload
  let bits := bytesBits (self.inputBytes E1 E2)
  if e1params.generators.length < 2 then .error .panic
  let kCommitment ← ofOption (inputCommitment E1 e1params.generators bits)
  let bitinputs : List S := bits.map fun b => if b then 1 else 0
  let (worked, leftovers, deferred, forkvalues) ← @Proof.verify _ _ _ _ _ _ _ _ _ ops1 Transcript.rescue
    cpus lnCeil _ self.proof self.oldproof1 e1params (circuit1.synthesize E1 E2) bitinputs
    (some kCommitment)
  let worked2 ← @Leftovers.verify _ _ _ _ _ ops2 cpus lnCeil _ self.oldproof2 e2params
    (circuit2.synthesize E2 E1)
  .ok ⟨worked && worked2, deferred, leftovers, self.oldproof2, forkvalues⟩

/-- `src/recursion.rs:166-205` `verify` -/
def RecursiveProof.verify (self : RecursiveProof B S) (e1params : Params (Proj B))
    (e2params : Params (Proj S)) (inner1 : RecursiveCircuit S) (inner2 : RecursiveCircuit B) :
    Except Fail Bool := do
  let ops1 := Proj.curveOps E1 B S
  let ops2 := Proj.curveOps E2 S B
  let circuit1 : VerificationCircuit S B := blankCircuit e2params inner1 self.payload
  let circuit2 : VerificationCircuit B S := blankCircuit e1params inner2 self.payload
  let v ← self.verifyInner E1 E2 cpus lnCeil e1params e2params inner1 inner2
  let d1 ← ofOption (self.deferred.verify e2params.k)
  let d2 ← ofOption (v.deferred.verify e1params.k)
  let a ← @Leftovers.verify _ _ _ _ _ ops1 cpus lnCeil _ v.leftovers1 e1params
    (circuit1.synthesize E1 E2)
  let b ← @Leftovers.verify _ _ _ _ _ ops2 cpus lnCeil _ v.leftovers2 e2params
    (circuit2.synthesize E2 E1)
  .ok (v.worked && d1 && d2 && a && b)

/-- `src/recursion.rs:29-42`: what the new proof has to carry -/
def carried (e1params : Params (Proj B)) (e2params : Params (Proj S))
    (oldProof : Option (RecursiveProof S B)) (inner1 : RecursiveCircuit S) (inner2 : RecursiveCircuit B) :
    Except Fail (Inner S B) :=
  match oldProof with
  | some oldProof => oldProof.verifyInner E2 E1 cpus lnCeil e2params e1params inner2 inner1
  | none => do
    let ops1 := Proj.curveOps E1 B S
    let ops2 := Proj.curveOps E2 S B
    let deferred ← ofOption (Deferred.dummy B e2params.k)
    let l1 ← ofOption (@Leftovers.dummy _ _ _ _ _ _ ops2 cpus lnCeil e2params)
    let l2 ← ofOption (@Leftovers.dummy _ _ _ _ _ _ ops1 cpus lnCeil e1params)
    .ok ⟨true, deferred, l1, l2, List.replicate e2params.k 0⟩

/-- `src/recursion.rs:44-63`: the circuit that `create_proof` proves -/
def newCircuit (e2params : Params (Proj S)) (oldProof : Option (RecursiveProof S B))
    (inner1 : RecursiveCircuit S) (newPayload : List (BitVec 8)) (v : Inner S B) : VerificationCircuit S B where
  params := e2params
  baseCase := some oldProof.isNone
  inner := inner1
  proof := oldProof
  newPayload := newPayload
  forkvalues := some v.forkvalues
  oldLeftovers := some v.leftovers2
  newLeftovers := some v.leftovers1
  deferred := some v.deferred

/-- `src/recursion.rs:22-74` `create_proof`; whether the old proof `worked` is ignored, as in the code. -/
def RecursiveProof.createProof (fuel : ℕ) (e1params : Params (Proj B)) (e2params : Params (Proj S))
    (oldProof : Option (RecursiveProof S B)) (inner1 : RecursiveCircuit S) (inner2 : RecursiveCircuit B)
    (newPayload : List (BitVec 8)) : Except Fail (RecursiveProof B S) := do
  let ops1 := Proj.curveOps E1 B S
  let v ← carried E1 E2 cpus lnCeil e1params e2params oldProof inner1 inner2
  let circuit := newCircuit e2params oldProof inner1 newPayload v
  let (proof, _) ← @Proof.new _ _ _ _ _ _ _ _ _ ops1 Transcript.rescue fuel cpus lnCeil _ e1params
    (circuit.synthesize E1 E2) v.leftovers2
  .ok ⟨proof, v.leftovers2, v.leftovers1, v.deferred, newPayload⟩

end Recursion
end Halo
