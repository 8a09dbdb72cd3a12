import Verif.Spec.CheatCircuit
import Verif.Model.Recursion.Proof
import Verif.Spec.RecursionHonest
import Verif.Spec.Small
/-!
# An attack on the recursion

The attacker does not need any proof to start from. They make up an "old proof" for a payload of their choice
(`fakeProof`), whose inner product argument is nonsense, and lie about the sums in the last round of the
verification of this argument (`cheatFold`). Otherwise they do what `create_proof` does.
-/
namespace Halo
namespace Recursion
open Circuit Proofs
variable {B S : Type} [Field B] [DecidableEq B] [FieldApi B] [Field S] [DecidableEq S] [FieldApi S]
  (E1 E2 : CurveConsts) (cpus : ℕ) (lnCeil : ℕ → ℕ)

/-- A round without any meaning -/
def fakeRound : InnerProductRound (Proj B) S :=
  ⟨List.replicate 5 (Proj.one E1), List.replicate 5 (Proj.one E1), List.replicate 5 1, List.replicate 5 1⟩

/-- A proof without any meaning, but for three values -/
def fakeInner (k : ℕ) (sNew : Proj B) (tx : S) (g : Proj B) : Proof (Proj B) S where
  rCommitment := Proj.one E1
  sCurCommitment := Proj.one E1
  tPositiveCommitment := Proj.one E1
  tNegativeCommitment := Proj.one E1
  cCommitment := Proj.one E1
  sNewCommitment := sNew
  rxOpening := 0
  rxyOpening := 0
  sxOldOpening := 0
  sxCurOpening := 0
  txPositiveOpening := tx
  txNegativeOpening := 0
  sxNewOpening := 0
  innerProduct := ⟨List.replicate k (fakeRound E1), List.replicate 5 1, g⟩

/-- A made-up proof for a payload. The attacker runs the verifier to learn the first challenges, then commits
to the `s(X, y)` that the verifier will want, and chooses an opening such that the deferred relation holds;
then they run the verifier again to learn the challenges of the inner product argument, and fold the
generators accordingly. -/
def fakeProof (e1params : Params (Proj B)) (e2params : Params (Proj S)) (inner1 : RecursiveCircuit S)
    (inner2 : RecursiveCircuit B) (payload : List (BitVec 8)) : Except Fail (RecursiveProof B S) := do
  let _ops1 := Proj.curveOps E1 B S
  let l1 ← ofOption (@Leftovers.dummy _ _ _ _ _ _ (Proj.curveOps E1 B S) cpus lnCeil e1params)
  let l2 ← ofOption (@Leftovers.dummy _ _ _ _ _ _ (Proj.curveOps E2 S B) cpus lnCeil e2params)
  let deferred ← ofOption (Deferred.dummy B e2params.k)
  let fake := fun sNew tx g =>
    (⟨fakeInner E1 e1params.k sNew tx g, l1, l2, deferred, payload⟩ : RecursiveProof B S)
  let v ← (fake (Proj.one E1) 0 (Proj.one E1)).verifyInner E1 E2 cpus lnCeil e1params e2params inner1 inner2
  let circuit1 : VerificationCircuit S B := blankCircuit e2params inner1 payload
  let sx ← computeSx e1params.n (circuit1.synthesize E1 E2) v.deferred.yNew
  let sNew ← ofOption (e1params.commit cpus lnCeil sx false)
  let xInv ← ofOption (FieldApi.invert v.deferred.x)
  let _ ← ofOption (FieldApi.invert v.deferred.yCur)
  let tx := -(v.deferred.kyOpening * v.deferred.yCur ^ e1params.n) * xInv
  let v ← (fake sNew tx (Proj.one E1)).verifyInner E1 E2 cpus lnCeil e1params e2params inner1 inner2
  let (sq, _, _, allinv) ← ofOption (expandChallenges v.leftovers1.challengesSqPackedNew)
  let g ← ofOption (Util.computeG cpus lnCeil e1params.generators sq allinv)
  .ok (fake sNew tx g)

omit [Field S] [DecidableEq B] [DecidableEq S] [FieldApi S] in
/-- The coordinates of a point -/
def xy (p : Proj B) : B × B := p.getXy.getD (0, 0)

/-- The lies about the sums of the last round: they are such that the final check of the circuit succeeds. -/
def lies (proof : Proof (Proj B) S) (d : Deferred S) (j : ℕ) : Claims B :=
  let a := proof.innerProduct.a.getD j 0
  let b := [d.bX, d.bXy, d.bYOld, d.bYCur, d.bYNew].getD j 0
  (xy (Proj.one E1), xy (Proj.mul E1 proof.innerProduct.g a), xy (Proj.one E1), xy (Proj.mul E1 (Proj.one E1) (a * b)))

/-- `create_proof` (`src/recursion.rs:22-74`) by a prover that lies about the old proof -/
def lyingProof (fuel : ℕ) (e1params : Params (Proj B)) (e2params : Params (Proj S)) (q : RecursiveProof S B)
    (inner1 : RecursiveCircuit S) (inner2 : RecursiveCircuit B) (newPayload : List (BitVec 8)) :
    Except Fail (RecursiveProof B S) := do
  let ops1 := Proj.curveOps E1 B S
  let v ← q.verifyInner E2 E1 cpus lnCeil e2params e1params inner2 inner1
  let circuit := newCircuit e2params (some q) inner1 newPayload v
  let (proof, _) ← @Proof.new _ _ _ _ _ _ _ _ _ ops1 Transcript.rescue fuel cpus lnCeil _ e1params
    (circuit.synthesizeWith E1 E2 (cheatFold E2 B e2params.k (lies E2 q.proof v.deferred))) v.leftovers2
  .ok ⟨proof, v.leftovers2, v.leftovers1, v.deferred, newPayload⟩

/-- The whole attack: pretend that the chain has reached `oldPayload`, and make a proof of `newPayload`. -/
def forge (fuel : ℕ) (e1params : Params (Proj B)) (e2params : Params (Proj S)) (inner1 : RecursiveCircuit S)
    (inner2 : RecursiveCircuit B) (oldPayload newPayload : List (BitVec 8)) : Except Fail (RecursiveProof B S) := do
  let q ← fakeProof E2 E1 cpus lnCeil e2params e1params inner2 inner1 oldPayload
  lyingProof E1 E2 cpus lnCeil fuel e1params e2params q inner1 inner2 newPayload

omit [Field B] [DecidableEq B] [FieldApi B] [Field S] [DecidableEq S] [FieldApi S] in
/-- The proof with other numbers at the very end -/
def RecursiveProof.withLast (q : RecursiveProof B S) (a : List S) : RecursiveProof B S :=
  { q with proof := { q.proof with innerProduct := { q.proof.innerProduct with a := a } } }

/-- The public inputs of a step on the first curve: the new payload, and what is carried over -/
def stepBits (v : Inner S B) (payload : List (BitVec 8)) : List Bool :=
  bytesBits (payload ++ @Leftovers.toBytes _ _ _ _ _ _ (Proj.curveOps E1 B S) v.leftovers2 ++
    @Leftovers.toBytes _ _ _ _ _ _ (Proj.curveOps E2 S B) v.leftovers1 ++ v.deferred.toBytes)

/-- What is needed of an old proof for the attack: it has the shape of a proof, its deferred record is true, and
the points and numbers of the last round are not zero. Nothing is said about its validity. -/
structure Attackable {B S : Type} [Field B] [DecidableEq B] [LawfulField B] [Field S] [DecidableEq S]
    [LawfulField S] {E1 E2 : CurveConsts} (s : Setup E1 E2 B S) (q : RecursiveProof B S) : Prop where
  shape : q.WellShaped E1 s.params1.k (8 * s.bytes)
  rounds : q.proof.innerProduct.rounds.length = s.params1.k
  a : q.proof.innerProduct.a.length = 5
  last : ∀ r, q.proof.innerProduct.rounds.getLast? = some r →
    (∀ p ∈ r.L ++ r.R, ∀ A : Pt (E1.b : B), Denotes (E1.b : B) p A → A ≠ 0) ∧ ∀ u ∈ r.l ++ r.r, u ≠ 0
  small : q.deferred.Small
  wf : WellFormedDeferred s.params2.k q.deferred
  holds : TrueDeferred s.params2.k q.deferred

end Recursion
end Halo
