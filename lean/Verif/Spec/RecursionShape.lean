import Verif.Model.Recursion.Proof
import Verif.Spec.Gadget.Twin
import Verif.Spec.Curve
/-!
# The data that the verification circuit can deal with
-/
namespace Halo
namespace Recursion
open Circuit Proofs
variable {B F S : Type} [Field B] [Field F] [DecidableEq F]

/-- The point is on the curve. -/
def OnCurve (E : CurveConsts) (p : Proj F) : Prop := ∃ A : Pt (E.b : F), Denotes (E.b : F) p A

/-- What the circuit needs of the parameters: there are generators, they are affine points of the curve, and
the first two that it adds are not opposite. -/
structure GoodParams (E : CurveConsts) (params : Params (Proj F)) : Prop where
  k_ge : 2 ≤ params.k
  two : 2 ≤ params.generators.length
  gens : ∀ p ∈ params.generators, p.z = 1 ∧ OnCurve E p
  first : ∀ p q, params.generators[1]? = some p → params.generators[2]? = some q →
    ∀ A B : Pt (E.b : F), Denotes (E.b : F) p A → Denotes (E.b : F) q B → A + B ≠ 0

/-- The lists of a recursive proof have the right lengths for a circuit for `2 ^ k` generators and the
`n` bits of payload, and its points are on the curve. -/
structure RecursiveProof.WellShaped (E : CurveConsts) (k n : ℕ) (p : RecursiveProof B S) : Prop where
  payload : 8 * p.payload.length = n
  old1 : p.oldproof1.challengesSqPackedNew.length = k
  old2 : p.oldproof2.challengesSqPackedNew.length = k
  deferredOld : p.deferred.challengesSqPackedOld.length = k
  deferredNew : p.deferred.challengesSqPackedNew.length = k
  r : OnCurve E p.proof.rCommitment
  sCur : OnCurve E p.proof.sCurCommitment
  tPositive : OnCurve E p.proof.tPositiveCommitment
  tNegative : OnCurve E p.proof.tNegativeCommitment
  c : OnCurve E p.proof.cCommitment
  sNew : OnCurve E p.proof.sNewCommitment
  g : OnCurve E p.proof.innerProduct.g
  sOld : OnCurve E p.oldproof1.sNewCommitment
  gOld : OnCurve E p.oldproof1.gNew
  a : 5 ≤ p.proof.innerProduct.a.length
  rounds : k ≤ p.proof.innerProduct.rounds.length
  sizes : ∀ r ∈ p.proof.innerProduct.rounds, 5 ≤ r.L.length ∧ 5 ≤ r.R.length ∧ 5 ≤ r.l.length ∧ 5 ≤ r.r.length
  points : ∀ r ∈ p.proof.innerProduct.rounds, (∀ q ∈ r.L, OnCurve E q) ∧ ∀ q ∈ r.R, OnCurve E q

/-- The same for what the circuit is given -/
structure VerificationCircuit.WellShaped (E2 : CurveConsts) (c : VerificationCircuit F S) : Prop where
  newPayload : 8 * c.newPayload.length = c.inner.basePayload.length
  proof : ∀ p ∈ c.proof, p.WellShaped E2 c.params.k c.inner.basePayload.length
  forkvalues : ∀ fs ∈ c.forkvalues, c.params.k ≤ fs.length
  oldLeftovers : ∀ l ∈ c.oldLeftovers, l.challengesSqPackedNew.length = c.params.k
  newLeftovers : ∀ l ∈ c.newLeftovers, l.challengesSqPackedNew.length = c.params.k
  deferred : ∀ d ∈ c.deferred, d.challengesSqPackedOld.length = c.params.k ∧
    d.challengesSqPackedNew.length = c.params.k

/-- The public inputs: the bits of the new payload, of the leftovers of the old proof's curve, of the new
leftovers and of the deferred data; zeros if they are not known. -/
def VerificationCircuit.publicBits [FieldApi F] [Field S] [DecidableEq S] [FieldApi S] (E1 E2 : CurveConsts)
    (c : VerificationCircuit F S) : List Bool :=
  bytesBits c.newPayload ++
  bitsOr (c.oldLeftovers.map fun l => @Leftovers.toBytes _ _ _ _ _ _ (Proj.curveOps E1 S F) l)
    (leftoversBits c.params.k) ++
  bitsOr (c.newLeftovers.map fun l => @Leftovers.toBytes _ _ _ _ _ _ (Proj.curveOps E2 F S) l)
    (leftoversBits c.params.k) ++
  bitsOr (c.deferred.map Deferred.toBytes) (deferredBits c.params.k)

/-- The circuits of the user, which get the bits of the old and the new payload, have the same base
payload, ask for the same constraints and expose no public inputs. The second one is run without values,
except those of the new payload, which is given; it succeeds. -/
structure RecursiveCircuit.Uniform (inner inner' : RecursiveCircuit F) (payload : List Bool) : Prop where
  base : inner'.basePayload = inner.basePayload
  same : ∀ (V : Var → Prop) (one : Var), V one → ∀ old old' new new' : List AllocatedBit,
    old'.length = inner.basePayload.length → new'.length = inner.basePayload.length →
    List.Forall₂ (AllocatedBit.Twin V) old old' → List.Forall₂ (AllocatedBit.Twin V) new new' →
    new'.map (fun b => b.value) = payload.map some →
    Twin V (inner.synthesize one old new) (inner'.synthesize one old' new') fun _ _ => True

end Recursion
end Halo
