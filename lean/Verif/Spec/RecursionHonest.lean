import Verif.Spec.Proofs
import Verif.Spec.RecursionCommit
import Verif.Spec.RecursionShape
import Verif.Spec.FieldApi
import Verif.Spec.Gadget.Bits
/-!
# Specification of histories of recursive proofs
-/
namespace Halo
namespace Recursion
open Circuit Proofs
variable {E1 E2 : CurveConsts} {B S : Type} [Field B] [DecidableEq B] [FieldApi B] [Field S] [DecidableEq S]
  [FieldApi S]

/-- What the participants agree on: the parameters of the two curves, whose generators stand for the points
`g1` and `g2`, the circuits of the user, which may hold different private data, the number of bytes of a
payload, and the payloads that are used. -/
structure Setup (E1 E2 : CurveConsts) (B S : Type) [Field B] [Field S] where
  params1 : Params (Proj B)
  params2 : Params (Proj S)
  g1 : ℕ → Pt (E1.b : B)
  g2 : ℕ → Pt (E2.b : S)
  user1 : RecursiveCircuit S → Prop
  user2 : RecursiveCircuit B → Prop
  bytes : ℕ
  admitted : List (BitVec 8) → Prop

/-- The same with the curves swapped -/
def Setup.swap (s : Setup E1 E2 B S) : Setup E2 E1 S B :=
  ⟨s.params2, s.params1, s.g2, s.g1, s.user2, s.user1, s.bytes, s.admitted⟩

/-- The number of public inputs of the verification circuit: the payload, two leftovers and a deferred
record -/
def Setup.bits (s : Setup E1 E2 B S) : ℕ := 8 * s.bytes + 2 * leftoversBits s.params1.k + deferredBits s.params1.k

/-- One half of what is needed of the setup: the parameters of the first curve are valid, their generators
are affine points, the first two that are used for public inputs are not opposite, and there are enough of
them. The user's circuits for the other curve are the same circuit, for the payloads that are used. -/
structure Setup.Half (s : Setup E1 E2 B S) : Prop where
  valid : ValidParams (Denotes (E1.b : B)) s.g1 s.params1
  affine : ∀ p ∈ s.params1.generators, p.z = 1
  first : s.g1 1 + s.g1 2 ≠ 0
  room : s.bits + 2 ≤ 2 ^ s.params1.k
  same : ∀ i i' payload, s.user1 i → s.user1 i' → s.admitted payload → i.Uniform i' (bytesBits payload)
  size : ∀ payload, s.admitted payload → payload.length = s.bytes
  inhabited : ∃ payload, s.admitted payload
  base : ∀ i, s.user1 i → i.basePayload.length = 8 * s.bytes

/-- What is needed of the setup; the code uses one `k` for both curves -/
structure Setup.Good (s : Setup E1 E2 B S) : Prop where
  k_eq : s.params1.k = s.params2.k
  one : s.Half
  two : s.swap.Half

/-- The number of cores, the function that rounds the logarithm, and how often a challenge is tried -/
structure Env where
  cpus : ℕ
  lnCeil : ℕ → ℕ
  fuel : ℕ

structure Env.Good (e : Env) : Prop where
  cpus : 0 < e.cpus
  ln : ∀ n, 32 ≤ n → n < 2 ^ 32 → 1 ≤ e.lnCeil n ∧ e.lnCeil n ≤ 57
  fuel : e.fuel ≤ 256

/-- The histories of honest participants: starting from nothing, everybody calls `create_proof` with a proof
that was made before, on the other curve, or with none, and with a new payload. (`inl` are proofs on the first
curve, `inr` those on the second.) -/
inductive Made (s : Setup E1 E2 B S) : RecursiveProof B S ⊕ RecursiveProof S B → Prop
  | first {e : Env} (he : e.Good) {i1 i2} (h1 : s.user1 i1) (h2 : s.user2 i2) {payload : List (BitVec 8)}
      (hp : s.admitted payload) {old : Option (RecursiveProof S B)} (hold : ∀ q ∈ old, Made s (.inr q))
      {p : RecursiveProof B S} (h : RecursiveProof.createProof E1 E2 e.cpus e.lnCeil e.fuel s.params1 s.params2
        old i1 i2 payload = .ok p) : Made s (.inl p)
  | second {e : Env} (he : e.Good) {i1 i2} (h1 : s.user1 i1) (h2 : s.user2 i2) {payload : List (BitVec 8)}
      (hp : s.admitted payload) {old : Option (RecursiveProof B S)} (hold : ∀ q ∈ old, Made s (.inl q))
      {p : RecursiveProof S B} (h : RecursiveProof.createProof E2 E1 e.cpus e.lnCeil e.fuel s.params2 s.params1
        old i2 i1 payload = .ok p) : Made s (.inr p)

/-- The bits that a step on the first curve commits to again, as the public inputs of the old proof; without
one they are made of the base payload, zeros, and dummies. -/
inductive OldBits (s : Setup E1 E2 B S) (e : Env) (i1 : RecursiveCircuit S) :
    Option (RecursiveProof S B) → List Bool → Prop
  | some (q) : OldBits s e i1 (some q) (bytesBits (q.inputBytes E2 E1))
  | none {l d} (hl : @Leftovers.dummy _ _ _ _ _ _ (Proj.curveOps E1 B S) e.cpus e.lnCeil s.params1 = some l)
      (hd : Deferred.dummy S s.params2.k = some d) :
      OldBits s e i1 none (i1.basePayload ++ List.replicate (leftoversBits s.params2.k) false ++
        bytesBits (@Leftovers.toBytes _ _ _ _ _ _ (Proj.curveOps E1 B S) l) ++ bytesBits d.toBytes)

/-- The payload of the old proof as bits -/
def oldPayload (i1 : RecursiveCircuit S) : Option (RecursiveProof S B) → List Bool
  | some q => bytesBits q.payload
  | none => i1.basePayload

/-- The honest prover can satisfy the user's circuit for the step from the old to the new payload. -/
def Accepts (i1 : RecursiveCircuit S) (old new : List Bool) : Prop :=
  ∀ (w : Var → S) (one : Var), w one = 1 → ∀ oldBits newBits : List AllocatedBit,
    List.Forall₂ (fun b v => b.Honest w v) oldBits old → List.Forall₂ (fun b v => b.Honest w v) newBits new →
    Complete w (i1.synthesize one oldBits newBits) fun _ => True

end Recursion
end Halo
