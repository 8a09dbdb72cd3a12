import Verif.Lemmas.Recursion.Forge
import Verif.Props.RecursionHonest
/-!
# C65: what an accepted recursive proof says about the steps before the last one

C65 is that a prover can satisfy the verification circuit only if the old proof that it was made from is
accepted, so that an accepted proof attests to a whole history. This is false: the circuit accepts any point as
the sum of two points other than the identity (C40, C41), so a prover can claim what they like about the sums of
the last round of the inner product argument. `Verif.Spec.Forgery` is the resulting attack.
-/
namespace Halo
namespace Recursion
open Circuit Proofs
variable {E1 E2 : CurveConsts} {B S : Type} [Field B] [DecidableEq B] [LawfulField B] [Field S] [DecidableEq S]
  [LawfulField S] [HaloCurve E1 B S] [HaloCurve E2 S B] {s : Setup E1 E2 B S} {cpus : ℕ} {lnCeil : ℕ → ℕ}
  {i1 i1' : RecursiveCircuit S} {i2 : RecursiveCircuit B} {payload oldPayload newPayload : List (BitVec 8)}

/-- **C65 fails** in the circuit: from any old proof of the right shape, whose deferred record is true and
whose last round is not zero, whether it is accepted or not, there is a way to satisfy the circuit as the
verifier of the next step sees it, for every new payload that the user's circuit accepts after that of the old
proof. -/
theorem C65_any_old_proof (hs : s.Good) (h1 : s.user1 i1) (h1' : s.user1 i1') (hp : s.admitted payload)
    {q : RecursiveProof S B} (hq : Attackable s.swap q) {v : Inner S B}
    (hv : q.verifyInner E2 E1 cpus lnCeil s.params2 s.params1 i2 i1 = .ok v)
    (hapart : Apart s.g2 (bytesBits (q.inputBytes E2 E1)))
    (hacc : Accepts i1 (bytesBits q.payload) (bytesBits payload)) :
    ∃ a t w, circuitSystem false ((blankCircuit s.params2 i1' payload : VerificationCircuit S B).synthesize E1 E2) =
      .ok (a, t) ∧ t.Satisfied w ((stepBits E1 E2 v payload).map fun b => if b then 1 else 0) :=
  lying_satisfies hs h1 hp hq hv hapart hacc h1'

/-- **C65 fails** in the circuit: among these old proofs there are ones that are rejected. -/
theorem C65_rejected_old_proof (hs : s.Good) (h1 : s.user1 i1) (h1' : s.user1 i1') (hp : s.admitted payload)
    {q : RecursiveProof S B} (hq : Attackable s.swap q) {v : Inner S B}
    (hv : q.verifyInner E2 E1 cpus lnCeil s.params2 s.params1 i2 i1 = .ok v) (hb : v.deferred.bX ≠ 0)
    (hapart : Apart s.g2 (bytesBits (q.inputBytes E2 E1)))
    (hacc : Accepts i1 (bytesBits q.payload) (bytesBits payload)) :
    ∃ q' : RecursiveProof S B, q'.payload = q.payload ∧
      q'.verify E2 E1 cpus lnCeil s.params2 s.params1 i2 i1 ≠ .ok true ∧
      ∃ v', q'.verifyInner E2 E1 cpus lnCeil s.params2 s.params1 i2 i1 = .ok v' ∧ v'.worked = false ∧
      ∃ a t w, circuitSystem false ((blankCircuit s.params2 i1' payload : VerificationCircuit S B).synthesize E1 E2) =
        .ok (a, t) ∧ t.Satisfied w ((stepBits E1 E2 v' payload).map fun b => if b then 1 else 0) := by
  obtain ⟨a, hq', hv'⟩ := other_inner hs.swap hq hv hb
  have hv' : (q.withLast a).verifyInner E2 E1 cpus lnCeil s.params2 s.params1 i2 i1 =
      .ok { v with worked := false } := hv'
  refine ⟨q.withLast a, rfl, ?_, _, hv', rfl, lying_satisfies hs h1 hp hq' hv' hapart hacc h1'⟩
  unfold RecursiveProof.verify
  simp only [hv', Except.bind_ok, Bool.false_and, ne_eq, bind_eq_ok, Except.ok.injEq, Bool.false_eq_true, and_false,
    exists_false, not_false_eq_true]

/-- **C65 fails** for whole proofs: what the attack returns is accepted by every verifier. The attacker starts
with no proof at all and chooses both payloads. -/
theorem C65_forged_proof_accepted (hs : s.Good) {e : Env} (he : e.Good) (h1 : s.user1 i1) (h1' : s.user1 i1')
    {i2' : RecursiveCircuit B} (h2 : s.user2 i2) (h2' : s.user2 i2') (hold : s.admitted oldPayload)
    (hnew : s.admitted newPayload) {p : RecursiveProof B S}
    (h : forge E1 E2 e.cpus e.lnCeil e.fuel s.params1 s.params2 i1 i2 oldPayload newPayload = .ok p) :
    p.payload = newPayload ∧ p.verify E1 E2 e.cpus e.lnCeil s.params1 s.params2 i1' i2' = .ok true := by
  unfold forge lyingProof at h
  simp only [bind_eq_ok, Except.ok.injEq] at h
  obtain ⟨q, hq, v, hv, ⟨π, l⟩, hnew', rfl⟩ := h
  obtain ⟨-, hatt, hc⟩ := fake_ok (s := s.swap) hs.swap h2 h1 hold he.cpus he.ln hq
  exact ⟨rfl, (new_valid hs he h1 h2 hnew (old := some q) (fun q' hq' => by cases hq'; exact hatt.shape) (hc v hv)
    (fun V => foldTwin_cheatFold) hnew').verify hs h1' h2' he.cpus he.ln⟩

/-- The attacker's circuit is satisfied if the user's circuit can be satisfied and no addition in the commitment
to the old public inputs is exceptional: nothing but an unlucky search for a challenge stops the attack. -/
theorem C65_forger_satisfies (hs : s.Good) {e : Env} (he : e.Good) (h1 : s.user1 i1) (h2 : s.user2 i2)
    (hold : s.admitted oldPayload) {q : RecursiveProof S B}
    (hq : fakeProof E2 E1 e.cpus e.lnCeil s.params2 s.params1 i2 i1 oldPayload = .ok q) {v : Inner S B}
    (hv : q.verifyInner E2 E1 e.cpus e.lnCeil s.params2 s.params1 i2 i1 = .ok v)
    (hapart : Apart s.g2 (bytesBits (q.inputBytes E2 E1)))
    (hacc : Accepts i1 (bytesBits oldPayload) (bytesBits newPayload)) :
    Provable ((newCircuit s.params2 (some q) i1 newPayload v).synthesizeWith E1 E2
      (cheatFold E2 B s.params2.k (lies E2 q.proof v.deferred))) fun _ _ => True := by
  obtain ⟨hpay, hatt, -⟩ := fake_ok (s := s.swap) hs.swap h2 h1 hold he.cpus he.ln hq
  exact lying_provable hs hatt hv hapart (hpay ▸ hacc)

/-- A made-up proof for a payload that no step leads to, in the setup of C60 for the curves of the code: it meets what is asked of the old proof. (The kernel cannot run the search for
challenges that `verify_inner` performs.) -/
example : ∃ (s : Setup ec0 ec1 Fq Fp) (q : RecursiveProof Fp Fq), s.Good ∧ s.user1 firstBit ∧ s.user2 firstBit ∧
    s.admitted [2#8] ∧ s.admitted [1#8] ∧ q.payload = [2#8] ∧ Attackable s.swap q ∧
    Apart s.g2 (bytesBits (q.inputBytes ec1 ec0)) ∧
    Accepts (firstBit : RecursiveCircuit Fp) (bytesBits q.payload) (bytesBits [1#8]) := by
  obtain ⟨s, hs, hk, h1, h2, hb, ha⟩ := setup_example (E1 := ec0) (E2 := ec1) (B := Fq) (S := Fp) (k := 22) (by norm_num)
    (by norm_num)
  have he : Env.Good ⟨4, fun _ => 3, 1⟩ := ⟨by norm_num, by simp, by norm_num⟩
  obtain ⟨l1, -, -, k1⟩ := dummy_leftovers hs.swap h2 he.cpus he.ln
  obtain ⟨l2, -, -, k2⟩ := dummy_leftovers hs h1 he.cpus he.ln
  have hk2 : 2 ≤ s.params1.k := by rw [hk]; norm_num
  obtain ⟨d, -, hw, ht, hsm, e5, e6, -⟩ := dummy_record (E := ec0) (F := Fq) (S := Fp) hk2
  have hone : OnCurve ec1 (Proj.one ec1 : Proj Fp) := by
    obtain ⟨G, h, -⟩ := one_denotes ec1 Fp Fq
    exact ⟨G, h⟩
  have hsh := fake_wellShaped (s := s.swap) hs.swap (payload := [2#8]) ((hb _).2 rfl) k1 k2 h2 h1 e5 e6 hone hone 0
  have hlen := inputBytes_length (E1 := ec1) (E2 := ec0) (s := s.swap) (k := s.swap.params1.k)
    (by have := hsh.payload; omega) hsh.old1 hsh.old2 hsh.deferredOld hsh.deferredNew
  refine ⟨s, ⟨fakeInner ec1 s.params2.k (Proj.one ec1) 0 (Proj.one ec1), l1, l2, d, [2#8]⟩, hs, h1, h2, (hb _).2 rfl,
    (hb _).2 rfl, rfl, ⟨hsh, List.length_replicate, List.length_replicate, fun r hr =>
      fake_last _ _ _ _ r (List.mem_of_getLast? hr), hsm, hw, ht⟩, (ha _ ?_).2, firstBit_accepts _ rfl⟩
  have hk' : s.swap.params1.k = 22 := hs.k_eq.symm.trans hk
  have hby : s.swap.bytes = 1 := (hs.two.size [0#8] ((hb _).2 rfl)).symm
  have hlen' : _ = _ := hlen
  rw [hk', hby] at hlen'
  refine lt_of_le_of_lt (le_of_eq hlen') ?_
  rw [leftoversBits, deferredBits]
  norm_num

end Recursion
end Halo
