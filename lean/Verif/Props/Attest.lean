import Verif.Lemmas.Recursion.Attest
import Verif.Lemmas.Example.Sound
import Verif.Props.RecursionHonest
/-!
# C65, what holds: what a satisfied verification circuit says about the last step

C65 is false (`Verif.Props.Forgery`): a satisfied verification circuit does not say that the old proof was
accepted. `Verif.Spec.Attest` lists what it does say.
-/
namespace Halo
namespace Recursion
open Circuit Proofs
variable {E1 E2 : CurveConsts} {F S : Type} [Field F] [DecidableEq F] [LawfulField F] [Field S] [DecidableEq S]
  [LawfulField S]

/-- **C65**, what holds: for every assignment that satisfies the constraints of a verification circuit, as the
prover or the verifier derives them, with the bits of a new payload, leftovers of the two curves and a deferred
record as public inputs, there are an old payload that is in the relation that the user's circuit demands to the
new one, old leftovers, and an old deferred record whose claims are true up to signs. In the base case the old
payload is the base payload. Otherwise there are messages of a proof such that the challenges in the leftovers and
in the deferred record are those of the transcript of these messages.
Missing, and false, see `C65_any_old_proof`: that the sums in the last round are right. -/
theorem C65_last_step_partial {known : Bool} {c : VerificationCircuit F S} (hc : c.WellShaped E2)
    {R : List Bool → List Bool → Prop} (hR : Demands c.inner R) {t : System F}
    (ht : circuitSystem known (c.synthesize E1 E2) = .ok ((), t)) {w : Var → F} {new l1 l2 d : List Bool}
    (hnew : new.length = 8 * c.newPayload.length) (hl1 : l1.length = leftoversBits c.params.k)
    (hl2 : l2.length = leftoversBits c.params.k) (hd : d.length = deferredBits c.params.k)
    (hw : t.Satisfied w ((new ++ l1 ++ l2 ++ d).map fun b => if b then 1 else 0)) :
    ∃ (base : Bool) (old oldL oldD : List Bool),
      LastStep F c.inner.basePayload c.params.k R new l2 d base old oldL oldD :=
  holds_of_soundIn (Q := fun _ => ∃ (base : Bool) (old oldL oldD : List Bool),
    LastStep F c.inner.basePayload c.params.k R new l2 d base old oldL oldD) ht hw fun _ h1 => synthesize_attests hc hR hnew hl1 hl2 hd h1

omit [DecidableEq F] in
/-- The Bitcoin example demands that the new payload follows the old one (C63). -/
theorem C65_bitcoin_demands : Demands (Example.bitcoin : RecursiveCircuit F) fun old new =>
    old.length = Bitcoin.payloadBits → new.length = Bitcoin.payloadBits →
      Bitcoin.Follows F old new := by
  intro w one h1 ob nb old new ho hn
  by_cases hl : old.length = Bitcoin.payloadBits ∧ new.length = Bitcoin.payloadBits
  · exact (Example.sound_bitcoin h1 ho hn hl.1 hl.2).mono fun _ h _ _ => h.1
  · exact Sound.anyway _ fun _ h h' => (hl ⟨h, h'⟩).elim

omit [DecidableEq F] [LawfulField F] in
/-- The circuit of `Verif.Props.RecursionShape` demands that the first bit of the new payload is set. -/
theorem firstBit_demands : Demands (firstBit : RecursiveCircuit F) fun _ new => new[0]? = some true := by
  intro w one h1 ob nb old new _ hn
  cases hn with
  | nil => trivial
  | @cons b v _ _ hb _ =>
    have hi : ∀ {b : AllocatedBit} {l}, (Sha256.index (b :: l) 0 : Prog F _) = .pure b := rfl
    simp only [firstBit, hi, sound_bind, sound_pure, sound_enforce, LC.eval_subVar, LC.eval_ofVar, h1, sub_eq_zero]
    intro h
    cases v <;> simp_all [AllocatedBit.Means]

/-- The circuit of the first step of C61, for the curves of the code, meets the hypotheses. -/
example : ∃ (c : VerificationCircuit Fp Fq) (t : System Fp) (w : Var → Fp) (new l1 l2 d : List Bool),
    c.WellShaped ec1 ∧ Demands c.inner (fun _ new => new[0]? = some true) ∧
    circuitSystem true (c.synthesize ec0 ec1) = .ok ((), t) ∧ new.length = 8 * c.newPayload.length ∧
    l1.length = leftoversBits c.params.k ∧ l2.length = leftoversBits c.params.k ∧ d.length = deferredBits c.params.k ∧
    t.Satisfied w ((new ++ l1 ++ l2 ++ d).map fun b => if b then 1 else 0) := by
  obtain ⟨s, v, hs, -, h1, h2, hp, hv, hsat⟩ := first_step_example
  have he : Env.Good ⟨4, fun _ => 3, 1⟩ := ⟨by norm_num, by simp, by norm_num⟩
  obtain ⟨v', hv', hok, -⟩ := carried_ok hs (old := none) nofun h1 h2 he.cpus he.ln
  obtain rfl : v = v' := Except.ok.inj (hv.symm.trans hv')
  have hw := newCircuit_wellShaped hs (old := none) nofun h1 h2 hok.toCarriable hp
  obtain ⟨t, ht, -, -, h⟩ := (C29_is_satisfied _ _).1 hsat
  exact ⟨_, t, _, _, _, _, _, hw, firstBit_demands, ht, length_bytesBits _,
    bitsOr_length fun l hl => leftovers_length (hw.oldLeftovers l hl),
    bitsOr_length fun l hl => leftovers_length (hw.newLeftovers l hl),
    bitsOr_length fun l hl => deferred_length (hw.deferred l hl).1 (hw.deferred l hl).2, h⟩

end Recursion
end Halo
