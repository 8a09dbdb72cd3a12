import Verif.Lemmas.Recursion.Dev
import Verif.Props.Count
import Verif.Props.Honest
import Verif.Props.Verdict
import Verif.Props.RecursionHonest
/-!
# Development tools for recursive circuits (C75)
-/
namespace Halo
namespace Recursion
open Circuit Proofs
variable {E1 E2 : CurveConsts} {B S : Type} [Field B] [DecidableEq B] [LawfulField B] [Field S] [DecidableEq S]
  [LawfulField S]

/-- **C75**: for all arguments, whether the old proof is right or not, `recursive_is_satisfied` answers `Ok(true)` exactly if
`create_proof` gets as far as the proof of its circuit, and this circuit, with the values of the prover, is satisfied for the
bits that `verify` takes as public inputs, when it is given the data that the new proof carries. -/
theorem C75_is_satisfied {cpus : ℕ} {lnCeil : ℕ → ℕ} {params1 : Params (Proj B)} {params2 : Params (Proj S)}
    {old : Option (RecursiveProof S B)} {i1 : RecursiveCircuit S} {i2 : RecursiveCircuit B} {payload : List (BitVec 8)} :
    recursiveIsSatisfied E1 E2 cpus lnCeil params1 params2 old i1 i2 payload = .ok true ↔
      ∃ v t, carried E1 E2 cpus lnCeil params1 params2 old i1 i2 = .ok v ∧
        circuitSystem true ((newCircuit params2 old i1 payload v).synthesize E1 E2) = .ok ((), t) ∧
        (∀ lc ∈ t.lcs, ∀ u ∈ lc.terms, 1 ≤ u.1.index ∧ u.1.index ≤ t.gates) ∧
        ∀ proof, let bits := bytesBits (RecursiveProof.inputBytes E1 E2
            ⟨proof, v.leftovers2, v.leftovers1, v.deferred, payload⟩)
          t.inputs.length = bits.length + 1 ∧ t.Satisfied t.w (bits.map fun b => if b then 1 else 0) := by
  unfold recursiveIsSatisfied
  cases carried E1 E2 cpus lnCeil params1 params2 old i1 i2 with
  | error e => cases e <;> simp
  | ok v =>
    simp only [Except.ok.injEq]
    rw [C29_is_satisfied]
    simp only [List.length_map, RecursiveProof.inputBytes, satisfiedBytes]
    constructor
    · rintro ⟨t, h1, h2, h3, h4⟩
      exact ⟨v, t, rfl, h1, h3, fun _ => ⟨h2, h4⟩⟩
    · rintro ⟨_, t, rfl, h1, h3, h4⟩
      have := h4 ⟨.zero, .zero, .zero, .zero, .zero, .zero, 0, 0, 0, 0, 0, 0, 0, ⟨[], [], .zero⟩⟩
      exact ⟨t, h1, this.1, h3, this.2⟩

/-- **C75**, failures: if the old proof, or a circuit in place of it, makes `create_proof` fail before it comes to its own
circuit, then `recursive_is_satisfied` reports the same error, and panics if `create_proof` does. -/
theorem C75_fails {cpus : ℕ} {lnCeil : ℕ → ℕ} {params1 : Params (Proj B)} {params2 : Params (Proj S)}
    {old : Option (RecursiveProof S B)} {i1 : RecursiveCircuit S} {i2 : RecursiveCircuit B} {payload : List (BitVec 8)} {e : Fail}
    (h : carried E1 E2 cpus lnCeil params1 params2 old i1 i2 = .error e) (fuel : ℕ) :
    RecursiveProof.createProof E1 E2 cpus lnCeil fuel params1 params2 old i1 i2 payload = .error e ∧
      (∀ x, e = .err x → recursiveIsSatisfied E1 E2 cpus lnCeil params1 params2 old i1 i2 payload = .error (.synthesis x)) ∧
      (e = .panic → recursiveIsSatisfied E1 E2 cpus lnCeil params1 params2 old i1 i2 payload = .error .panic) := by
  unfold RecursiveProof.createProof recursiveIsSatisfied
  rw [h]
  exact ⟨rfl, fun _ h => h ▸ rfl, fun h => h ▸ rfl⟩

/-- **C75**, counts: what `recursive_constraint_count` reports for the whole circuit does not depend on the namespaces.
Whatever namespaces the circuit has, if `constraint_count` does not fail because of them, and they are left when they have been
entered, then it reports the same. -/
theorem C75_namespaces {params2 : Params (Proj S)} {i1 : RecursiveCircuit S} {payload : List (BitVec 8)}
    {named : Var → Named S Unit} {counts : List Char → Option Counts}
    (herase : ∀ one, (named one).erase = (blankCircuit params2 i1 payload : VerificationCircuit S B).synthesize E1 E2 one)
    (hb : (named (.A 1)).Balanced 0) (h : constraintCount named = .ok counts) :
    recursiveConstraintCount (B := B) E1 E2 params2 i1 payload = .ok (counts []) := by
  have h1 := C72_counts named
  cases ht : tallyCircuit named with
  | error e => rw [ht] at h1; rw [h] at h1; cases h1
  | ok x =>
    obtain ⟨a, t⟩ := x
    rw [ht] at h1
    obtain ⟨c, hc, h2, -⟩ := h1 (C72_balanced hb ht)
    rw [h] at hc
    cases hc
    obtain ⟨u, hu, hut⟩ := tally_anonymous (named (.A 1)) Tally.start rfl rfl rfl ht
    have h3 := C72_counts fun one => anonymous (named one).erase
    have hu' : tallyCircuit (fun one => anonymous (named one).erase) = .ok (a, u) := hu
    rw [hu'] at h3
    obtain ⟨c', hc', h4, -⟩ := h3 (anonymous_entered _ rfl hu)
    unfold recursiveConstraintCount
    simp only [← herase]
    rw [hc']
    simp only [Except.bind_ok, h4, hut, h2]

/-- **C75**, counts: `recursive_constraint_count` returns the numbers of gates and linear constraints of the verifier's circuit,
and of every circuit for the same parameters that is given data of the right sizes, with or without values. -/
theorem C75_counts [HaloCurve E2 S B] [HaloCurve E1 B S] {c : VerificationCircuit S B} (hp : GoodParams E2 c.params)
    {inner : RecursiveCircuit S} {payload : List (BitVec 8)} (hin : c.inner.Uniform inner (bytesBits payload))
    (hlen : 8 * payload.length = inner.basePayload.length) (hc : c.WellShaped E2) :
    ∃ counts, recursiveConstraintCount (B := B) E1 E2 c.params inner payload = .ok (some counts) ∧
      counts.totalMults = counts.multConstraints + (counts.allocations + 1) / 2 ∧
      ∀ known a t, circuitSystem known (c.synthesize E1 E2) = .ok (a, t) →
        t.gates = counts.totalMults ∧ t.lcs.length = counts.totalLcs := by
  obtain ⟨gates, lcs, ⟨b, t0, h1, h2, h3, -⟩, h4⟩ := C57_same_circuit (E1 := E1)
    (c' := (blankCircuit c.params inner payload : VerificationCircuit S B)) hp rfl hin hc
    ⟨hlen, nofun, nofun, nofun, nofun, nofun⟩
  obtain ⟨t, ht, hs, he⟩ := anonymous_tally _ (t := Tally.start) rfl h1
  have h5 := C72_counts fun one =>
    anonymous ((blankCircuit c.params inner payload : VerificationCircuit S B).synthesize E1 E2 one)
  have ht' : tallyCircuit (fun one =>
    anonymous ((blankCircuit c.params inner payload : VerificationCircuit S B).synthesize E1 E2 one)) = .ok (b, t) := ht
  rw [ht'] at h5
  obtain ⟨counts, h6, h7, -⟩ := h5 he
  refine ⟨t.totals, ?_, ?_, fun known a u hu => ?_⟩
  · unfold recursiveConstraintCount
    simp only
    rw [h6]
    simp only [Except.bind_ok, h7]
  · exact (C72_gates ht').1
  · obtain ⟨⟨_, _, k1, k2, k3, -⟩, -⟩ := h4 known a u hu
    rw [hu] at k1
    cases k1
    exact ⟨by rw [k2, ← h2, ← hs]; rfl, by rw [k3, ← h3, ← hs]; rfl⟩

theorem recursiveIsSatisfied_of {cpus : ℕ} {lnCeil : ℕ → ℕ} {params1 : Params (Proj B)} {params2 : Params (Proj S)}
    {old : Option (RecursiveProof S B)} {i1 : RecursiveCircuit S} {i2 : RecursiveCircuit B} {payload : List (BitVec 8)}
    {v : Inner S B} (hv : carried E1 E2 cpus lnCeil params1 params2 old i1 i2 = .ok v)
    (h : isSatisfied ((newCircuit params2 old i1 payload v).synthesize E1 E2)
      (((newCircuit params2 old i1 payload v).publicBits E1 E2).map fun b => if b then 1 else 0) = .ok true) :
    recursiveIsSatisfied E1 E2 cpus lnCeil params1 params2 old i1 i2 payload = .ok true := by
  unfold recursiveIsSatisfied
  rw [hv]
  simp only
  rw [← h]
  congr 2
  simp [satisfiedBytes, VerificationCircuit.publicBits, bytesBits_append, newCircuit, bitsOr]

section Setup
variable [HaloCurve E1 B S] [HaloCurve E2 S B] {s : Setup E1 E2 B S}

/-- **C75**, honest steps: at every step of an honest history the answer is `Ok(true)`, if the user's circuit can be satisfied,
and no addition in the commitment to the old public inputs is exceptional. -/
theorem C75_honest (hs : s.Good) {e : Env} (he : e.Good) {i1 : RecursiveCircuit S} {i2 : RecursiveCircuit B}
    (h1 : s.user1 i1) (h2 : s.user2 i2) {payload : List (BitVec 8)} (hp : s.admitted payload)
    {old : Option (RecursiveProof S B)} (hold : ∀ q ∈ old, Made s (.inr q))
    (hapart : ∀ bits, OldBits s e i1 old bits → Apart s.g2 bits)
    (hacc : Accepts i1 (oldPayload i1 old) (bytesBits payload)) :
    recursiveIsSatisfied E1 E2 e.cpus e.lnCeil s.params1 s.params2 old i1 i2 payload = .ok true := by
  obtain ⟨v, hv, h⟩ := C61_honest_step_satisfied hs he h1 h2 hp hold hapart hacc
  exact recursiveIsSatisfied_of hv h

/-- **C75**, the prediction: if at a step of an honest history `recursive_is_satisfied` answers `Ok(true)`, and what
`recursive_constraint_count` reports is less than what the parameters are made for, then `create_proof` comes to an opening
argument for true claims, and the only thing that can keep it from returning a proof is a round in which it finds no challenge
that is a square. Every verifier accepts this proof. -/
theorem C75_predicts (hs : s.Good) {e : Env} (he : e.Good) {i1 : RecursiveCircuit S} {i2 : RecursiveCircuit B}
    (h1 : s.user1 i1) (h2 : s.user2 i2) {payload : List (BitVec 8)} (hp : s.admitted payload)
    {old : Option (RecursiveProof S B)} (hold : ∀ q ∈ old, Made s (.inr q))
    (hsat : recursiveIsSatisfied E1 E2 e.cpus e.lnCeil s.params1 s.params2 old i1 i2 payload = .ok true)
    {i : RecursiveCircuit S} (hi : s.user1 i) {counts : Counts}
    (hcount : recursiveConstraintCount (B := B) E1 E2 s.params2 i payload = .ok (some counts))
    (hn : counts.totalMults < s.params1.n) (hd : counts.totalLcs < s.params1.d) :
    letI := Proj.curveOps E1 B S
    letI := HaloCurve.module (E := E1) (F := B) (S := S)
    ∃ (claims : List (PolynomialOpening (Proj B) S × List S)) (t : Rescue B),
      (∀ c ∈ claims, ValidClaim (Denotes (E1.b : B)) s.g1 s.params1.k c.1 c.2) ∧
      ∀ fuel ≤ 256,
        ((∃ p, RecursiveProof.createProof E1 E2 e.cpus e.lnCeil fuel s.params1 s.params2 old i1 i2 payload = .ok p) ↔
          ¬ StuckOpening Transcript.rescue fuel e.cpus e.lnCeil claims s.params1.generators s.params1.k t) ∧
        ∀ p, RecursiveProof.createProof E1 E2 e.cpus e.lnCeil fuel s.params1 s.params2 old i1 i2 payload = .ok p →
          ∀ {e' : Env}, e'.Good → ∀ {i1' i2'}, s.user1 i1' → s.user2 i2' →
            p.verify E1 E2 e'.cpus e'.lnCeil s.params1 s.params2 i1' i2' = .ok true := by
  let := Proj.curveOps E1 B S
  let := HaloCurve.module (E := E1) (F := B) (S := S)
  obtain ⟨v, hv, hok, -⟩ := carried_ok hs (fun q hq => (made_valid hs (hold q hq)).2 q rfl) h1 h2 he.cpus he.ln
  have hw := newCircuit_wellShaped hs (fun q hq => ((made_valid hs (hold q hq)).2 q rfl).shape) h1 h2 hok.toCarriable hp
  have hg : GoodParams E2 (newCircuit s.params2 old i1 payload v).params := hs.two.good
  have hl := hok.l2.to hs hw rfl h1 hp
  unfold recursiveIsSatisfied at hsat
  rw [hv] at hsat
  simp only at hsat
  obtain ⟨t, ht, -⟩ := (C29_is_satisfied _ _).1 hsat
  obtain ⟨counts', hc, -, hsame⟩ := C75_counts (E1 := E1) hg (hs.one.same _ _ _ h1 hi hp)
    (by rw [hs.one.base i hi, hs.one.size _ hp]) hw
  cases hcount.symm.trans hc
  obtain ⟨gates, lcs, hb, hsh⟩ := C57_same_circuit (E1 := E1) hg rfl (hs.one.same _ _ _ h1 h1 hp) hw hw
  obtain ⟨ha, -⟩ := hsh _ _ _ ht
  have hgl := hsame _ _ _ ht
  obtain ⟨_, _, k1, rfl, rfl, -⟩ := id ha
  rw [ht] at k1
  cases k1
  obtain ⟨claims, t', hcl, hst⟩ := C44_prover (E := E1) Transcript.rescue (fun t => C69_rescue t) he.cpus he.ln hs.one.valid ha
    hb (hgl.1 ▸ hn) (hgl.2 ▸ hd) hsat hl
  refine ⟨claims, t', hcl, fun fuel hf => ⟨?_, fun p h e' he' i1' i2' h1' h2' =>
    (C60_honest_history_verifies hs he' h1' h2').1 p (Made.first (e := ⟨e.cpus, e.lnCeil, fuel⟩) ⟨he.cpus, he.ln, hf⟩ h1 h2 hp hold h)⟩⟩
  rw [← hst fuel hf]
  unfold RecursiveProof.createProof
  simp only [hv, Except.bind_ok, bind_eq_ok, Except.ok.injEq]
  constructor
  · rintro ⟨p, ⟨π, l⟩, h, -⟩
    exact ⟨π, l, h⟩
  · rintro ⟨π, l, h⟩
    exact ⟨_, ⟨π, l⟩, h, rfl⟩

/-! ### Instances -/

theorem counts_exist (hs : s.Good) {i : RecursiveCircuit S} (hi : s.user1 i) {payload : List (BitVec 8)}
    (hp : s.admitted payload) : ∃ counts, recursiveConstraintCount (B := B) E1 E2 s.params2 i payload = .ok (some counts) := by
  obtain ⟨counts, hc, -⟩ := C75_counts (E1 := E1) (E2 := E2) (c := blankCircuit s.params2 i payload) hs.two.good
    (hs.one.same _ _ _ hi hi hp) (by rw [hs.one.base i hi, hs.one.size _ hp]) (blank_wellShaped hs.one hi hp)
  exact ⟨counts, hc⟩

/-- The first step, for the curves of the code and `2^22` generators: the answer is `Ok(true)`. -/
theorem dev_example : ∃ s : Setup ec0 ec1 Fq Fp, s.Good ∧ s.params1.k = 22 ∧ s.user1 firstBit ∧ s.user2 firstBit ∧
    s.admitted [1#8] ∧
    recursiveIsSatisfied ec0 ec1 4 (fun _ => 3) s.params1 s.params2 none firstBit firstBit [1#8] = .ok true ∧
    ∃ counts, recursiveConstraintCount (B := Fq) ec0 ec1 s.params2 firstBit [1#8] = .ok (some counts) := by
  obtain ⟨s, v, hs, hk, h1, h2, hp, hv, h⟩ := first_step_example
  refine ⟨s, hs, hk, h1, h2, hp, ?_, ?_⟩
  · exact recursiveIsSatisfied_of hv h
  · exact counts_exist hs h1 hp

/-- The same circuit in which a namespace is entered and left at the beginning -/
def withNamespace {α : Type} (p : Var → Prog S α) (one : Var) : Named S α := .push ['a'] (.pop (anonymous (p one)))

omit [DecidableEq S] [LawfulField S] in
theorem withNamespace_counts {α : Type} {p : Var → Prog S α} {a : α} {s : System S} (h : circuitSystem false p = .ok (a, s)) :
    (∀ one, (withNamespace p one).erase = p one) ∧ (withNamespace p (.A 1)).Balanced 0 ∧
    ∃ counts, constraintCount (withNamespace p) = .ok counts := by
  obtain ⟨t, ht, -, he⟩ := anonymous_tally (p (.A 1))
    (t := { (Tally.start : Tally S) with left := [([['a']], (Tally.start : Tally S).since (Tally.start : Tally S).totals)] }) rfl h
  have h3 := C72_counts (withNamespace p)
  have ht' : tallyCircuit (withNamespace p) = .ok (a, t) := by
    rw [← ht]
    simp [tallyCircuit, withNamespace, tally, Tally.start, Tally.since, Tally.totals]
  rw [ht'] at h3
  obtain ⟨counts, hc, -⟩ := h3 he
  exact ⟨fun one => erase_anonymous _, ⟨one_pos, balanced_anonymous _⟩, counts, hc⟩

end Setup
end Recursion
end Halo
