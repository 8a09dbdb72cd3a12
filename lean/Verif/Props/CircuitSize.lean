import Verif.Lemmas.Cost.Verify
import Verif.Props.RecursionDev
/-!
# The size of the verification circuit (C76)
-/
namespace Halo
namespace Recursion
open Circuit Proofs
variable {E1 E2 : CurveConsts} {B S : Type} [Field B] [DecidableEq B] [LawfulField B] [Field S] [DecidableEq S]
  [LawfulField S] [HaloCurve E1 B S] [HaloCurve E2 S B]

/-- **C76**: what `recursive_constraint_count` reports for the whole circuit, exactly, as a function of the number of
generators, the number of bits of the payload and what the user's circuit asks for. Nothing needs to be known about this:
`Q` may be satisfied by all numbers. -/
theorem C76_size {params : Params (Proj S)} (hp : GoodParams E2 params) {inner : RecursiveCircuit S}
    {payload : List (BitVec 8)} (hin : inner.Uniform inner (bytesBits payload))
    (hlen : 8 * payload.length = inner.basePayload.length)
    (hg : inner.basePayload.length + 5890 + 512 * params.k ≤ params.generators.length) {Q : ℕ → ℕ → ℕ → Prop}
    (hq : ∀ (one : Var) (old new : List AllocatedBit), old.length = inner.basePayload.length →
      new.length = inner.basePayload.length → Asks (inner.synthesize one old new) Q) :
    ∃ a m l, Q a m l ∧ recursiveConstraintCount (B := B) E1 E2 params inner payload =
      .ok (some (verificationSize params.k inner.basePayload.length a m l)) := by
  obtain ⟨gates, lcs, ⟨b, t0, h1, -⟩, -⟩ := C57_same_circuit (E1 := E1) (E2 := E2)
    (c := (blankCircuit params inner payload : VerificationCircuit S B)) hp rfl hin
    ⟨hlen, nofun, nofun, nofun, nofun, nofun⟩ ⟨hlen, nofun, nofun, nofun, nofun, nofun⟩
  obtain ⟨t, ht, hs, he⟩ := anonymous_tally _ (t := Tally.start) rfl h1
  have h5 := C72_counts fun one =>
    anonymous ((blankCircuit params inner payload : VerificationCircuit S B).synthesize E1 E2 one)
  have ht' : tallyCircuit (fun one =>
    anonymous ((blankCircuit params inner payload : VerificationCircuit S B).synthesize E1 E2 one)) = .ok (b, t) := ht
  rw [ht'] at h5
  obtain ⟨counts, h6, h7, -⟩ := h5 he
  have habove := above_synthesize (E1 := E1) (E2 := E2) (S := B) (one := .A 1) hp.k_ge rfl hlen hg (fun d hd => by
    obtain ⟨d', hd', -, -, -, e5, e6, -⟩ := dummy_record (E := E1) (F := B) (S := S) hp.k_ge
    cases hd.symm.trans hd'
    exact deferred_length e5 e6) (hq _)
  obtain ⟨_, _, _, k1, k2, k3, a, m, l, rfl, rfl, rfl, hQ⟩ := habove.tally ht
  refine ⟨a, m, l, hQ, ?_⟩
  have hgates := (C72_gates ht').1
  unfold recursiveConstraintCount
  simp only
  rw [h6]
  simp only [Except.bind_ok, h7, Except.ok.injEq, Option.some.injEq]
  have e1 : t.allocations = 53354 + 3 * inner.basePayload.length + 4248 * params.k + a := by
    rw [k1, show (Tally.start : Tally S).allocations = 1 from rfl]; omega
  have e2 : t.multiplications = 201630 + 9 * inner.basePayload.length + 16992 * params.k + (128 * params.k + 249) / 250 + m := by
    rw [k2, show (Tally.start : Tally S).multiplications = 0 from rfl]; omega
  have e3 : t.system.lcs.length =
      468155 + 23 * inner.basePayload.length + 38696 * params.k + 3 * ((128 * params.k + 249) / 250) + l := by
    rw [k3, show (Tally.start : Tally S).system.lcs.length = 1 from rfl]; omega
  have e4 : t.system.gates = t.multiplications + (t.allocations + 1) / 2 := hgates
  rw [Tally.totals, e4, e1, e2, e3]
  rfl

section Setup
variable {s : Setup E1 E2 B S}

/-- The user's circuits ask for numbers with the property `Q`. -/
def Setup.Asks1 (s : Setup E1 E2 B S) (Q : ℕ → ℕ → ℕ → Prop) : Prop :=
  ∀ i, s.user1 i → ∀ (one : Var) (old new : List AllocatedBit), old.length = 8 * s.bytes → new.length = 8 * s.bytes →
    Asks (i.synthesize one old new) Q

/-- **C76**, in the setup of a history -/
theorem C76_setup (hs : s.Good) {Q : ℕ → ℕ → ℕ → Prop} (hq : s.Asks1 Q) {i : RecursiveCircuit S} (hi : s.user1 i)
    {payload : List (BitVec 8)} (hp : s.admitted payload) :
    ∃ a m l, Q a m l ∧ recursiveConstraintCount (B := B) E1 E2 s.params2 i payload =
      .ok (some (verificationSize s.params1.k (8 * s.bytes) a m l)) := by
  have hb := hs.one.base i hi
  have hroom := hs.two.room
  have hl : s.params2.generators.length = 2 ^ s.params2.k := hs.two.valid.length
  obtain ⟨a, m, l, h1, h2⟩ := C76_size (E1 := E1) (E2 := E2) (B := B) (params := s.params2) (inner := i) (payload := payload)
    hs.two.good (hs.one.same _ _ _ hi hi hp) (by rw [hb, hs.one.size _ hp]) (by
      rw [hb, hl]
      have hroom' : 8 * s.bytes + 2 * leftoversBits s.params2.k + deferredBits s.params2.k + 2 ≤ 2 ^ s.params2.k := hroom
      rw [leftoversBits, deferredBits] at hroom'
      omega) (Q := Q) (by rw [hb]; exact hq i hi)
  refine ⟨a, m, l, h1, ?_⟩
  rw [h2, hb, hs.k_eq]

/-- **C76**, parameters that are large enough: for `k ≥ 22` the circuit fits, if the payload and the user's circuit leave
room. (The examples of the code call `Params::new(22)`.) -/
theorem C76_fits {k n a m l : ℕ} (hk : 22 ≤ k) (hg : 21 * n + a + 2 * m ≤ 799408) (hl : 23 * n + l ≤ 2874765) :
    (verificationSize k n a m l).totalMults < 2 ^ (k - 2) ∧ (verificationSize k n a m l).totalLcs < 2 ^ k := by
  obtain ⟨j, rfl⟩ := Nat.exists_eq_add_of_le hk
  have : j < 2 ^ j := Nat.lt_two_pow_self
  rw [show 22 + j - 2 = 20 + j by omega, pow_add, pow_add]
  simp only [verificationSize]
  omega

/-- **C76**, parameters that are too small: for `k ≤ 21` the circuit alone, whatever the user's circuit is, has more gates
than there is room for. -/
theorem C76_too_large {k n a m l : ℕ} (hk : k ≤ 21) : 2 ^ (k - 2) < (verificationSize k n a m l).totalMults := by
  have : 2 ^ (k - 2) ≤ 2 ^ 19 := Nat.pow_le_pow_right (by norm_num) (by omega)
  simp only [verificationSize]
  interval_cases k <;> omega

/-- If a step succeeds the parameters are large enough. -/
theorem step_fits (hs : s.Good) {e : Env} (he : e.Good) {i1 : RecursiveCircuit S} {i2 : RecursiveCircuit B}
    (h1 : s.user1 i1) (h2 : s.user2 i2) {payload : List (BitVec 8)} (hp : s.admitted payload)
    {old : Option (RecursiveProof S B)} (hold : ∀ q ∈ old, Valid s.swap q) {p : RecursiveProof B S}
    (h : RecursiveProof.createProof E1 E2 e.cpus e.lnCeil e.fuel s.params1 s.params2 old i1 i2 payload = .ok p) :
    22 ≤ s.params1.k := by
  obtain ⟨v, hv, hok, -⟩ := carried_ok hs hold h1 h2 he.cpus he.ln
  have hw := newCircuit_wellShaped hs (fun q hq => (hold q hq).shape) h1 h2 hok.toCarriable hp
  unfold RecursiveProof.createProof at h
  simp only [hv, Except.bind_ok, bind_eq_ok] at h
  obtain ⟨⟨π, l⟩, hnew, -⟩ := h
  obtain ⟨a, t, ht, hn, -⟩ : ∃ a t, circuitSystem true ((newCircuit s.params2 old i1 payload v).synthesize E1 E2) =
      .ok (a, t) ∧ t.gates < s.params1.n ∧ t.lcs.length < s.params1.d := by
    let := Proj.curveOps E1 B S
    exact new_fits hnew
  have hg : GoodParams E2 (newCircuit s.params2 old i1 payload v).params := hs.two.good
  obtain ⟨counts, hc, -, hsame⟩ := C75_counts (E1 := E1) hg (hs.one.same _ _ _ h1 h1 hp)
    (by rw [hs.one.base i1 h1, hs.one.size _ hp]) hw
  obtain ⟨a, m, l, -, hc'⟩ := C76_setup hs (Q := fun _ _ _ => True) (fun _ _ _ _ _ _ _ => asks_true _) h1 hp
  cases hc.symm.trans hc'
  rw [(hsame _ _ _ ht).1, hs.one.valid.n_eq] at hn
  by_contra hk
  exact absurd (C76_too_large (n := 8 * s.bytes) (a := a) (m := m) (l := l) (Nat.le_of_lt_succ (not_le.1 hk))) (not_lt.2 hn.le)

/-- **C76**: with such parameters `create_proof` does not return a proof at any step, so there are no proofs. -/
theorem C76_no_history (hs : s.Good) (hk : s.params1.k ≤ 21) : ∀ x, ¬ Made s x := by
  intro x h
  have : 22 ≤ s.params1.k := by
    cases h with
    | first he h1 h2 hp hold h =>
      exact step_fits hs he h1 h2 hp (fun q hq => (made_valid hs (hold q hq)).2 q rfl) h
    | second he h1 h2 hp hold h =>
      rw [hs.k_eq]
      exact step_fits (s := s.swap) hs.swap he h2 h1 hp (fun q hq => (made_valid hs (hold q hq)).1 q rfl) h
  omega

/-- **C76**, honest steps: with parameters that are large enough for the user's circuit and the payload, a step that is
possible comes to an opening argument for true claims, and the only thing that can keep `create_proof` from returning a proof
is a round in which it finds no challenge that is a square. Every verifier accepts this proof. -/
theorem C76_honest_step (hs : s.Good) (hk : 22 ≤ s.params1.k)
    (hroom : s.Asks1 fun a m l => 21 * (8 * s.bytes) + a + 2 * m ≤ 799408 ∧ 23 * (8 * s.bytes) + l ≤ 2874765)
    {e : Env} (he : e.Good) {i1 : RecursiveCircuit S} {i2 : RecursiveCircuit B}
    (h1 : s.user1 i1) (h2 : s.user2 i2) {payload : List (BitVec 8)} (hp : s.admitted payload)
    {old : Option (RecursiveProof S B)} (hold : ∀ q ∈ old, Made s (.inr q))
    (hapart : ∀ bits, OldBits s e i1 old bits → Apart s.g2 bits)
    (hacc : Accepts i1 (oldPayload i1 old) (bytesBits payload)) :
    letI := Proj.curveOps E1 B S
    letI := HaloCurve.module (E := E1) (F := B) (S := S)
    ∃ (claims : List (PolynomialOpening (Proj B) S × List S)) (t : Rescue B),
      (∀ c ∈ claims, ValidClaim (Denotes (E1.b : B)) s.g1 s.params1.k c.1 c.2) ∧
      ∀ fuel ≤ 256,
        ((∃ p, RecursiveProof.createProof E1 E2 e.cpus e.lnCeil fuel s.params1 s.params2 old i1 i2 payload = .ok p) ↔
          ¬ StuckOpening Transcript.rescue fuel e.cpus e.lnCeil claims s.params1.generators s.params1.k t) ∧
        ∀ p, RecursiveProof.createProof E1 E2 e.cpus e.lnCeil fuel s.params1 s.params2 old i1 i2 payload = .ok p →
          ∀ {e' : Env}, e'.Good → ∀ {i1' i2'}, s.user1 i1' → s.user2 i2' →
            p.verify E1 E2 e'.cpus e'.lnCeil s.params1 s.params2 i1' i2' = .ok true := by
  obtain ⟨a, m, l, ⟨hg, hl⟩, hc⟩ := C76_setup hs hroom h1 hp
  obtain ⟨hn, hd⟩ := C76_fits hk hg hl
  exact C75_predicts hs he h1 h2 hp hold (C75_honest hs he h1 h2 hp hold hapart hacc) h1 hc
    (by rw [hs.one.valid.n_eq]; exact hn) (by rw [hs.one.valid.d_eq]; exact hd)

end Setup

/-! ### Instances -/

omit [DecidableEq S] [LawfulField S] in
/-- The circuit of the examples below asks for one linear constraint. -/
theorem firstBit_asks (one : Var) (old new : List AllocatedBit) :
    Asks ((firstBit : RecursiveCircuit S).synthesize one old new) fun a m l => a = 0 ∧ m = 0 ∧ l = 1 :=
  (Costs.free (costs_index (R := fun _ => True) fun _ _ => trivial) fun _ _ => costs_enforce).asks

theorem first_size {s : Setup E1 E2 B S} (hs : s.Good) (hk : s.params1.k = 22) (h1 : ∀ i, s.user1 i ↔ i = firstBit)
    (hp : s.admitted [1#8]) : recursiveConstraintCount (B := B) E1 E2 s.params2 firstBit [1#8] =
      .ok (some ⟨146834, 575538, 648955, 1319688⟩) := by
  obtain ⟨_, _, _, ⟨rfl, rfl, rfl⟩, h⟩ := C76_setup hs (Q := fun a m l => a = 0 ∧ m = 0 ∧ l = 1)
    (fun i hi one old new _ _ => by rw [(h1 i).1 hi]; exact firstBit_asks one old new) ((h1 _).2 rfl) hp
  rw [h, hk, ← hs.one.size _ hp]
  rfl

/-- The setup of C61, for the curves of the code and `2^22` generators: all hypotheses are met, the size is this, and
`create_proof` makes the first proof of a history unless it finds no challenge that is a square. -/
example : ∃ (s : Setup ec0 ec1 Fq Fp), s.Good ∧ s.params1.k = 22 ∧ s.user1 firstBit ∧ s.user2 firstBit ∧ s.admitted [1#8] ∧
    recursiveConstraintCount (B := Fq) ec0 ec1 s.params2 firstBit [1#8] =
      .ok (some ⟨146834, 575538, 648955, 1319688⟩) ∧
    letI := Proj.curveOps ec0 Fq Fp
    letI := HaloCurve.module (E := ec0) (F := Fq) (S := Fp)
    ∃ (claims : List (PolynomialOpening (Proj Fq) Fp × List Fp)) (t : Rescue Fq),
      (∀ c ∈ claims, ValidClaim (Denotes (ec0.b : Fq)) s.g1 s.params1.k c.1 c.2) ∧
      ∀ fuel ≤ 256,
        ((∃ p, RecursiveProof.createProof ec0 ec1 4 (fun _ => 3) fuel s.params1 s.params2 none firstBit firstBit [1#8] = .ok p) ↔
          ¬ StuckOpening Transcript.rescue fuel 4 (fun _ => 3) claims s.params1.generators s.params1.k t) := by
  obtain ⟨s, hs, hk, h1, h2, hb, ha⟩ := setup_example_only (E1 := ec0) (E2 := ec1) (B := Fq) (S := Fp) (k := 22)
    (by norm_num) (by norm_num)
  have hp : s.admitted [1#8] := (hb _).2 rfl
  have hby : s.bytes = 1 := (hs.one.size _ hp).symm
  have he : Env.Good ⟨4, fun _ => 3, 1⟩ := ⟨by norm_num, by simp, by norm_num⟩
  have hroom : s.Asks1 fun a m l => 21 * (8 * s.bytes) + a + 2 * m ≤ 799408 ∧ 23 * (8 * s.bytes) + l ≤ 2874765 := by
    intro i hi one old new _ _ a0 m0 l0
    rw [(h1 i).1 hi]
    refine (firstBit_asks one old new a0 m0 l0).mono ?_
    rintro _ _ _ _ ⟨_, _, _, e1, e2, e3, rfl, rfl, rfl⟩
    exact ⟨0, 0, 1, e1, e2, e3, by omega, by omega⟩
  obtain ⟨claims, t, h3, h4⟩ := C76_honest_step hs hk.ge hroom he ((h1 _).2 rfl) ((h2 _).2 rfl) hp (old := none) nofun
    (first_step_apart (by norm_num) hs hk ((h1 _).2 rfl) ha he) (firstBit_accepts _ rfl)
  exact ⟨s, hs, hk, (h1 _).2 rfl, (h2 _).2 rfl, hp, first_size hs hk h1 hp, claims, t, h3, fun fuel hf => (h4 fuel hf).1⟩

/-- With `2^14` generators there is a setup, but no history. -/
example : ∃ s : Setup ec0 ec1 Fq Fp, s.Good ∧ ∀ x, ¬ Made s x := by
  obtain ⟨s, hs, hk, -⟩ := setup_example (E1 := ec0) (E2 := ec1) (B := Fq) (S := Fp) (k := 14) le_rfl (by norm_num)
  exact ⟨s, hs, C76_no_history hs (by omega)⟩

end Recursion
end Halo
