import Verif.Lemmas.Recursion.Step
import Verif.Props.RecursionCommit
/-!
# Honest histories of recursive proofs (C60, C61)

`Verif.Spec.RecursionHonest` says what the participants agree on (`Setup`), what a history is (`Made`), and
when a step can be made (`OldBits`, `Apart`, `Accepts`).
-/
namespace Halo
namespace Recursion
open Circuit Proofs
variable {E1 E2 : CurveConsts} {B S : Type} [Field B] [DecidableEq B] [LawfulField B] [Field S] [DecidableEq S]
  [LawfulField S] [HaloCurve E1 B S] [HaloCurve E2 S B] {s : Setup E1 E2 B S}

/-- **C60**: every proof in a history of honest participants, of any length, is accepted by every verifier,
whatever private data the verifier's instances of the user's circuits hold, and however many cores it has. -/
theorem C60_honest_history_verifies (hs : s.Good) {e : Env} (he : e.Good) {i1 : RecursiveCircuit S}
    {i2 : RecursiveCircuit B} (h1 : s.user1 i1) (h2 : s.user2 i2) :
    (∀ p, Made s (.inl p) → p.verify E1 E2 e.cpus e.lnCeil s.params1 s.params2 i1 i2 = .ok true) ∧
    (∀ p, Made s (.inr p) → p.verify E2 E1 e.cpus e.lnCeil s.params2 s.params1 i2 i1 = .ok true) :=
  ⟨fun p h => ((made_valid hs h).1 p rfl).verify hs h1 h2 he.cpus he.ln,
    fun p h => ((made_valid hs h).2 p rfl).verify hs.swap h2 h1 he.cpus he.ln⟩

/-- **C61**: at every step of an honest history, `create_proof` obtains from the old proof, or without one,
what it needs, and the circuit that it then proves is satisfied by the values of the honest prover, with the
bits of the public data as public inputs; if the user's circuit can be satisfied, and no addition in the
commitment to the old public inputs is exceptional. -/
theorem C61_honest_step_satisfied (hs : s.Good) {e : Env} (he : e.Good) {i1 : RecursiveCircuit S}
    {i2 : RecursiveCircuit B} (h1 : s.user1 i1) (h2 : s.user2 i2) {payload : List (BitVec 8)}
    (hp : s.admitted payload) {old : Option (RecursiveProof S B)} (hold : ∀ q ∈ old, Made s (.inr q))
    (hapart : ∀ bits, OldBits s e i1 old bits → Apart s.g2 bits)
    (hacc : Accepts i1 (oldPayload i1 old) (bytesBits payload)) :
    ∃ v, carried E1 E2 e.cpus e.lnCeil s.params1 s.params2 old i1 i2 = .ok v ∧
      isSatisfied ((newCircuit s.params2 old i1 payload v).synthesize E1 E2)
        (((newCircuit s.params2 old i1 payload v).publicBits E1 E2).map fun b => if b then 1 else 0) = .ok true :=
  step_satisfied hs he h1 h2 hp (fun q hq => (made_valid hs (hold q hq)).2 q rfl) hapart hacc

/-- **C61**, on the second curve -/
theorem C61_honest_step_satisfied_second (hs : s.Good) {e : Env} (he : e.Good) {i1 : RecursiveCircuit S}
    {i2 : RecursiveCircuit B} (h1 : s.user1 i1) (h2 : s.user2 i2) {payload : List (BitVec 8)}
    (hp : s.admitted payload) {old : Option (RecursiveProof B S)} (hold : ∀ q ∈ old, Made s (.inl q))
    (hapart : ∀ bits, OldBits s.swap e i2 old bits → Apart s.g1 bits)
    (hacc : Accepts i2 (oldPayload i2 old) (bytesBits payload)) :
    ∃ v, carried E2 E1 e.cpus e.lnCeil s.params2 s.params1 old i2 i1 = .ok v ∧
      isSatisfied ((newCircuit s.params1 old i2 payload v).synthesize E2 E1)
        (((newCircuit s.params1 old i2 payload v).publicBits E2 E1).map fun b => if b then 1 else 0) = .ok true :=
  step_satisfied hs.swap he h2 h1 hp (fun q hq => (made_valid hs (hold q hq)).1 q rfl) hapart hacc

/-! ### An instance -/

omit [DecidableEq S] [LawfulField S] in
theorem firstBit_accepts (old : List Bool) {new : List Bool} (h : new[0]? = some true) :
    Accepts (firstBit : RecursiveCircuit S) old new := by
  intro w one h1 ob nb _ hn
  cases hn with
  | nil => simp at h
  | cons hb _ =>
    simp only [List.getElem?_cons_zero, Option.some.injEq] at h
    subst h
    obtain ⟨hb, -⟩ := hb
    simp only [AllocatedBit.Means, if_true] at hb
    have hi : ∀ {b : AllocatedBit} {l}, (Sha256.index (b :: l) 0 : Prog S _) = .pure b := rfl
    simp [firstBit, hi, complete_bind, complete_enforce, hb, h1]

/-- A setup with parameters of size `2^k` for both curves, where the first bit of all payloads but the first
has to be set; no addition is exceptional -/
theorem setup_example_only {k : ℕ} (hk : 14 ≤ k) (hk' : k ≤ 30) : ∃ s : Setup E1 E2 B S, s.Good ∧ s.params1.k = k ∧
    (∀ i, s.user1 i ↔ i = firstBit) ∧ (∀ i, s.user2 i ↔ i = firstBit) ∧ (∀ p, s.admitted p ↔ p.length = 1) ∧
    ∀ bits : List Bool, bits.length < 2 ^ 250 → Apart s.g1 bits ∧ Apart s.g2 bits := by
  obtain ⟨gens1, g1, l1, hg1, ha1⟩ := gens_example (E := E1) (F := B) S (2 ^ k)
  obtain ⟨gens2, g2, l2, hg2, ha2⟩ := gens_example (E := E2) (F := S) B (2 ^ k)
  have hroom : 8 * 1 + 2 * leftoversBits k + deferredBits k + 2 ≤ 2 ^ k := by
    obtain ⟨m, rfl⟩ := Nat.exists_eq_add_of_le hk
    have : m < 2 ^ m := Nat.lt_two_pow_self
    rw [pow_add, leftoversBits, deferredBits]
    omega
  have hfirst : ∀ {E : CurveConsts} {F : Type} [Field F] [DecidableEq F] {g : ℕ → Pt (E.b : F)},
      (∀ bits : List Bool, bits.length < 2 ^ 250 → Apart g bits) → g 1 + g 2 ≠ 0 := by
    intro E F _ _ g h h0
    have := (h [true] (by norm_num) 0 (by simp)).2.2
    simp only [List.take_zero, inputSum_nil] at this
    exact this (eq_neg_of_add_eq_zero_left h0)
  refine ⟨⟨⟨2 ^ k, 2 ^ (k - 2), k, gens1⟩, ⟨2 ^ k, 2 ^ (k - 2), k, gens2⟩, g1, g2, (· = firstBit), (· = firstBit), 1,
      (·.length = 1)⟩,
    ⟨rfl, ⟨⟨by show 3 < k; omega, hk', rfl, rfl, l1, fun i h => (hg1 i h).2⟩, ?_, hfirst ha1, hroom, ?_, fun _ h => h,
        ⟨[0], rfl⟩, ?_⟩,
      ⟨⟨by show 3 < k; omega, hk', rfl, rfl, l2, fun i h => (hg2 i h).2⟩, ?_, hfirst ha2, hroom, ?_, fun _ h => h,
        ⟨[0], rfl⟩, ?_⟩⟩,
    rfl, fun _ => Iff.rfl, fun _ => Iff.rfl, fun _ => Iff.rfl, fun bits h => ⟨ha1 bits h, ha2 bits h⟩⟩
  · intro p hp
    obtain ⟨i, h, rfl⟩ := List.mem_iff_getElem.1 hp
    exact (hg1 i h).1
  · rintro _ _ _ rfl rfl -
    exact firstBit_uniform
  · rintro _ rfl
    rfl
  · intro p hp
    obtain ⟨i, h, rfl⟩ := List.mem_iff_getElem.1 hp
    exact (hg2 i h).1
  · rintro _ _ _ rfl rfl -
    exact firstBit_uniform
  · rintro _ rfl
    rfl

theorem setup_example {k : ℕ} (hk : 14 ≤ k) (hk' : k ≤ 30) : ∃ s : Setup E1 E2 B S, s.Good ∧ s.params1.k = k ∧
    s.user1 firstBit ∧ s.user2 firstBit ∧ (∀ p, s.admitted p ↔ p.length = 1) ∧
    ∀ bits : List Bool, bits.length < 2 ^ 250 → Apart s.g1 bits ∧ Apart s.g2 bits := by
  obtain ⟨s, h1, h2, h3, h4, h5⟩ := setup_example_only (E1 := E1) (E2 := E2) (B := B) (S := S) hk hk'
  exact ⟨s, h1, h2, (h3 _).2 rfl, (h4 _).2 rfl, h5⟩

/-- In this setup nothing is exceptional in the first step. -/
theorem first_step_apart {k : ℕ} (hk' : k ≤ 30) {s : Setup E1 E2 B S} (hs : s.Good) (hk : s.params1.k = k)
    (h1 : s.user1 firstBit) (ha : ∀ bits : List Bool, bits.length < 2 ^ 250 → Apart s.g1 bits ∧ Apart s.g2 bits)
    {e : Env} (he : e.Good) : ∀ bits, OldBits s e firstBit none bits → Apart s.g2 bits := by
  rintro _ h
  cases h with | none hl hd =>
  obtain ⟨l, hl', -, hok⟩ := dummy_leftovers hs h1 he.cpus he.ln
  rw [hl] at hl'
  cases hl'
  have hk2 : 2 ≤ s.params2.k := by have := hs.two.valid.k_gt; exact (by omega : 2 ≤ s.swap.params1.k)
  obtain ⟨d, hd', -, -, -, e5, e6, -⟩ := dummy_record (E := E1) (F := B) (S := S) hk2
  rw [hd] at hd'
  cases hd'
  refine (ha _ ?_).2
  rw [List.length_append, List.length_append, List.length_append, List.length_replicate,
    leftovers_length (hok.facts hs.one h1).1, deferred_length e5 e6, ← hs.k_eq, hk, leftoversBits, deferredBits]
  have : (firstBit : RecursiveCircuit S).basePayload.length = 8 := rfl
  omega

/-- The circuit of the first step is satisfied, for the curves of the code and `2^22` generators. -/
theorem first_step_example : ∃ (s : Setup ec0 ec1 Fq Fp) (v : Inner Fp Fq), s.Good ∧ s.params1.k = 22 ∧
    s.user1 firstBit ∧ s.user2 firstBit ∧ s.admitted [1#8] ∧
    carried ec0 ec1 4 (fun _ => 3) s.params1 s.params2 none firstBit firstBit = .ok v ∧
    isSatisfied ((newCircuit s.params2 none firstBit [1#8] v).synthesize ec0 ec1)
      (((newCircuit s.params2 none firstBit [1#8] v).publicBits ec0 ec1).map fun b => if b then 1 else 0) =
      .ok true := by
  obtain ⟨s, hs, hk, h1, h2, hb, ha⟩ := setup_example (E1 := ec0) (E2 := ec1) (B := Fq) (S := Fp) (k := 22) (by norm_num)
    (by norm_num)
  have he : Env.Good ⟨4, fun _ => 3, 1⟩ := ⟨by norm_num, by simp, by norm_num⟩
  obtain ⟨v, k1, k2⟩ := C61_honest_step_satisfied hs he h1 h2 (payload := [1#8]) ((hb _).2 rfl) (old := none) nofun
    (first_step_apart (by norm_num) hs hk h1 ha he) (firstBit_accepts _ rfl)
  exact ⟨s, v, hs, hk, h1, h2, (hb _).2 rfl, k1, k2⟩

end Recursion
end Halo
