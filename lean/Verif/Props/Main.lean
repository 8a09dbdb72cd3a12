import Verif.Spec.Main
import Verif.Lemmas.Cost.Examples
import Verif.Props.CircuitSize
import Verif.Props.BitcoinStep
import Verif.Props.Examples
import Verif.Props.Params
import Verif.Props.MainData
/-!
# The programs of the examples (C77)
-/
namespace Halo
namespace Example
open Circuit Proofs Recursion
variable {E1 E2 : CurveConsts} {B S : Type} [Field B] [DecidableEq B] [LawfulField B] [Field S] [DecidableEq S]
  [LawfulField S] [HaloCurve E1 B S] [HaloCurve E2 S B]

section fits
variable {F : Type} [Field F] [FieldApi F]

/-- **C77**: `examples/paper.rs` asks for one multiplication gate. -/
theorem C77_paper_size (one : Var) (old new : List AllocatedBit) :
    Asks ((paper : RecursiveCircuit F).synthesize one old new) fun a m l => a = 0 ∧ m = 1 ∧ l = 0 := costs_paper.asks

/-- **C77**: `examples/bitcoin.rs` asks for at most so much. -/
theorem C77_bitcoin_size (one : Var) (old new : List AllocatedBit) :
    Asks ((bitcoin : RecursiveCircuit F).synthesize one old new) fun a m l => a ≤ 110605 ∧ m ≤ 165473 ∧ l ≤ 442686 :=
  atMost_bitcoin.asks

end fits

theorem asks_mono {F α : Type} {p : Prog F α} {Q Q' : ℕ → ℕ → ℕ → Prop} (h : Asks p Q) (hq : ∀ a m l, Q a m l → Q' a m l) :
    Asks p Q' := fun a0 m0 l0 => (h a0 m0 l0).mono fun _ _ _ _ ⟨a, m, l, e1, e2, e3, h⟩ => ⟨a, m, l, e1, e2, e3, hq a m l h⟩

section Setup
variable {s : Setup E1 E2 B S}

/-- There is room for the user's circuits. -/
def Room (s : Setup E1 E2 B S) : Prop :=
  s.Asks1 fun a m l => 21 * (8 * s.bytes) + a + 2 * m ≤ 799408 ∧ 23 * (8 * s.bytes) + l ≤ 2874765

omit [DecidableEq B] [LawfulField B] [DecidableEq S] [HaloCurve E1 B S] [HaloCurve E2 S B] in
/-- **C77**: with parameters for `k ≥ 22` there is room for `examples/paper.rs`. -/
theorem C77_paper_room (h : ∀ i, s.user1 i → i = paper) (hb : s.bytes = 1) : Room s := fun i hi one old new _ _ => by
  rw [h i hi]
  refine asks_mono (C77_paper_size one old new) ?_
  rintro _ _ _ ⟨rfl, rfl, rfl⟩
  omega

omit [DecidableEq B] [LawfulField B] [DecidableEq S] [HaloCurve E1 B S] [HaloCurve E2 S B] in
/-- **C77**: with parameters for `k ≥ 22` there is room for `examples/bitcoin.rs`. -/
theorem C77_bitcoin_room (h : ∀ i, s.user1 i → i = bitcoin) (hb : s.bytes = 116) : Room s := fun i hi one old new _ _ => by
  rw [h i hi]
  refine asks_mono (C77_bitcoin_size one old new) ?_
  rintro a m l ⟨h1, h2, h3⟩
  omega

omit [HaloCurve E1 B S] [HaloCurve E2 S B] in
theorem createProof_payload {e : Env} {params1 : Params (Proj B)} {params2 : Params (Proj S)} {old : Option (RecursiveProof S B)}
    {i1 : RecursiveCircuit S} {i2 : RecursiveCircuit B} {payload : List (BitVec 8)} {p : RecursiveProof B S}
    (h : RecursiveProof.createProof E1 E2 e.cpus e.lnCeil e.fuel params1 params2 old i1 i2 payload = .ok p) :
    p.payload = payload := by
  unfold RecursiveProof.createProof at h
  simp only [bind_eq_ok] at h
  obtain ⟨v, -, ⟨π, l⟩, -, h⟩ := h
  simp only [Except.ok.injEq] at h
  rw [← h]

/-- One step on the first curve -/
theorem step_outcome (hs : s.Good) (hk : 22 ≤ s.params1.k) (hroom : Room s) {e : Env} (he : e.Good)
    {i1 : RecursiveCircuit S} {i2 : RecursiveCircuit B} (h1 : s.user1 i1) (h2 : s.user2 i2) {payload : List (BitVec 8)}
    (hp : s.admitted payload) {old : Option (RecursiveProof S B)} (hold : ∀ q ∈ old, Made s (.inr q))
    (hacc : Accepts i1 (oldPayload i1 old) (bytesBits payload)) :
    (∃ p, RecursiveProof.createProof E1 E2 e.cpus e.lnCeil e.fuel s.params1 s.params2 old i1 i2 payload = .ok p ∧
      p.verify E1 E2 e.cpus e.lnCeil s.params1 s.params2 i1 i2 = .ok true) ∨ Unlucky s e i1 i2 old payload := by
  by_cases hapart : ∀ bits, OldBits s e i1 old bits → Apart s.g2 bits
  · obtain ⟨claims, t, hv, h⟩ := C76_honest_step hs hk hroom he h1 h2 hp hold hapart hacc
    obtain ⟨h3, h4⟩ := h e.fuel he.fuel
    let := Proj.curveOps E1 B S
    let := HaloCurve.module (E := E1) (F := B) (S := S)
    by_cases hst : StuckOpening Transcript.rescue e.fuel e.cpus e.lnCeil claims s.params1.generators s.params1.k t
    · exact .inr (.inr ⟨claims, t, hv, fun fuel hf => (h fuel hf).1, hst⟩)
    · obtain ⟨p, hp⟩ := h3.2 hst
      exact .inl ⟨p, hp, h4 p hp he h1 h2⟩
  · simp only [not_forall] at hapart
    obtain ⟨bits, hb, hn⟩ := hapart
    exact .inr (.inl ⟨bits, hb, hn⟩)

omit [HaloCurve E1 B S] [HaloCurve E2 S B] in
theorem made_swap {x : RecursiveProof B S ⊕ RecursiveProof S B} (h : Made s x) : Made s.swap x.swap := by
  induction h with
  | first he h1 h2 hp _ h ih => exact .second (s := s.swap) he h2 h1 hp ih h
  | second he h1 h2 hp _ h ih => exact .first (s := s.swap) he h2 h1 hp ih h

/-- One round of the loop -/
theorem cycle_outcome (hs : s.Good) (hk : 22 ≤ s.params1.k) (hroom : Room s) (hroom' : Room s.swap) {e : Env} (he : e.Good)
    {i1 : RecursiveCircuit S} {i2 : RecursiveCircuit B} (h1 : s.user1 i1) (h2 : s.user2 i2) {payload : List (BitVec 8)}
    (hp : s.admitted payload) {step : CycleStep B S} (hstep : step.Made s)
    (hacc : Accepts i1 (step.payload i1 i2) (bytesBits payload) ∧ Accepts i2 (step.payload i1 i2) (bytesBits payload)) :
    (∃ next, cycle E1 E2 e.cpus e.lnCeil e.fuel s.params1 s.params2 i1 i2 step payload = .ok next ∧ next.Made s ∧
      next.payload i1 i2 = bytesBits payload) ∨ step.Unlucky s e i1 i2 payload := by
  cases step with
  | stepA old =>
    rcases step_outcome hs hk hroom he h1 h2 hp hstep hacc.1 with ⟨p, h3, h4⟩ | h
    · refine .inl ⟨.stepB (some p), ?_, ?_, ?_⟩
      · simp only [cycle, h3, h4, unwrap, assert, Except.bind_ok, if_true]
      · rintro _ ⟨⟩
        exact .first he h1 h2 hp hstep h3
      · exact congrArg bytesBits (createProof_payload h3)
    · exact .inr h
  | stepB old =>
    have hmade : ∀ q ∈ old, Made s.swap (.inr q) := fun q hq => (made_swap (hstep q hq))
    rcases step_outcome (s := s.swap) hs.swap (by have := hs.k_eq; exact this ▸ hk) hroom' he h2 h1 hp hmade hacc.2 with
      ⟨p, h3, h4⟩ | h
    · refine .inl ⟨.stepA (some p), ?_, ?_, ?_⟩
      · have h3' : RecursiveProof.createProof E2 E1 e.cpus e.lnCeil e.fuel s.params2 s.params1 old i2 i1 payload = .ok p := h3
        have h4' : p.verify E2 E1 e.cpus e.lnCeil s.params2 s.params1 i2 i1 = .ok true := h4
        simp only [cycle, h3', h4', unwrap, assert, Except.bind_ok, if_true]
      · rintro _ ⟨⟩
        exact .second he h1 h2 hp hstep h3
      · exact congrArg bytesBits (createProof_payload h3)
    · exact .inr h

/-- **C77**, the loop of the examples, for any circuits and any number of payloads whose steps the circuits allow: if it is
not out of luck at one of the steps, it makes all the proofs and no assertion fails. The last proof carries the last payload. -/
theorem C77_cycles (hs : s.Good) (hk : 22 ≤ s.params1.k) (hroom : Room s) (hroom' : Room s.swap) {e : Env} (he : e.Good)
    {i1 : RecursiveCircuit S} {i2 : RecursiveCircuit B} (h1 : s.user1 i1) (h2 : s.user2 i2) :
    ∀ {inputs : List (List (BitVec 8))} {step : CycleStep B S}, (∀ p ∈ inputs, s.admitted p) → step.Made s →
      Allowed i1 i2 (step.payload i1 i2) inputs →
      (∃ last, cycles E1 E2 e.cpus e.lnCeil e.fuel s.params1 s.params2 i1 i2 step inputs = .ok last ∧ last.Made s ∧
        last.payload i1 i2 = (inputs.map bytesBits).getLastD (step.payload i1 i2)) ∨
      ∃ done payload rest at_, inputs = done ++ payload :: rest ∧
        cycles E1 E2 e.cpus e.lnCeil e.fuel s.params1 s.params2 i1 i2 step done = .ok at_ ∧
        at_.Unlucky s e i1 i2 payload
  | [], step, _, hstep, _ => .inl ⟨step, rfl, hstep, rfl⟩
  | payload :: inputs, step, hp, hstep, hacc => by
    rw [Allowed, List.map_cons, List.isChain_cons_cons] at hacc
    rcases cycle_outcome hs hk hroom hroom' he h1 h2 (hp payload (by simp)) hstep hacc.1 with ⟨next, h3, h4, h5⟩ | h
    · have hrest := C77_cycles hs hk hroom hroom' he h1 h2 (inputs := inputs) (step := next)
        (fun p h => hp p (by simp [h])) h4 (by rw [Allowed, h5]; exact hacc.2)
      have hcons : ∀ l, cycles E1 E2 e.cpus e.lnCeil e.fuel s.params1 s.params2 i1 i2 step (payload :: l) =
          cycles E1 E2 e.cpus e.lnCeil e.fuel s.params1 s.params2 i1 i2 next l := fun l => by
        simp only [cycles, List.foldlM_cons, h3, Except.bind_ok]
      rcases hrest with ⟨last, k1, k2, k3⟩ | ⟨done, p, rest, at_, k1, k2, k3⟩
      · refine .inl ⟨last, (hcons _).trans k1, k2, ?_⟩
        rw [k3, h5, List.map_cons, List.getLastD_cons]
      · exact .inr ⟨payload :: done, p, rest, at_, by rw [k1, List.cons_append], (hcons _).trans k2, k3⟩
    · exact .inr ⟨[], payload, inputs, step, rfl, rfl, h⟩

end Setup

/-! ### The parameters -/

section params
variable {E : CurveConsts} {F : Type} [Field F] [DecidableEq F] [LawfulField F]

theorem drawGenerator_affine {P : Proj F} : ∀ {l : List (Vector (BitVec 8) 32)}, drawGenerator E l = some P → P.z = 1
  | [], h => by simp [drawGenerator] at h
  | b :: l, h => by
    rw [drawGenerator] at h
    split at h
    · split at h
      · exact Option.some.inj h ▸ ‹_›
      · cases h
    · exact drawGenerator_affine h

theorem new_affine {k : ℕ} {attempts : ℕ → List (Vector (BitVec 8) 32)} {params : Params (Proj F)}
    (h : Params.new E F k attempts = some params) : ∀ p ∈ params.generators, p.z = 1 := by
  unfold Params.new at h
  by_cases hk : k > 3
  swap
  · simp [hk] at h
  simp only [hk, not_true, if_false] at h
  cases hm : (List.range (1 <<< k)).mapM fun i => (drawGenerator E (attempts i) : Option (Proj F)) with
  | none => simp [hm] at h
  | some gens =>
    simp only [hm, Option.bind_eq_bind, Option.bind_some, Option.some.injEq] at h
    subst h
    rw [mapM_some_iff, List.forall₂_iff_get] at hm
    obtain ⟨hl, hm⟩ := hm
    intro p hp
    obtain ⟨i, hi, rfl⟩ := List.mem_iff_getElem.1 hp
    exact drawGenerator_affine (hm i (hl ▸ hi) hi)

end params

/-- The points drawn for the generators, see C55: for each there is one, it is not the identity, and those for generators 1
and 2 are not opposite. -/
structure Drawn (E : CurveConsts) (F : Type) [Field F] [DecidableEq F] [LawfulField F]
    (attempts : ℕ → List (Vector (BitVec 8) 32)) : Prop where
  point : ∀ i < 2 ^ 22, ∃ A, FirstPoint (E.b : F) (attempts i) A ∧ A ≠ 0
  apart : ∀ A A', FirstPoint (E.b : F) (attempts 1) A → FirstPoint (E.b : F) (attempts 2) A' → A + A' ≠ 0

/-- The setup of the examples -/
theorem setup_new {attempts1 attempts2 : ℕ → List (Vector (BitVec 8) 32)} (d1 : Drawn E1 B attempts1)
    (d2 : Drawn E2 S attempts2) {bytes : ℕ} (hb : bytes ≤ 1000) {i1 : RecursiveCircuit S} {i2 : RecursiveCircuit B}
    {admitted : List (BitVec 8) → Prop} (u1 : ∀ p, admitted p → i1.Uniform i1 (bytesBits p))
    (u2 : ∀ p, admitted p → i2.Uniform i2 (bytesBits p)) (hsize : ∀ p, admitted p → p.length = bytes)
    (hex : ∃ p, admitted p) (hbase1 : i1.basePayload.length = 8 * bytes) (hbase2 : i2.basePayload.length = 8 * bytes) :
    ∃ s : Setup E1 E2 B S, s.Good ∧ Params.new E1 B 22 attempts1 = some s.params1 ∧
      Params.new E2 S 22 attempts2 = some s.params2 ∧ s.params1.k = 22 ∧ (∀ i, s.user1 i ↔ i = i1) ∧
      (∀ i, s.user2 i ↔ i = i2) ∧ s.bytes = bytes ∧ s.admitted = admitted := by
  obtain ⟨params1, h1⟩ := (C55_params (E := E1) (F := B) (S := S)).2 (by norm_num) d1.point
  obtain ⟨params2, h2⟩ := (C55_params (E := E2) (F := S) (S := B)).2 (by norm_num) d2.point
  obtain ⟨-, k1, g1, v1, l1, -, -, f1⟩ := (C55_params (E := E1) (F := B) (S := S)).1 _ h1
  obtain ⟨-, k2, g2, v2, l2, -, -, f2⟩ := (C55_params (E := E2) (F := S) (S := B)).1 _ h2
  have a1 : g1 1 + g1 2 ≠ 0 := d1.apart _ _ (f1 1 (by rw [l1]; norm_num)).2.2 (f1 2 (by rw [l1]; norm_num)).2.2
  have a2 : g2 1 + g2 2 ≠ 0 := d2.apart _ _ (f2 1 (by rw [l2]; norm_num)).2.2 (f2 2 (by rw [l2]; norm_num)).2.2
  have hroom : 8 * bytes + 2 * leftoversBits 22 + deferredBits 22 + 2 ≤ 2 ^ 22 := by
    rw [leftoversBits, deferredBits]
    omega
  refine ⟨⟨params1, params2, g1, g2, (· = i1), (· = i2), bytes, admitted⟩,
    ⟨k1.trans k2.symm, ⟨v1 (by norm_num), new_affine h1, a1, ?_, ?_, hsize, hex, ?_⟩,
      ⟨v2 (by norm_num), new_affine h2, a2, ?_, ?_, hsize, hex, ?_⟩⟩, h1, h2, k1, fun _ => Iff.rfl, fun _ => Iff.rfl, rfl, rfl⟩
  · show 8 * bytes + 2 * leftoversBits params1.k + deferredBits params1.k + 2 ≤ 2 ^ params1.k
    rw [k1]
    exact hroom
  · rintro _ _ p rfl rfl hp
    exact u1 p hp
  · rintro _ rfl
    exact hbase1
  · show 8 * bytes + 2 * leftoversBits params2.k + deferredBits params2.k + 2 ≤ 2 ^ params2.k
    rw [k2]
    exact hroom
  · rintro _ _ p rfl rfl hp
    exact u2 p hp
  · rintro _ rfl
    exact hbase2

/-! ### The programs -/

variable {E0 : CurveConsts} {B0 B1 : Type} [Field B0] [DecidableEq B0] [LawfulField B0] [Field B1] [DecidableEq B1]
  [LawfulField B1] [HaloCurve E0 B0 B1] [HaloCurve E1 B1 B0]

omit [HaloCurve E0 B0 B1] [HaloCurve E1 B1 B0] in
theorem program_eq {cpus : ℕ} {lnCeil : ℕ → ℕ} {fuel : ℕ} {attempts0 attempts1 : ℕ → List (Vector (BitVec 8) 32)}
    {i0 : RecursiveCircuit B1} {i1 : RecursiveCircuit B0} {inputs : List (List (BitVec 8))} {params0 : Params (Proj B0)}
    {params1 : Params (Proj B1)} (h0 : Params.new E0 B0 22 attempts0 = some params0)
    (h1 : Params.new E1 B1 22 attempts1 = some params1) {last : CycleStep B1 B0}
    (h : cycles E1 E0 cpus lnCeil fuel params1 params0 i1 i0 (.stepA none) inputs = .ok last) :
    program E0 E1 cpus lnCeil fuel attempts0 attempts1 i0 i1 inputs = .ok () := by
  have key : ∀ (x : Option (Params (Proj B0))) (y : Option (Params (Proj B1))), x = some params0 → y = some params1 →
      (do
        let params0 ← ofOption x
        let params1 ← ofOption y
        let _ ← cycles E1 E0 cpus lnCeil fuel params1 params0 i1 i0 (.stepA none) inputs
        .ok () : Except Fail Unit) = .ok () := by
    rintro _ _ rfl rfl
    simp only [ofOption, Except.bind_ok, h]
  exact key _ _ h0 h1

/-- What a program does that makes parameters and then proofs for these payloads: it succeeds, or it makes some of the proofs
and is then out of luck. -/
def Outcome (E0 E1 : CurveConsts) [HaloCurve E0 B0 B1] [HaloCurve E1 B1 B0] (e : Env)
    (attempts0 attempts1 : ℕ → List (Vector (BitVec 8) 32)) (i0 : RecursiveCircuit B1)
    (i1 : RecursiveCircuit B0) (inputs : List (List (BitVec 8))) (result : Except Fail Unit) : Prop :=
  ∃ s : Setup E1 E0 B1 B0, s.Good ∧ Params.new E1 B1 22 attempts1 = some s.params1 ∧
    Params.new E0 B0 22 attempts0 = some s.params2 ∧
    (result = .ok () ∨
      ∃ done payload rest at_, inputs = done ++ payload :: rest ∧
        cycles E1 E0 e.cpus e.lnCeil e.fuel s.params1 s.params2 i1 i0 (.stepA none) done = .ok at_ ∧
        at_.Unlucky s e i1 i0 payload)

theorem program_outcome {attempts0 attempts1 : ℕ → List (Vector (BitVec 8) 32)} {s : Setup E1 E0 B1 B0} (hs : s.Good)
    (h1 : Params.new E1 B1 22 attempts1 = some s.params1) (h0 : Params.new E0 B0 22 attempts0 = some s.params2)
    (hk : s.params1.k = 22) (hroom : Room s) (hroom' : Room s.swap) {e : Env} (he : e.Good)
    {i0 : RecursiveCircuit B1} {i1 : RecursiveCircuit B0} (u1 : s.user1 i1) (u0 : s.user2 i0)
    {inputs : List (List (BitVec 8))} (hp : ∀ p ∈ inputs, s.admitted p) (ha : Allowed i1 i0 i1.basePayload inputs) :
    Outcome E0 E1 e attempts0 attempts1 i0 i1 inputs
      (program E0 E1 e.cpus e.lnCeil e.fuel attempts0 attempts1 i0 i1 inputs) := by
  refine ⟨s, hs, h1, h0, ?_⟩
  rcases C77_cycles hs hk.ge hroom hroom' he u1 u0 (step := .stepA none) hp (fun _ h => by cases h) ha with
    ⟨last, h, -, -⟩ | h
  · exact .inl (program_eq h0 h1 h)
  · exact .inr h

section paper
variable {F : Type} [Field F] [LawfulField F]

theorem paper_accepts {old new : List Bool} (ho : old.length = 8) (hn : new.length = 8) :
    Accepts (paper : RecursiveCircuit F) old new := by
  intro w one h1 ob nb h2 h3
  have h4 : (10 : F) * 10 = 100 := by norm_num
  simp [paper, h2.length_eq, h3.length_eq, ho, hn, complete_bind, complete_doMultiply, LawfulField.fromU64_eq, h4]

end paper

/-- **C77**, `main` of `examples/paper.rs`: unless it is out of luck, it makes the five proofs and its
assertions hold, that all are accepted. -/
theorem C77_paper {attempts0 attempts1 : ℕ → List (Vector (BitVec 8) 32)} (d0 : Drawn E0 B0 attempts0)
    (d1 : Drawn E1 B1 attempts1) {e : Env} (he : e.Good) :
    Outcome E0 E1 e attempts0 attempts1 (paper : RecursiveCircuit B1) (paper : RecursiveCircuit B0) paperInputs
      (paperMain (B0 := B0) (B1 := B1) E0 E1 e.cpus e.lnCeil e.fuel attempts0 attempts1) := by
  obtain ⟨s, hs, h1, h0, hk, u1, u0, hb, ha⟩ := setup_new d1 d0 (bytes := 1) (by norm_num)
    (i1 := paper) (i2 := paper) (admitted := fun p => p.length = 1) (fun p _ => C62_paper_uniform _)
    (fun p _ => C62_paper_uniform _) (fun _ h => h) ⟨[0], rfl⟩ rfl rfl
  refine program_outcome hs h1 h0 hk (C77_paper_room (fun i h => (u1 i).1 h) hb)
    (C77_paper_room (fun i h => (u0 i).1 h) hb) he ((u1 _).2 rfl) ((u0 _).2 rfl) ?_ ?_
  · rw [ha]
    intro p hp
    rw [List.eq_of_mem_replicate hp]
    rfl
  · have h : (bytesBits [0]).length = 8 := by decide
    simp only [Allowed, paperInputs, List.replicate, List.map_cons, List.map_nil, List.isChain_cons_cons, List.isChain_singleton,
      and_true]
    refine ⟨⟨paper_accepts rfl h, paper_accepts rfl h⟩, ?_, ?_, ?_, ?_⟩ <;> exact ⟨paper_accepts h h, paper_accepts h h⟩

/-- **C77**, `main` of `examples/bitcoin.rs`: unless it is out of luck, it makes the ten proofs and its
assertions hold, that all are accepted. -/
theorem C77_bitcoin {attempts0 attempts1 : ℕ → List (Vector (BitVec 8) 32)} (d0 : Drawn E0 B0 attempts0)
    (d1 : Drawn E1 B1 attempts1) {e : Env} (he : e.Good) :
    Outcome E0 E1 e attempts0 attempts1 (bitcoin : RecursiveCircuit B1) (bitcoin : RecursiveCircuit B0) bitcoinInputs
      (bitcoinMain (B0 := B0) (B1 := B1) E0 E1 e.cpus e.lnCeil e.fuel attempts0 attempts1) := by
  have hsize : ∀ p : List (BitVec 8), Regular p → p.length = 116 := fun p h => by
    have := h.1
    rw [Bitcoin.payloadBits] at this
    omega
  obtain ⟨s, hs, h1, h0, hk, u1, u0, hb, ha⟩ := setup_new d1 d0 (bytes := 116) (by norm_num)
    (i1 := bitcoin) (i2 := bitcoin) (admitted := Regular) (fun p h => C62_bitcoin_uniform h.2.1)
    (fun p h => C62_bitcoin_uniform h.2.1) hsize
    ⟨_, inputs_regular (bitcoinInputs[0]'(by decide)) (List.getElem_mem _)⟩ length_basePayload length_basePayload
  refine program_outcome hs h1 h0 hk (C77_bitcoin_room (fun i h => (u1 i).1 h) hb)
    (C77_bitcoin_room (fun i h => (u0 i).1 h) hb) he ((u1 _).2 rfl) ((u0 _).2 rfl) (ha ▸ inputs_regular) ?_
  have key : ∀ (l : List (List (BitVec 8))) {old : List Bool}, old.length = Bitcoin.payloadBits → (∀ p ∈ l, Regular p) →
      List.IsChain Bitcoin.Extends (old :: l.map bytesBits) →
      Allowed (bitcoin : RecursiveCircuit B0) (bitcoin : RecursiveCircuit B1) old l := by
    intro l
    induction l with
    | nil => exact fun _ _ _ => List.isChain_singleton _
    | cons p l ih =>
      intro old ho hr h
      rw [List.map_cons, List.isChain_cons_cons] at h
      obtain ⟨r1, r2, r3, r4⟩ := hr p (by simp)
      have hp : (bytesBits p).length = Bitcoin.payloadBits := by rw [length_bytesBits, r1]
      rw [Allowed, List.map_cons, List.isChain_cons_cons]
      exact ⟨⟨C64_accepts_partial ho hp r2 r3 r4 h.1, C64_accepts_partial ho hp r2 r3 r4 h.1⟩,
        ih hp (fun p h => hr p (by simp [h])) h.2⟩
  exact key _ length_basePayload inputs_regular C77_blocks

/-! ### Instances -/

/-- There are strings from which suitable generators are drawn. -/
theorem drawn_example {E : CurveConsts} {F : Type} (S : Type) [Field F] [DecidableEq F] [LawfulField F] [Field S]
    [LawfulField S] [HaloCurve E F S] : ∃ attempts, Drawn E F attempts := by
  obtain ⟨A, hA, h0⟩ := one_denotes (E := E) (F := F) (S := S)
  obtain ⟨q, -, hd⟩ := exists_affine (CurvePoint.nsmul_ne_zero_of_lt S h0 (m := 2 ^ 20) (by norm_num) (by norm_num))
  obtain ⟨bs, -, hbs, -⟩ := (C15_point_encoding (E := E) (F := F) S).1 _ A hA
  obtain ⟨bs', -, hbs', -⟩ := (C15_point_encoding (E := E) (F := F) S).1 _ _ hd
  have hinj : ∀ {A B : Pt (E.b : F)}, encNat A = encNat B → A = B :=
    encNat_inj (HaloCurve.good E F S).no_two_torsion ((HaloCurve.is (E := E) (F := F) (S := S)).b_nonsquare rfl)
  have huniq : ∀ {bs : Vector (BitVec 8) 32} {A C : Pt (E.b : F)}, leNat bs.toList = encNat A →
      FirstPoint (E.b : F) [bs] C → C = A := by
    rintro bs A C h ⟨pre, b, post, h1, -, h3⟩
    cases pre with
    | nil =>
      simp only [List.nil_append, List.cons.injEq] at h1
      rw [← h1.1] at h3
      exact hinj (h3.trans h)
    | cons c pre => simp at h1
  refine ⟨fun i => if i = 1 then [bs'] else [bs], ⟨fun i _ => ?_, fun C C' h h' => ?_⟩⟩
  · by_cases hi : i = 1
    · exact ⟨(2 ^ 20 : ℕ) • A, by rw [if_pos hi]; exact ⟨[], bs', [], rfl, by simp, hbs'.symm⟩,
        CurvePoint.nsmul_ne_zero_of_lt S h0 (m := 2 ^ 20) (by norm_num) (by norm_num)⟩
    · exact ⟨A, by rw [if_neg hi]; exact ⟨[], bs, [], rfl, by simp, hbs.symm⟩, h0⟩
  · rw [if_pos rfl] at h
    rw [if_neg (by norm_num)] at h'
    rw [huniq hbs' h, huniq hbs h', ← succ_nsmul]
    exact CurvePoint.nsmul_ne_zero_of_lt S h0 (m := 2 ^ 20 + 1) (by norm_num) (by norm_num)

/-- The programs as they are run, with four cores -/
example : ∃ attempts0 attempts1 : ℕ → List (Vector (BitVec 8) 32), Drawn ec0 Fq attempts0 ∧ Drawn ec1 Fp attempts1 ∧
    Env.Good ⟨4, fun _ => 3, 256⟩ ∧
    Outcome ec0 ec1 ⟨4, fun _ => 3, 256⟩ attempts0 attempts1 (paper : RecursiveCircuit Fp) (paper : RecursiveCircuit Fq)
      paperInputs (paperMain (B0 := Fq) (B1 := Fp) ec0 ec1 4 (fun _ => 3) 256 attempts0 attempts1) ∧
    Outcome ec0 ec1 ⟨4, fun _ => 3, 256⟩ attempts0 attempts1 (bitcoin : RecursiveCircuit Fp) (bitcoin : RecursiveCircuit Fq)
      bitcoinInputs (bitcoinMain (B0 := Fq) (B1 := Fp) ec0 ec1 4 (fun _ => 3) 256 attempts0 attempts1) := by
  obtain ⟨a0, d0⟩ := drawn_example (E := ec0) (F := Fq) Fp
  obtain ⟨a1, d1⟩ := drawn_example (E := ec1) (F := Fp) Fq
  have he : Env.Good ⟨4, fun _ => 3, 256⟩ := ⟨by norm_num, by simp, by norm_num⟩
  exact ⟨a0, a1, d0, d1, he, C77_paper d0 d1 he, C77_bitcoin d0 d1 he⟩

end Example
end Halo
