import Verif.Lemmas.Recover
import Verif.Props.Circuit
/-!
# Circuits that go on after a failed call (C84)

A circuit that gets an error from `alloc`, `alloc_input` or `multiply` need not pass it on.  `RProg`
is a program that sees the results of its calls, and `Keep.synthesize` the synthesizer with the state
that failed calls leave behind (`Verif.Model.Recover`).
-/
namespace Halo
open Circuit
variable {F : Type} [Field F]

/-- The circuits of the other properties are those that pass errors on: for them the synthesizer with
the state kept has the same outcome, and the same final state if it succeeds, on all backends of the
library; and so has the satisfaction checker. -/
theorem C84_question_mark {α : Type} (circuit : Var → Prog F α) :
    (∀ b, Keep.outcome (Keep.synthesize proverBackend b fun one => (circuit one).lift) =
      Basic.synthesize proverBackend b circuit) ∧
    (∀ b, Keep.outcome (Keep.synthesize satBackend b fun one => (circuit one).lift) =
      Basic.synthesize satBackend b circuit) ∧
    (∀ b, Keep.outcome (Keep.synthesize sxBackend b fun one => (circuit one).lift) =
      Basic.synthesize sxBackend b circuit) ∧
    (∀ b, Keep.outcome (Keep.synthesize syBackend b fun one => (circuit one).lift) =
      Basic.synthesize syBackend b circuit) ∧
    ∀ b, Keep.outcome (Keep.synthesize inputMapBackend b fun one => (circuit one).lift) =
      Basic.synthesize inputMapBackend b circuit :=
  ⟨fun b => synthesize_lift noErr_prover b circuit, fun b => synthesize_lift noErr_sat b circuit,
    fun b => synthesize_lift noErr_sx b circuit, fun b => synthesize_lift noErr_sy b circuit,
    fun b => synthesize_lift noErr_inputMap b circuit⟩

/-- The satisfaction checker on circuits that pass errors on -/
theorem C84_is_satisfied_question_mark [DecidableEq F] (circuit : Var → Prog F Unit)
    (inputs : List F) :
    isSatisfiedKeep (fun one => (circuit one).lift) inputs = isSatisfied circuit inputs := by
  have h := (C84_question_mark circuit).2.1 ⟨0, 0, ⟨[], [], []⟩, [], [], []⟩
  unfold isSatisfiedKeep isSatisfied
  rw [← h]
  rcases Keep.synthesize satBackend ⟨0, 0, ⟨[], [], []⟩, [], [], []⟩ fun one => (circuit one).lift
    with _ | ⟨_ | _, _⟩ <;> rfl

/-- **C84**, the prover and the satisfaction checker: a circuit with failing calls ends as does the
circuit with zeros in place of the values that are missing (`RProg.zeros`), with the same result and
in the same state. -/
theorem C84_zeros {α : Type} (circuit : Var → RProg F α) :
    Basic.synthesize proverBackend ⟨0, 0, ⟨[], [], []⟩, []⟩ (fun one => (circuit one).zeros true) =
      Keep.orPanic (Keep.synthesize proverBackend ⟨0, 0, ⟨[], [], []⟩, []⟩ circuit) ∧
    Basic.synthesize satBackend ⟨0, 0, ⟨[], [], []⟩, [], [], []⟩
        (fun one => (circuit one).zeros true) =
      Keep.orPanic (Keep.synthesize satBackend ⟨0, 0, ⟨[], [], []⟩, [], [], []⟩ circuit) :=
  ⟨keepSim_prover.synthesize sim_prover circuit ⟨.empty, rfl, rfl, rfl, rfl, rfl, rfl, rfl⟩,
    keepSim_sat.synthesize sim_sat circuit
      ⟨.empty, rfl, rfl, rfl, rfl, rfl, rfl, rfl, by simp [System.empty], rfl, rfl⟩⟩

/-- **C84**, what the prover's variables carry: at the end of every history of calls, failed or not,
all variables that have been returned, and the constant one, are distinct, and carry the values that
were supplied for them; all gates multiply if the triples supplied to `multiply` do; and each call
has failed exactly if its closure has, with the same error. -/
theorem C84_prover_wires {α : Type} {circuit : Var → RProg F α} {a : α} {log : RProg.Log F}
    {d : Driver (Witness F)} (h : Keep.synthesize proverBackend ⟨0, 0, ⟨[], [], []⟩, []⟩
      (fun one => (circuit one).traced ⟨[], [], []⟩) = some (.ok (a, log), d)) :
    Keep.synthesize proverBackend ⟨0, 0, ⟨[], [], []⟩, []⟩ circuit = some (.ok a, d) ∧
    (Basic.ONE :: log.vars.map Prod.fst).Nodup ∧
    d.backend.wires.get Basic.ONE = some 1 ∧
    (∀ p ∈ log.vars, d.backend.wires.get p.1 = p.2 ∧ p.2 ≠ none) ∧
    ((∀ t ∈ log.products, t.1 * t.2.1 = t.2.2) →
      d.backend.wires.a.length = d.backend.wires.c.length ∧
      d.backend.wires.a.zipWith (· * ·) d.backend.wires.b = d.backend.wires.c) ∧
    ∀ o ∈ log.outcomes, o.1 = o.2 := by
  have h1 := (C84_zeros fun one => (circuit one).traced ⟨[], [], []⟩).1
  rw [h, Keep.orPanic] at h1
  obtain ⟨log', h2, h3⟩ := synthesize_to_traced (zeros_traced _ _ _) h1
  obtain ⟨-, h4, h5, h6, h7⟩ := C28_prover_wires h2
  obtain ⟨vs, ps, os, rfl, e1, e2, e3⟩ := h3 _ _ rfl
  simp only [List.nil_append] at e1 e2 e3 ⊢
  refine ⟨synthesize_tracedR noErr_prover h, ?_, h5, fun p hp => h6 p (e1.subset hp), fun hp => h7 ?_, e3⟩
  · exact h4.sublist ((e1.map Prod.fst).cons_cons _)
  · intro t ht
    rcases e2 t ht with ht | rfl
    · exact hp t ht
    · simp

/-- **C84** for the satisfaction checker's variables -/
theorem C84_checker_wires {α : Type} {circuit : Var → RProg F α} {a : α} {log : RProg.Log F}
    {d : Driver (SatState F)} (h : Keep.synthesize satBackend ⟨0, 0, ⟨[], [], []⟩, [], [], []⟩
      (fun one => (circuit one).traced ⟨[], [], []⟩) = some (.ok (a, log), d)) :
    Keep.synthesize satBackend ⟨0, 0, ⟨[], [], []⟩, [], [], []⟩ circuit = some (.ok a, d) ∧
    (Basic.ONE :: log.vars.map Prod.fst).Nodup ∧
    d.backend.wires.get Basic.ONE = some 1 ∧
    (∀ p ∈ log.vars, d.backend.wires.get p.1 = p.2 ∧ p.2 ≠ none) ∧
    ((∀ t ∈ log.products, t.1 * t.2.1 = t.2.2) →
      d.backend.wires.a.length = d.backend.wires.c.length ∧
      d.backend.wires.a.zipWith (· * ·) d.backend.wires.b = d.backend.wires.c) ∧
    ∀ o ∈ log.outcomes, o.1 = o.2 := by
  have h1 := (C84_zeros fun one => (circuit one).traced ⟨[], [], []⟩).2
  rw [h, Keep.orPanic] at h1
  obtain ⟨log', h2, h3⟩ := synthesize_to_traced (zeros_traced _ _ _) h1
  obtain ⟨-, h4, h5, h6, h7⟩ := C28_checker_wires h2
  obtain ⟨vs, ps, os, rfl, e1, e2, e3⟩ := h3 _ _ rfl
  simp only [List.nil_append] at e1 e2 e3 ⊢
  refine ⟨synthesize_tracedR noErr_sat h, ?_, h5, fun p hp => h6 p (e1.subset hp), fun hp => h7 ?_, e3⟩
  · exact h4.sublist ((e1.map Prod.fst).cons_cons _)
  · intro t ht
    rcases e2 t ht with ht | rfl
    · exact hp t ht
    · simp

/-- **C84**, `is_satisfied`: it answers `Ok(true)` exactly if the circuit completes, and the system of the circuit with
zeros in place of missing values is satisfied by the values that are supplied. -/
theorem C84_is_satisfied [DecidableEq F] (circuit : Var → RProg F Unit) (inputs : List F) :
    isSatisfiedKeep circuit inputs = .ok true ↔
      ∃ s, circuitSystem true (fun one => (circuit one).zeros true) = .ok (.ok (), s) ∧
        s.inputs.length = inputs.length + 1 ∧
        (∀ lc ∈ s.lcs, ∀ t ∈ lc.terms, 1 ≤ t.1.index ∧ t.1.index ≤ s.gates) ∧
        s.Satisfied s.w inputs := by
  have h : isSatisfiedKeep circuit inputs =
      isSatisfied (fun one => ((circuit one).zeros true).rethrow) inputs := by
    have := (C84_zeros circuit).2
    unfold isSatisfiedKeep isSatisfied
    rw [synthesize_rethrow, this]
    rcases Keep.synthesize satBackend ⟨0, 0, ⟨[], [], []⟩, [], [], []⟩ circuit with _ | ⟨_ | _, _⟩ <;> rfl
  rw [h, C29_is_satisfied]
  unfold circuitSystem
  simp only [collect_rethrow]

/-- **C84**, the verifier: its evaluators and its input map invoke no closures, so no call fails, and the circuit is
synthesized as if it passed all errors on. -/
theorem C84_verifier {α : Type} (circuit : Var → RProg F α) :
    (∀ b, Keep.outcome (Keep.synthesize sxBackend b circuit) =
      Basic.synthesize sxBackend b fun one => (circuit one).strict) ∧
    (∀ b, Keep.outcome (Keep.synthesize syBackend b circuit) =
      Basic.synthesize syBackend b fun one => (circuit one).strict) ∧
    ∀ b, Keep.outcome (Keep.synthesize inputMapBackend b circuit) =
      Basic.synthesize inputMapBackend b fun one => (circuit one).strict :=
  ⟨fun b => Silent.synthesize noErr_sx ⟨fun _ _ => rfl, fun _ _ _ _ => rfl⟩ (fun _ _ _ _ h => by cases h) b circuit,
    fun b => Silent.synthesize noErr_sy ⟨fun _ _ => rfl, fun _ _ _ _ => rfl⟩ (fun _ _ _ _ h => by cases h) b circuit,
    fun b => Silent.synthesize noErr_inputMap silent_inputMap (fun _ _ _ _ h => by cases h) b circuit⟩

/-- A circuit that asks for two variables, of which it may do without the second if that has no value, and then for a
variable that it requires to be one -/
def optionalCircuit : Var → RProg F Unit := fun one =>
  .alloc (.ok 0) fun _ => .alloc (.error .assignmentMissing) fun _ => .alloc (.ok 1) fun
    | .error e => .throw e
    | .ok (x, _) => .enforceZero ((LC.ofVar x).subVar one) (.pure ())

/-- **C84** is false for the prover and the verifier together: a failed call can shift all later variables for the prover
only.  `optionalCircuit` makes the same calls, in the same order, whoever runs it; it is satisfied, according to
`is_satisfied`; and yet the prover's values violate the constraints that the verifier sees, of which there are as many: the
prover gets `A(3)` for the variable that the verifier gets as `B(2)`. -/
theorem C84_prover_and_verifier_differ [DecidableEq F] :
    isSatisfiedKeep (optionalCircuit (F := F)) [] = .ok true ∧
    ∃ (d : Driver (Witness F)) (s : System F),
      Keep.synthesize proverBackend ⟨0, 0, ⟨[], [], []⟩, []⟩ optionalCircuit = some (.ok (), d) ∧
      circuitSystem false (fun one => (optionalCircuit one).strict) = .ok ((), s) ∧
      d.backend.n = 3 ∧ s.gates = 2 ∧ d.backend.q = s.lcs.length ∧
      ¬ s.Satisfied (assigned d.backend.wires.a d.backend.wires.b d.backend.wires.c) [] := by
  constructor
  · rw [C84_is_satisfied]
    refine ⟨_, rfl, rfl, ?_, ?_⟩
    · simp [System.expose, System.constrain, System.fresh, System.empty, LC.ofVar, LC.addVar, LC.subVar, LC.sub, LC.add,
        LC.zero, Var.index]
      rintro a b (⟨rfl, -⟩ | ⟨rfl, -⟩) <;> simp
    · constructor
      · intro i h1 h2
        simp only [System.expose, System.constrain, System.fresh, System.empty] at h2 ⊢
        interval_cases i <;> simp
      · intro q lc h
        simp only [System.expose, System.constrain, System.fresh, System.empty] at h ⊢
        match q with
        | 0 => simp at h; subst h; simp [LC.eval, rhs, Coeff.value, Function.update_apply]
        | 1 => simp at h; subst h; simp [LC.eval, rhs, Coeff.value, Function.update_apply, LC.ofVar,
            LC.addVar, LC.subVar, LC.sub, LC.add, LC.zero, Coeff.neg]
        | q + 2 => simp at h
  · obtain ⟨d, h1, h2, h3, h4⟩ : ∃ d : Driver (Witness F),
        Keep.synthesize proverBackend ⟨0, 0, ⟨[], [], []⟩, []⟩ optionalCircuit = some (.ok (), d) ∧
        d.backend.n = 3 ∧ d.backend.q = 2 ∧ d.backend.wires = ⟨[1, 0, 1], [0, 0, 0], [1 * 0, 0, 0]⟩ :=
      ⟨_, rfl, rfl, rfl, rfl⟩
    obtain ⟨s, e1, e2, e3, e4⟩ : ∃ s : System F,
        circuitSystem false (fun one => (optionalCircuit one).strict) = .ok ((), s) ∧ s.gates = 2 ∧
        s.lcs = [⟨[(.A 1, .one)]⟩, ⟨[(.B 2, .one), (.A 1, .negativeOne)]⟩] ∧ s.inputs = [(1, some 1)] :=
      ⟨_, rfl, rfl, rfl, rfl⟩
    refine ⟨d, s, h1, e1, h2, e2, by rw [h3, e3]; rfl, fun h => ?_⟩
    have := h.2 1 ⟨[(.B 2, .one), (.A 1, .negativeOne)]⟩ (by rw [e3]; rfl)
    rw [h4, e4] at this
    simp [LC.eval, rhs, Coeff.value, assigned] at this

omit [Field F] in
/-- `determinism_check` on circuits that pass errors on -/
theorem C84_determinism_question_mark [DecidableEq F] (circuit : Var → Prog F Unit) :
    determinismCheckKeep (fun one => (circuit one).lift) = determinismCheck circuit := by
  unfold determinismCheckKeep determinismCheck
  rw [recordKeep_lift]
  rcases record (circuit (.A 0)) 1 [] with _ | ev
  · rfl
  · exact enforceEventsKeep_lift _ _ _

/-- A circuit that requires three variables to be one, as far as they have values; the second has none. -/
def eachOneCircuit : Var → RProg F Unit := fun one =>
  let check (r : Except SynthesisError (Var × Option F)) (rest : RProg F Unit) : RProg F Unit :=
    match r with
    | .error _ => rest
    | .ok (x, _) => .enforceZero ((LC.ofVar x).subVar one) rest
  .alloc (.ok 1) fun r => check r (.alloc (.error .assignmentMissing) fun r => check r (.alloc (.ok 1) fun r =>
    check r (.pure ())))

/-- **C84**: `determinism_check` does not always notice that prover and verifier have different circuits: it does not count a
failed call, and does not ask for all recorded events.  `eachOneCircuit` passes it, and is satisfied according to
`is_satisfied`; but the verifier has a linear constraint more than the prover, which the prover's values violate. -/
theorem C84_determinism_check_misses [DecidableEq F] :
    determinismCheckKeep (eachOneCircuit (F := F)) = .ok () ∧
    isSatisfiedKeep (eachOneCircuit (F := F)) [] = .ok true ∧
    ∃ (d : Driver (Witness F)) (s : System F),
      Keep.synthesize proverBackend ⟨0, 0, ⟨[], [], []⟩, []⟩ eachOneCircuit = some (.ok (), d) ∧
      circuitSystem false (fun one => (eachOneCircuit one).strict) = .ok ((), s) ∧
      d.backend.q = 3 ∧ s.lcs.length = 4 ∧
      ¬ s.Satisfied (assigned d.backend.wires.a d.backend.wires.b d.backend.wires.c) [] := by
  refine ⟨?_, ?_, ?_⟩
  · simp [determinismCheckKeep, recordKeep, enforceEventsKeep, eachOneCircuit, Except.bind_ok, sameLC, LC.ofVar,
      LC.addVar, LC.subVar, LC.sub, LC.add, LC.zero]
  · rw [C84_is_satisfied]
    refine ⟨_, rfl, rfl, ?_, ?_⟩
    · simp [System.expose, System.constrain, System.fresh, System.empty, LC.ofVar, LC.addVar, LC.subVar, LC.sub, LC.add,
        LC.zero, Var.index]
      constructor <;> rintro a b (⟨rfl, -⟩ | ⟨rfl, -⟩) <;> simp
    · constructor
      · intro i h1 h2
        simp only [System.expose, System.constrain, System.fresh, System.empty] at h2 ⊢
        interval_cases i <;> simp
      · intro q lc h
        simp only [System.expose, System.constrain, System.fresh, System.empty] at h ⊢
        match q with
        | 0 => simp at h; subst h; simp [LC.eval, rhs, Coeff.value, Function.update_apply]
        | 1 => simp at h; subst h; simp [LC.eval, rhs, Coeff.value, Function.update_apply, LC.ofVar,
            LC.addVar, LC.subVar, LC.sub, LC.add, LC.zero, Coeff.neg]
        | 2 => simp at h; subst h; simp [LC.eval, rhs, Coeff.value, Function.update_apply, LC.ofVar,
            LC.addVar, LC.subVar, LC.sub, LC.add, LC.zero, Coeff.neg]
        | q + 3 => simp at h
  · obtain ⟨d, h1, h2, h3⟩ : ∃ d : Driver (Witness F),
        Keep.synthesize proverBackend ⟨0, 0, ⟨[], [], []⟩, []⟩ eachOneCircuit = some (.ok (), d) ∧
        d.backend.q = 3 ∧ d.backend.wires = ⟨[1, 0, 1], [1, 0, 0], [1 * 1, 0, 0]⟩ :=
      ⟨_, rfl, rfl, rfl⟩
    obtain ⟨s, e1, e2, e3⟩ : ∃ s : System F,
        circuitSystem false (fun one => (eachOneCircuit one).strict) = .ok ((), s) ∧
        s.lcs = [⟨[(.A 1, .one)]⟩, ⟨[(.B 1, .one), (.A 1, .negativeOne)]⟩, ⟨[(.A 2, .one), (.A 1, .negativeOne)]⟩,
          ⟨[(.B 2, .one), (.A 1, .negativeOne)]⟩] ∧ s.inputs = [(1, some 1)] :=
      ⟨_, rfl, rfl, rfl⟩
    refine ⟨d, s, h1, e1, h2, by rw [e2]; rfl, fun h => ?_⟩
    have := h.2 2 ⟨[(.A 2, .one), (.A 1, .negativeOne)]⟩ (by rw [e2]; rfl)
    rw [h3, e3] at this
    simp [LC.eval, rhs, Coeff.value, assigned] at this

/-- **C84**, what holds of the prover and the verifier together: if no call fails while the prover synthesizes the circuit,
then it is for the prover, too, as if the circuit passed all errors on; so both have the same circuit `strict`, to which all
other properties apply.  What is missing is that some calls fail; then the circuits differ (above). -/
theorem C84_no_failure_partial {α : Type} {circuit : Var → RProg F α} {a : α} {log : RProg.Log F}
    {d : Driver (Witness F)} (h : Keep.synthesize proverBackend ⟨0, 0, ⟨[], [], []⟩, []⟩
      (fun one => (circuit one).traced ⟨[], [], []⟩) = some (.ok (a, log), d)) (hn : ∀ o ∈ log.outcomes, o.2 = none) :
    Basic.synthesize proverBackend ⟨0, 0, ⟨[], [], []⟩, []⟩ (fun one => (circuit one).strict) = .ok (a, d) :=
  synthesize_strict noErr_prover h hn

/-- the circuit above is a history with a failed call for the prover and for the checker -/
example : (∃ log d, Keep.synthesize proverBackend ⟨0, 0, ⟨[], [], []⟩, []⟩
      (fun one => (optionalCircuit (F := F) one).traced ⟨[], [], []⟩) = some (.ok ((), log), d) ∧
      log.vars = [(.B 1, some 0), (.A 3, some 1)] ∧
      log.outcomes = [(none, none), (some .assignmentMissing, some .assignmentMissing), (none, none)]) ∧
    ∃ log d, Keep.synthesize satBackend ⟨0, 0, ⟨[], [], []⟩, [], [], []⟩
      (fun one => (optionalCircuit (F := F) one).traced ⟨[], [], []⟩) = some (.ok ((), log), d) ∧
      log.vars = [(.B 1, some 0), (.A 3, some 1)] :=
  ⟨⟨_, _, rfl, rfl, rfl⟩, _, _, rfl, rfl⟩

/-- a circuit that handles errors, and has none -/
example (x : F) : ∃ log d, Keep.synthesize proverBackend ⟨0, 0, ⟨[], [], []⟩, []⟩
      (fun _ => ((RProg.multiply (.ok (x, 1, x)) fun
        | .ok _ => .pure ()
        | .error _ => .panic : RProg F Unit)).traced ⟨[], [], []⟩) = some (.ok ((), log), d) ∧
      (∀ o ∈ log.outcomes, o.2 = none) ∧ log.vars.length = 3 :=
  ⟨_, _, rfl, by simp [RProg.error], rfl⟩

end Halo
