import Verif.Spec.Recover
import Verif.Lemmas.Traced
/-!
# Circuits that go on after a failed call
-/
namespace Halo
namespace Circuit
open Keep
variable {F β ι : Type} [Field F]

/-- `insert_coefficient` returns nothing, so it can only panic. -/
def NoErr (B : Backend F β ι) : Prop := ∀ b v c y e, B.insertCoeff b v c y ≠ .error (.err e)

omit [Field F] in
theorem NoErr.fold {B : Backend F β ι} (h : NoErr B) (y : ι) (ts : List (Var × Coeff F)) :
    ∀ b e, ts.foldlM (fun b t => B.insertCoeff b t.1 t.2 y) b ≠ .error (.err e) := by
  induction ts with
  | nil => intro b e h; cases h
  | cons t ts ih =>
    intro b e he
    rw [List.foldlM_cons] at he
    cases hi : B.insertCoeff b t.1 t.2 y with
    | error x =>
      rw [hi, Except.bind_error] at he
      cases he
      exact h _ _ _ _ _ hi
    | ok b' =>
      rw [hi, Except.bind_ok] at he
      exact ih _ _ he

theorem outcome_alloc (B : Backend F β ι) (d : Driver β) (v : Except SynthesisError F) :
    outcome (Keep.alloc B v d) = Basic.alloc B d v := by
  unfold Keep.alloc Basic.alloc
  cases hc : d.cur with
  | none =>
    simp only [andThen, Keep.modify, Keep.backend]
    rcases B.setVar (B.newGate d.backend false) true (.A (d.n + 1)) v with (_ | _) | ⟨b, c⟩ <;> rfl
  | some i =>
    simp only [andThen, Keep.modify, Keep.backend]
    rcases B.getVar d.backend (.A i) with (_ | _) | va
    · rfl
    · rfl
    · simp only [Except.map, Except.bind_ok]
      rcases B.setVar d.backend true (.B i) (do let vb ← v; let _ ← orMissing va; .ok vb) with (_ | _) | ⟨b, c⟩
      · rfl
      · rfl
      · simp only [Except.bind_ok]
        generalize (if c = true then _ else _ : Option F) = pr
        rcases B.setVar b false (.C i) (orMissing pr) with (_ | _) | ⟨b, c⟩ <;> rfl

omit [Field F] in
theorem outcome_enforce {B : Backend F β ι} (hB : NoErr B) (d : Driver β) (lc : LC F) :
    outcome (Keep.enforceZero B lc d) = (Basic.enforceZero B d lc).map fun d => ((), d) := by
  unfold Keep.enforceZero Basic.enforceZero
  rcases hb : B.newLinear d.backend with ⟨b, y⟩
  simp only
  rcases hf : lc.terms.foldlM (fun b t => B.insertCoeff b t.1 t.2 y) b with (_ | _) | b'
  · exact (hB.fold _ _ _ _ hf).elim
  · simp only [hf]; rfl
  · simp only [hf]; rfl

/-- What an outcome says about the call -/
theorem outcome_ok {α : Type} {x : Option (Except SynthesisError α × Driver β)} {a : α} {d : Driver β} :
    outcome x = .ok (a, d) ↔ x = some (.ok a, d) := by
  rcases x with _ | ⟨_ | _, _⟩ <;> simp [outcome]
theorem outcome_panic {α : Type} {x : Option (Except SynthesisError α × Driver β)} :
    outcome x = .error .panic ↔ x = none := by
  rcases x with _ | ⟨_ | _, _⟩ <;> simp [outcome]

theorem outcome_andThen {α γ : Type} (m : Keep β α) (f : α → Keep β γ) (d : Driver β) :
    outcome (m.andThen f d) = (outcome (m d) >>= fun x => outcome (f x.1 x.2)) := by
  unfold andThen
  rcases m d with _ | ⟨_ | _, _⟩ <;> rfl

theorem outcome_allocInput {B : Backend F β ι} (hB : NoErr B) (d : Driver β)
    (v : Except SynthesisError F) :
    outcome (Keep.allocInput B v d) = Basic.allocInput B d v := by
  unfold Keep.allocInput Basic.allocInput
  rw [outcome_andThen, outcome_alloc]
  rcases Basic.alloc B d v with e | ⟨⟨x, o⟩, d1⟩
  · rfl
  · simp only [Except.bind_ok]
    rw [outcome_andThen, outcome_enforce hB]
    rcases Basic.enforceZero B d1 (LC.zero.addVar x) with e | d2
    · rfl
    · simp only [Except.bind_ok, Except.map, andThen, Keep.backend]
      rcases B.newK d2.backend d2.q v.toOption with (_ | _) | b <;> rfl

omit [Field F] in
theorem outcome_multiply (B : Backend F β ι) (d : Driver β) (v : Except SynthesisError (F × F × F)) :
    outcome (Keep.multiply B v d) = Basic.multiply B d v := by
  unfold Keep.multiply Basic.multiply
  simp only [andThen, Keep.modify, Keep.backend]
  rcases h1 : B.setVar (B.newGate d.backend true) false (.A (d.n + 1)) (v.map fun v => v.1) with (_ | _) | ⟨b, c⟩
  · simp only [h1]; rfl
  · simp only [h1]; rfl
  · simp only [h1, Except.bind_ok]
    generalize (if c = true then _ else _ : Option (F × F × F)) = vs
    rcases h2 : B.setVar b false (.B (d.n + 1)) (orMissing (vs.map fun v => v.2.1)) with (_ | _) | ⟨b, c⟩
    · simp only [h2]; rfl
    · simp only [h2]; rfl
    · simp only [h2, Except.bind_ok]
      rcases h3 : B.setVar b false (.C (d.n + 1)) (orMissing (vs.map fun v => v.2.2)) with (_ | _) | ⟨b, c⟩ <;>
        simp only [h3] <;> rfl

/-- Programs that use `?` -/
theorem run_lift {B : Backend F β ι} (hB : NoErr B) {α : Type} (p : Prog F α) :
    ∀ d, outcome (Keep.run B p.lift d) = Basic.run B p d := by
  induction p with
  | pure a => intro d; rfl
  | throw e => intro d; rfl
  | panic => intro d; rfl
  | alloc v k ih =>
    intro d
    simp only [Prog.lift, Keep.run, Basic.run, ← outcome_alloc]
    rcases Keep.alloc B v d with _ | ⟨_ | ⟨x, o⟩, d'⟩
    · rfl
    · rfl
    · exact ih _ _ _
  | allocInput v k ih =>
    intro d
    simp only [Prog.lift, Keep.run, Basic.run, ← outcome_allocInput hB]
    rcases Keep.allocInput B v d with _ | ⟨_ | ⟨x, o⟩, d'⟩
    · rfl
    · rfl
    · exact ih _ _ _
  | enforceZero lc k ih =>
    intro d
    have he := outcome_enforce hB d lc
    simp only [Prog.lift, Keep.run, Basic.run]
    rcases hk : Keep.enforceZero B lc d with _ | ⟨_ | _, d'⟩ <;>
      rcases hb : Basic.enforceZero B d lc with _ | d'' <;> rw [hk, hb] at he <;>
      simp [outcome, Except.map] at he
    · subst he; rfl
    · subst he
      simp only [Keep.enforceZero] at hk
      split at hk <;> simp at hk
    · subst he; exact ih _
  | multiply v k ih =>
    intro d
    simp only [Prog.lift, Keep.run, Basic.run, ← outcome_multiply]
    rcases Keep.multiply B v d with _ | ⟨_ | ⟨a, b, c, o⟩, d'⟩
    · rfl
    · rfl
    · exact ih _ _ _ _ _

/-- The synthesis of a circuit, from that of the constant one -/
theorem synthesize_eq {B : Backend F β ι} (hB : NoErr B) {α : Type} (b : β)
    (circuit : Var → RProg F α) :
    Keep.synthesize B b circuit =
      match Basic.allocInput B ⟨b, none, 0, 0⟩ (.ok 1) with
      | .error _ => none
      | .ok ((one, _), d) => if one = .A 1 then Keep.run B (circuit Basic.ONE) d else none := by
  unfold Keep.synthesize
  rw [← outcome_allocInput hB]
  rcases Keep.allocInput B (.ok 1) ⟨b, none, 0, 0⟩ with _ | ⟨_ | ⟨x, o⟩, d'⟩ <;> rfl

theorem synthesize_lift {B : Backend F β ι} (hB : NoErr B) {α : Type} (b : β)
    (circuit : Var → Prog F α) :
    outcome (Keep.synthesize B b fun one => (circuit one).lift) = Basic.synthesize B b circuit := by
  rw [synthesize_eq hB, Basic.synthesize]
  rcases Basic.allocInput B ⟨b, none, 0, 0⟩ (.ok 1) with _ | ⟨⟨one, o⟩, d⟩
  · rfl
  · simp only
    split
    · exact run_lift hB _ _
    · rfl

/-- Tracing does not change a run. -/
theorem run_tracedR (B : Backend F β ι) {α : Type} (p : RProg F α) :
    ∀ log d, Keep.run B p d = (Keep.run B (p.traced log) d).map fun x => (x.1.map Prod.fst, x.2) := by
  induction p with
  | pure a => intro log d; rfl
  | throw e => intro log d; rfl
  | panic => intro log d; rfl
  | alloc v k ih =>
    intro log d
    simp only [RProg.traced, Keep.run]
    rcases Keep.alloc B v d with _ | ⟨r, d'⟩
    · rfl
    · exact ih _ _ _
  | allocInput v k ih =>
    intro log d
    simp only [RProg.traced, Keep.run]
    rcases Keep.allocInput B v d with _ | ⟨r, d'⟩
    · rfl
    · exact ih _ _ _
  | enforceZero lc k ih =>
    intro log d
    simp only [RProg.traced, Keep.run]
    rcases Keep.enforceZero B lc d with _ | ⟨r, d'⟩
    · rfl
    · exact ih _ _
  | multiply v k ih =>
    intro log d
    simp only [RProg.traced, Keep.run]
    rcases Keep.multiply B v d with _ | ⟨r, d'⟩
    · rfl
    · exact ih _ _ _

/-- The log grows. -/
theorem traced_outcomes (B : Backend F β ι) {α : Type} (p : RProg F α) :
    ∀ {log d a log' d'}, Keep.run B (p.traced log) d = some (.ok (a, log'), d') →
      ∀ o ∈ log.outcomes, o ∈ log'.outcomes := by
  induction p with
  | pure a =>
    intro log d a log' d' h o ho
    simp only [RProg.traced, Keep.run, Option.some.injEq, Prod.mk.injEq, Except.ok.injEq] at h
    rw [← h.1.2]; exact ho
  | throw e => intro log d a log' d' h; simp [RProg.traced, Keep.run] at h
  | panic => intro log d a log' d' h; simp [RProg.traced, Keep.run] at h
  | alloc v k ih =>
    intro log d a log' d' h o ho
    simp only [RProg.traced, Keep.run] at h
    split at h
    · cases h
    · exact ih _ h o (by simp [ho])
  | allocInput v k ih =>
    intro log d a log' d' h o ho
    simp only [RProg.traced, Keep.run] at h
    split at h
    · cases h
    · exact ih _ h o (by simp [ho])
  | enforceZero lc k ih =>
    intro log d a log' d' h o ho
    simp only [RProg.traced, Keep.run] at h
    split at h
    · cases h
    · exact ih h o ho
  | multiply v k ih =>
    intro log d a log' d' h o ho
    simp only [RProg.traced, Keep.run] at h
    split at h
    · cases h
    · exact ih _ h o (by simp [ho])

/-- If no call fails, the program might as well use `?`. -/
theorem run_strict {B : Backend F β ι} (hB : NoErr B) {α : Type} (p : RProg F α) :
    ∀ {log d a log' d'}, Keep.run B (p.traced log) d = some (.ok (a, log'), d') →
      (∀ o ∈ log'.outcomes, o.2 = none) → Basic.run B p.strict d = .ok (a, d') := by
  induction p with
  | pure a =>
    intro log d a log' d' h _
    simp only [RProg.traced, Keep.run, Option.some.injEq, Prod.mk.injEq, Except.ok.injEq] at h
    rw [← h.1.1, ← h.2]; rfl
  | throw e => intro log d a log' d' h; simp [RProg.traced, Keep.run] at h
  | panic => intro log d a log' d' h; simp [RProg.traced, Keep.run] at h
  | alloc v k ih =>
    intro log d a log' d' h hn
    simp only [RProg.traced, Keep.run] at h
    rcases hk : Keep.alloc B v d with _ | ⟨r, d1⟩
    · simp [hk] at h
    · simp only [hk] at h
      have := hn _ (traced_outcomes B _ h (RProg.error v, RProg.error r) (by simp))
      rcases r with e | ⟨x, o⟩
      · simp [RProg.error] at this
      · simp only [RProg.strict, Basic.run, ← outcome_alloc, hk, outcome, Except.bind_ok]
        exact ih _ h hn
  | allocInput v k ih =>
    intro log d a log' d' h hn
    simp only [RProg.traced, Keep.run] at h
    rcases hk : Keep.allocInput B v d with _ | ⟨r, d1⟩
    · simp [hk] at h
    · simp only [hk] at h
      have := hn _ (traced_outcomes B _ h (RProg.error v, RProg.error r) (by simp))
      rcases r with e | ⟨x, o⟩
      · simp [RProg.error] at this
      · simp only [RProg.strict, Basic.run, ← outcome_allocInput hB, hk, outcome, Except.bind_ok]
        exact ih _ h hn
  | enforceZero lc k ih =>
    intro log d a log' d' h hn
    simp only [RProg.traced, Keep.run] at h
    have he := outcome_enforce hB d lc
    rcases hk : Keep.enforceZero B lc d with _ | ⟨r, d1⟩
    · simp [hk] at h
    · simp only [hk] at h he
      rcases r with _ | _
      · simp only [Keep.enforceZero] at hk
        split at hk <;> simp at hk
      · rcases hb : Basic.enforceZero B d lc with _ | d''
        · simp [hb, outcome, Except.map] at he
        · simp only [hb, outcome, Except.map, Except.ok.injEq, Prod.mk.injEq, true_and] at he
          simp only [RProg.strict, Basic.run, hb, Except.bind_ok, ← he]
          exact ih h hn
  | multiply v k ih =>
    intro log d a log' d' h hn
    simp only [RProg.traced, Keep.run] at h
    rcases hk : Keep.multiply B v d with _ | ⟨r, d1⟩
    · simp [hk] at h
    · simp only [hk] at h
      have := hn _ (traced_outcomes B _ h (RProg.error v, RProg.error r) (by simp))
      rcases r with e | ⟨a', b', c', o⟩
      · simp [RProg.error] at this
      · simp only [RProg.strict, Basic.run, ← outcome_multiply, hk, outcome, Except.bind_ok]
        exact ih _ h hn

/-- A failed call leaves what zeros would leave. -/
structure KeepSim (B : Backend F β ι) (R : System F → Driver β → Prop) : Prop where
  noErr : NoErr B
  half : ∀ {s d}, R s d → d.cur = s.half
  alloc_some : ∀ {s d i} (e : SynthesisError), R s d → s.half = some i →
    ∃ x d', Keep.alloc B (.error e) d = some (.error e, d') ∧ Basic.alloc B d (.ok 0) = .ok (x, d')
  alloc_none : ∀ {s d} (e : SynthesisError), R s d → s.half = none →
    ∃ x y d' d'', Keep.alloc B (.error e) d = some (.error e, d'') ∧
      Basic.alloc B d (.ok 0) = .ok (x, d') ∧ Basic.alloc B d' (.ok 0) = .ok (y, d'')
  multiply : ∀ {s d} (e : SynthesisError), R s d →
    ∃ x d', Keep.multiply B (.error e) d = some (.error e, d') ∧
      Basic.multiply B d (.ok (0, 0, 0)) = .ok (x, d')

theorem fresh_half (s : System F) (v : F) : (s.fresh v).2.half.isSome = !s.half.isSome := by
  unfold System.fresh
  cases s.half <;> rfl

theorem allocInput_err {B : Backend F β ι} {d d' : Driver β} {e e' : SynthesisError}
    (h : Keep.alloc B (.error e) d = some (.error e', d')) :
    Keep.allocInput B (.error e) d = some (.error e', d') := by
  simp [Keep.allocInput, andThen, h]

theorem KeepSim.run {B : Backend F β ι} {R : System F → Driver β → Prop} (hk : KeepSim B R)
    (hs : Sim true B R (fun _ => True)) {α : Type} (p : RProg F α) :
    ∀ {s d}, R s d → Basic.run B (p.zeros s.half.isSome) d = orPanic (Keep.run B p d) := by
  have h1 : ∀ {s d i} (e : SynthesisError), R s d → s.half = some i →
      ∃ x d', Keep.alloc B (.error e) d = some (.error e, d') ∧
        Basic.alloc B d (.ok 0) = .ok (x, d') ∧ R (s.fresh 0).2 d' ∧ (s.fresh 0).2.half = none := by
    intro s d i e hR hh
    obtain ⟨x, d', h1, h2⟩ := hk.alloc_some e hR hh
    obtain ⟨d'', h3, h4⟩ := hs.alloc_ok rfl 0 hR
    rw [h2] at h3
    simp only [Except.ok.injEq, Prod.mk.injEq] at h3
    refine ⟨x, d', h1, h2, h3.2 ▸ h4, by simp [System.fresh, hh]⟩
  have h2 : ∀ {s d} (e : SynthesisError), R s d → s.half = none →
      ∃ x y d' d'', Keep.alloc B (.error e) d = some (.error e, d'') ∧
        Basic.alloc B d (.ok 0) = .ok (x, d') ∧ Basic.alloc B d' (.ok 0) = .ok (y, d'') ∧
        ∃ s', R s' d'' ∧ s'.half = none := by
    intro s d e hR hh
    obtain ⟨x, y, d', d'', h1, h2, h3⟩ := hk.alloc_none e hR hh
    obtain ⟨d1, h4, h5⟩ := hs.alloc_ok rfl 0 hR
    rw [h2] at h4
    simp only [Except.ok.injEq, Prod.mk.injEq] at h4
    rw [← h4.2] at h5
    obtain ⟨d2, h6, h7⟩ := hs.alloc_ok rfl 0 h5
    rw [h3] at h6
    simp only [Except.ok.injEq, Prod.mk.injEq] at h6
    rw [← h6.2] at h7
    exact ⟨x, y, d', d'', h1, h2, h3, _, h7, by simp [System.fresh, hh]⟩
  induction p with
  | pure a => intro s d _; rfl
  | throw e => intro s d _; rfl
  | panic => intro s d _; rfl
  | alloc v k ih =>
    intro s d hR
    cases v with
    | ok v =>
      obtain ⟨d', e1, e2⟩ := hs.alloc_ok rfl v hR
      have e3 := e1
      rw [← outcome_alloc, outcome_ok] at e3
      simp only [RProg.zeros, Basic.run, Keep.run, e1, e3, Except.bind_ok, ← fresh_half s v]
      exact ih _ e2
    | error e =>
      cases hh : s.half with
      | some i =>
        obtain ⟨x, d', e1, e2, e3, e4⟩ := h1 e hR hh
        simp only [Option.isSome, RProg.zeros, Basic.run, Keep.run, e1, e2, Except.bind_ok]
        have := ih (.error e) e3
        rw [e4] at this
        exact this
      | none =>
        obtain ⟨x, y, d', d'', e1, e2, e3, s', e4, e5⟩ := h2 e hR hh
        simp only [Option.isSome, RProg.zeros, Basic.run, Keep.run, e1, e2, e3, Except.bind_ok]
        have := ih (.error e) e4
        rw [e5] at this
        exact this
  | allocInput v k ih =>
    intro s d hR
    cases v with
    | ok v =>
      obtain ⟨d', e1, e2⟩ := hs.alloc_ok rfl v hR
      rcases hs.allocInput (.ok v) e1 e2 (by simp [Except.toOption]) with ⟨d2, e3, e4⟩ | ⟨-, h⟩
      · have e5 := e3
        rw [← outcome_allocInput hk.noErr, outcome_ok] at e5
        simp only [RProg.zeros, Basic.run, Keep.run, e3, e5, Except.bind_ok, ← fresh_half s v]
        exact @ih _ ((s.fresh v).2.expose (s.fresh v).1 (some v)) _ e4
      · exact (h trivial).elim
    | error e =>
      cases hh : s.half with
      | some i =>
        obtain ⟨x, d', e1, e2, e3, e4⟩ := h1 e hR hh
        simp only [Option.isSome, RProg.zeros, Basic.run, Keep.run, allocInput_err e1, e2,
          Except.bind_ok]
        have := ih (.error e) e3
        rw [e4] at this
        exact this
      | none =>
        obtain ⟨x, y, d', d'', e1, e2, e3, s', e4, e5⟩ := h2 e hR hh
        simp only [Option.isSome, RProg.zeros, Basic.run, Keep.run, allocInput_err e1, e2, e3,
          Except.bind_ok]
        have := ih (.error e) e4
        rw [e5] at this
        exact this
  | enforceZero lc k ih =>
    intro s d hR
    rcases hs.enforce lc hR with ⟨d', e1, e2⟩ | ⟨-, h⟩
    · have e3 := outcome_enforce hk.noErr d lc
      rw [e1, Except.map, outcome_ok] at e3
      simp only [RProg.zeros, Basic.run, Keep.run, e1, e3, Except.bind_ok]
      exact @ih (s.constrain lc) _ e2
    · exact (h trivial).elim
  | multiply v k ih =>
    intro s d hR
    cases v with
    | ok v =>
      obtain ⟨d', e1, e2⟩ := hs.mul_ok rfl v hR
      have e3 := e1
      rw [← outcome_multiply, outcome_ok] at e3
      simp only [RProg.zeros, Basic.run, Keep.run, e1, e3, Except.bind_ok]
      exact @ih _ (s.gate v) _ e2
    | error e =>
      obtain ⟨x, d', e1, e2⟩ := hk.multiply e hR
      obtain ⟨d'', e3, e4⟩ := hs.mul_ok rfl (0, 0, 0) hR
      have e5 := e2.symm.trans e3
      simp only [Except.ok.injEq, Prod.mk.injEq] at e5
      simp only [RProg.zeros, Basic.run, Keep.run, e1, e3, Except.bind_ok, e5.2]
      exact @ih (.error e) (s.gate (0, 0, 0)) _ e4

theorem KeepSim.synthesize {B : Backend F β ι} {R : System F → Driver β → Prop} (hk : KeepSim B R)
    (hs : Sim true B R (fun _ => True)) {α : Type} (circuit : Var → RProg F α) {b : β}
    (hR : R System.empty ⟨b, none, 0, 0⟩) :
    Basic.synthesize B b (fun one => (circuit one).zeros true) = orPanic (Keep.synthesize B b circuit) := by
  rw [synthesize_eq hk.noErr, Basic.synthesize]
  obtain ⟨d', e1, e2⟩ := hs.alloc_ok rfl 1 hR
  rcases hs.allocInput (.ok 1) e1 e2 (by simp [Except.toOption]) with ⟨d2, e3, e4⟩ | ⟨-, h⟩
  · rw [e3]
    exact hk.run hs _ e4
  · exact (h trivial).elim

theorem noErr_prover : NoErr (proverBackend (F := F)) := by
  intro b v c y e h; simp [proverBackend] at h
theorem noErr_sat : NoErr (satBackend (F := F)) := by
  intro b v c y e h
  simp only [satBackend] at h
  split at h <;> simp at h
omit [Field F] in
theorem noErr_inputMap : NoErr (inputMapBackend (F := F)) := by
  intro b v c y e h; simp [inputMapBackend] at h
theorem noErr_sx : NoErr (sxBackend (F := F)) := by
  intro b v c y e h
  simp only [sxBackend] at h
  split at h <;> split at h <;> simp at h
theorem noErr_sy : NoErr (syBackend (F := F)) := by
  intro b v c y e h
  simp only [syBackend] at h
  split at h
  · simp at h
  · split at h <;> simp at h

omit [Field F] in
theorem update_zero {w : Var → F} {v : Var} {x : F} (h : w v = x) : Function.update w v x = w := by
  rw [← h]; exact Function.update_eq_self v w

theorem keepSim_prover : KeepSim (proverBackend (F := F)) ProverRel where
  noErr := noErr_prover
  half h := h.cur
  alloc_some := by
    intro s d i e h hh
    obtain ⟨h1, h2, h3, h4⟩ := h.inv.half i hh
    have e1 := get_wiresOf (w := s.w) (n := s.gates) (var := .A i) h1 h2
    have e2 := set_wiresOf (w := s.w) (n := s.gates) (var := .B i) 0 h1 h2
    have e3 := set_wiresOf (w := s.w) (n := s.gates) (var := .C i) 0 h1 h2
    rw [update_zero h3] at e2
    rw [update_zero h4] at e3
    unfold Keep.alloc Basic.alloc
    rw [h.cur, hh]
    simp only [proverBackend, andThen, Keep.modify, Keep.backend, h.wires, e1, e2, e3, Except.map, Except.bind_ok, Except.bind_error,
      orMissing, if_true, mul_zero, Except.toOption]
    exact ⟨_, _, rfl, by rw [← h.wires]⟩
  alloc_none := by
    intro s d e h hh
    have e1 := push_wiresOf h.inv.unused
    have e2 := set_wiresOf (w := s.w) (n := s.gates + 1) (var := .A (s.gates + 1)) 0
      (Nat.succ_pos _) (le_refl _)
    have e3 := set_wiresOf (w := s.w) (n := s.gates + 1) (var := .B (s.gates + 1)) 0
      (Nat.succ_pos _) (le_refl _)
    have e4 := set_wiresOf (w := s.w) (n := s.gates + 1) (var := .C (s.gates + 1)) 0
      (Nat.succ_pos _) (le_refl _)
    have e5 := get_wiresOf (w := s.w) (n := s.gates + 1) (var := .A (s.gates + 1))
      (Nat.succ_pos _) (le_refl _)
    rw [update_zero (h.inv.unused _ (Nat.lt_succ_self _))] at e2 e3 e4
    unfold Keep.alloc Basic.alloc
    rw [h.cur, hh]
    simp only [proverBackend, andThen, Keep.modify, Keep.backend, h.wires, h.n, e1, e2, Except.bind_ok,
      orMissing, if_true, Except.toOption]
    refine ⟨_, (.B (s.gates + 1), some 0), _, _, rfl, rfl, ?_⟩
    simp only [e3, e4, e5, mul_zero, Except.bind_ok, if_true, h.cur, hh]
  multiply := by
    intro s d e h
    have e1 := push_wiresOf h.inv.unused
    have e2 := set_wiresOf (w := s.w) (n := s.gates + 1) (var := .A (s.gates + 1)) 0
      (Nat.succ_pos _) (le_refl _)
    have e3 := set_wiresOf (w := s.w) (n := s.gates + 1) (var := .B (s.gates + 1)) 0
      (Nat.succ_pos _) (le_refl _)
    have e4 := set_wiresOf (w := s.w) (n := s.gates + 1) (var := .C (s.gates + 1)) 0
      (Nat.succ_pos _) (le_refl _)
    rw [update_zero (h.inv.unused _ (Nat.lt_succ_self _))] at e2 e3 e4
    unfold Keep.multiply Basic.multiply
    simp only [proverBackend, andThen, Keep.modify, Keep.backend, h.wires, h.n, e1, e2, e3, e4, Except.map,
      Except.bind_ok, orMissing, if_true, Except.toOption, Option.map_some]
    exact ⟨_, _, rfl, rfl⟩

theorem keepSim_sat : KeepSim (satBackend (F := F)) SatRel where
  noErr := noErr_sat
  half h := h.cur
  alloc_some := by
    intro s d i e h hh
    obtain ⟨h1, h2, h3, h4⟩ := h.inv.half i hh
    have e1 := get_wiresOf (w := s.w) (n := s.gates) (var := .A i) h1 h2
    have e2 := set_wiresOf (w := s.w) (n := s.gates) (var := .B i) 0 h1 h2
    have e3 := set_wiresOf (w := s.w) (n := s.gates) (var := .C i) 0 h1 h2
    rw [update_zero h3] at e2
    rw [update_zero h4] at e3
    unfold Keep.alloc Basic.alloc
    rw [h.cur, hh]
    simp only [satBackend, andThen, Keep.modify, Keep.backend, h.wires, e1, e2, e3, Except.map, Except.bind_ok, Except.bind_error,
      orMissing, if_true, mul_zero, Except.toOption, h.half i hh, Bool.false_eq_true, if_false]
    exact ⟨_, _, rfl, by rw [← h.wires]⟩
  alloc_none := by
    intro s d e h hh
    have e1 := push_wiresOf h.inv.unused
    have e2 := set_wiresOf (w := s.w) (n := s.gates + 1) (var := .A (s.gates + 1)) 0
      (Nat.succ_pos _) (le_refl _)
    have e3 := set_wiresOf (w := s.w) (n := s.gates + 1) (var := .B (s.gates + 1)) 0
      (Nat.succ_pos _) (le_refl _)
    have e4 := set_wiresOf (w := s.w) (n := s.gates + 1) (var := .C (s.gates + 1)) 0
      (Nat.succ_pos _) (le_refl _)
    have e5 := get_wiresOf (w := s.w) (n := s.gates + 1) (var := .A (s.gates + 1))
      (Nat.succ_pos _) (le_refl _)
    have e6 : at1 (d.backend.mults ++ [false]) (s.gates + 1) = some false := by
      simp [at1, ← h.mults]
    rw [update_zero (h.inv.unused _ (Nat.lt_succ_self _))] at e2 e3 e4
    unfold Keep.alloc Basic.alloc
    rw [h.cur, hh]
    simp only [satBackend, andThen, Keep.modify, Keep.backend, h.wires, h.n, e1, e2, e6, Except.bind_ok,
      orMissing, if_true, Except.toOption]
    refine ⟨_, (.B (s.gates + 1), some 0), _, _, rfl, rfl, ?_⟩
    simp only [e3, e4, e5, e6, mul_zero, Except.bind_ok, Bool.false_eq_true, if_false, if_true, h.cur, hh]
  multiply := by
    intro s d e h
    have e1 := push_wiresOf h.inv.unused
    have e2 := set_wiresOf (w := s.w) (n := s.gates + 1) (var := .A (s.gates + 1)) 0
      (Nat.succ_pos _) (le_refl _)
    have e3 := set_wiresOf (w := s.w) (n := s.gates + 1) (var := .B (s.gates + 1)) 0
      (Nat.succ_pos _) (le_refl _)
    have e4 := set_wiresOf (w := s.w) (n := s.gates + 1) (var := .C (s.gates + 1)) 0
      (Nat.succ_pos _) (le_refl _)
    rw [update_zero (h.inv.unused _ (Nat.lt_succ_self _))] at e2 e3 e4
    unfold Keep.multiply Basic.multiply
    simp only [satBackend, andThen, Keep.modify, Keep.backend, h.wires, h.n, e1, e2, e3, e4, Except.map,
      Except.bind_ok, orMissing, if_true, Except.toOption, Option.map_some, Bool.false_eq_true, if_false]
    exact ⟨_, _, rfl, rfl⟩

/-- On a backend that asks for no values no call fails. -/
theorem Silent.run {B : Backend F β ι} (hB : NoErr B) (hS : Silent B)
    (hK : ∀ b q v e, B.newK b q v ≠ .error (.err e)) {α : Type} (p : RProg F α) :
    ∀ d, outcome (Keep.run B p d) = Basic.run B p.strict d := by
  induction p with
  | pure a => intro d; rfl
  | throw e => intro d; rfl
  | panic => intro d; rfl
  | alloc v k ih =>
    intro d
    have h := outcome_alloc B d v
    rw [hS.alloc] at h
    simp only [RProg.strict, Keep.run, Basic.run, hS.alloc]
    cases hc : d.cur with
    | none =>
      rw [hc, outcome_ok] at h
      rw [h]
      exact ih _ _
    | some i =>
      rw [hc, outcome_ok] at h
      rw [h]
      exact ih _ _
  | allocInput v k ih =>
    intro d
    have h := outcome_allocInput hB d v
    simp only [RProg.strict, Keep.run, Basic.run, ← h]
    rcases hk : Keep.allocInput B v d with _ | ⟨_ | ⟨x, o⟩, d'⟩
    · rfl
    · exfalso
      rename_i e
      have h1 := outcome_alloc B d v
      have h2 : ∃ x d1, Keep.alloc B v d = some (.ok x, d1) := by
        rw [hS.alloc] at h1
        cases hc : d.cur <;> rw [hc, outcome_ok] at h1 <;> exact ⟨_, _, h1⟩
      obtain ⟨x, d1, h2⟩ := h2
      simp only [Keep.allocInput, andThen, h2] at hk
      rcases he : Keep.enforceZero B (LC.zero.addVar x.1) d1 with _ | ⟨_ | _, d2⟩
      · simp [he] at hk
      · simp only [Keep.enforceZero] at he
        split at he <;> simp at he
      · simp only [he, Keep.backend] at hk
        rcases hn : B.newK d2.backend d2.q v.toOption with (x | _) | b
        · exact hK _ _ _ _ hn
        · simp [hn, Except.map] at hk
        · simp [hn, Except.map, done] at hk
    · exact ih _ _
  | enforceZero lc k ih =>
    intro d
    have he := outcome_enforce hB d lc
    simp only [RProg.strict, Keep.run, Basic.run]
    rcases hk : Keep.enforceZero B lc d with _ | ⟨_ | _, d'⟩ <;>
      rcases hb : Basic.enforceZero B d lc with _ | d'' <;> rw [hk, hb] at he <;>
      simp [outcome, Except.map] at he
    · subst he; rfl
    · subst he
      simp only [Keep.enforceZero] at hk
      split at hk <;> simp at hk
    · subst he; exact ih _
  | multiply v k ih =>
    intro d
    have h := outcome_multiply B d v
    rw [hS.multiply, outcome_ok] at h
    simp only [RProg.strict, Keep.run, Basic.run, hS.multiply, h]
    exact ih _ _

theorem Silent.synthesize {B : Backend F β ι} (hB : NoErr B) (hS : Silent B)
    (hK : ∀ b q v e, B.newK b q v ≠ .error (.err e)) {α : Type} (b : β) (circuit : Var → RProg F α) :
    outcome (Keep.synthesize B b circuit) = Basic.synthesize B b fun one => (circuit one).strict := by
  rw [synthesize_eq hB, Basic.synthesize]
  rcases Basic.allocInput B ⟨b, none, 0, 0⟩ (.ok 1) with _ | ⟨⟨one, o⟩, d⟩
  · rfl
  · simp only
    split
    · exact hS.run hB hK _ _
    · rfl

/-- Every result of the program has the property, whatever it is given. -/
def Prog.Leaves {α : Type} (P : α → Prop) : Prog F α → Prop
  | .pure a => P a
  | .throw _ => True
  | .panic => True
  | .alloc _ k => ∀ x o, (k x o).Leaves P
  | .allocInput _ k => ∀ x o, (k x o).Leaves P
  | .enforceZero _ k => k.Leaves P
  | .multiply v k => ∀ a b c o, o = none ∨ o = v.toOption → (k a b c o).Leaves P

omit [Field F] in
theorem Prog.Leaves.mono {α : Type} {P Q : α → Prop} (h : ∀ a, P a → Q a) (p : Prog F α) :
    p.Leaves P → p.Leaves Q := by
  induction p with
  | pure a => exact h a
  | throw e => exact id
  | panic => exact id
  | alloc v k ih => exact fun hl x o => ih x o (hl x o)
  | allocInput v k ih => exact fun hl x o => ih x o (hl x o)
  | enforceZero lc k ih => exact ih
  | multiply v k ih => exact fun hl a b c o ho => ih a b c o (hl a b c o ho)

omit [Field F] in
theorem Prog.leaves_map {α γ : Type} {P : γ → Prop} (f : α → γ) (p : Prog F α) :
    (p.map f).Leaves P ↔ p.Leaves fun a => P (f a) := by
  induction p with
  | pure a => exact Iff.rfl
  | throw e => exact Iff.rfl
  | panic => exact Iff.rfl
  | alloc v k ih => simp only [Prog.map, Prog.Leaves, ih]
  | allocInput v k ih => simp only [Prog.map, Prog.Leaves, ih]
  | enforceZero lc k ih => exact ih
  | multiply v k ih => simp only [Prog.map, Prog.Leaves, ih]

omit [Field F] in
theorem multiply_values {B : Backend F β ι} {d d' : Driver β} {v : Except SynthesisError (F × F × F)}
    {a b c : Var} {o : Option (F × F × F)} (h : Basic.multiply B d v = .ok ((a, b, c, o), d')) :
    o = none ∨ o = v.toOption := by
  unfold Basic.multiply at h
  rcases h1 : B.setVar (B.newGate d.backend true) false (.A (d.n + 1)) (v.map fun v => v.1) with _ | ⟨b1, c1⟩
  · simp [h1, Except.bind_error] at h
  simp only [h1, Except.bind_ok] at h
  rcases h2 : B.setVar b1 false (.B (d.n + 1)) (orMissing ((if c1 = true then v.toOption else none).map fun v => v.2.1)) with _ | ⟨b2, c2⟩
  · simp [h2, Except.bind_error] at h
  simp only [h2, Except.bind_ok] at h
  rcases h3 : B.setVar b2 false (.C (d.n + 1)) (orMissing ((if c1 = true then v.toOption else none).map fun v => v.2.2)) with _ | ⟨b3, c3⟩
  · simp [h3, Except.bind_error] at h
  simp only [h3, Except.bind_ok, Except.ok.injEq, Prod.mk.injEq] at h
  rw [← h.1.2.2.2]
  split
  · exact .inr rfl
  · exact .inl rfl

theorem Prog.Leaves.run {α : Type} {P : α → Prop} (B : Backend F β ι) (p : Prog F α) :
    ∀ {d a d'}, p.Leaves P → Basic.run B p d = .ok (a, d') → P a := by
  induction p with
  | pure a =>
    intro d a d' hl h
    simp only [Basic.run, Except.ok.injEq, Prod.mk.injEq] at h
    exact h.1 ▸ hl
  | throw e => intro d a d' _ h; simp [Basic.run] at h
  | panic => intro d a d' _ h; simp [Basic.run] at h
  | alloc v k ih =>
    intro d a d' hl h
    simp only [Basic.run] at h
    rcases hx : Basic.alloc B d v with _ | ⟨⟨x, o⟩, d1⟩
    · simp [hx, Except.bind_error] at h
    · rw [hx] at h
      exact ih _ _ (hl _ _) h
  | allocInput v k ih =>
    intro d a d' hl h
    simp only [Basic.run] at h
    rcases hx : Basic.allocInput B d v with _ | ⟨⟨x, o⟩, d1⟩
    · simp [hx, Except.bind_error] at h
    · rw [hx] at h
      exact ih _ _ (hl _ _) h
  | enforceZero lc k ih =>
    intro d a d' hl h
    simp only [Basic.run] at h
    rcases hx : Basic.enforceZero B d lc with _ | d1
    · simp [hx, Except.bind_error] at h
    · rw [hx] at h
      exact ih hl h
  | multiply v k ih =>
    intro d a d' hl h
    simp only [Basic.run] at h
    rcases hx : Basic.multiply B d v with _ | ⟨⟨x, y, z, o⟩, d1⟩
    · simp [hx, Except.bind_error] at h
    · rw [hx] at h
      exact ih _ _ _ _ (hl _ _ _ _ (multiply_values hx)) h

/-- How the log of a program is related to that of the program with zeros -/
def LogRel {α : Type} (acc : RProg.Log F) (r : Except SynthesisError (α × RProg.Log F) × Log F) : Prop :=
  ∀ a rlog, r.1 = .ok (a, rlog) → ∃ vs ps os, rlog = ⟨acc.vars ++ vs, acc.products ++ ps, acc.outcomes ++ os⟩ ∧
    vs.Sublist r.2.vars ∧ (∀ t ∈ r.2.products, t ∈ ps ∨ t = (0, 0, 0)) ∧ ∀ o ∈ os, o.1 = o.2

theorem zeros_traced {α : Type} (p : RProg F α) :
    ∀ half acc, (((p.traced acc).zeros half).traced).Leaves (LogRel acc) := by
  have skip : ∀ {acc acc' : RProg.Log F} {r : Except SynthesisError (α × RProg.Log F) × Log F}
      {vs : List (Var × Option F)} {vs' : List (Var × Option F)} {ps ps' : List (F × F × F)} {o : Option SynthesisError × Option SynthesisError},
      acc' = ⟨acc.vars ++ vs, acc.products ++ ps, acc.outcomes ++ [o]⟩ → o.1 = o.2 → vs.Sublist vs' →
      (∀ t ∈ ps', t ∈ ps ∨ t = (0, 0, 0)) →
      LogRel acc' r → LogRel acc (r.1, ⟨vs' ++ r.2.vars, ps' ++ r.2.products⟩) := by
    rintro acc _ r vs vs' ps ps' o rfl ho hv hp hr a rlog he
    obtain ⟨vs1, ps1, os1, rfl, h1, h2, h3⟩ := hr a rlog he
    refine ⟨vs ++ vs1, ps ++ ps1, o :: os1, by simp, hv.append h1, ?_, ?_⟩
    · intro t ht
      rcases List.mem_append.1 ht with ht | ht
      · exact (hp t ht).imp_left fun h => List.mem_append_left _ h
      · exact (h2 t ht).imp_left fun h => List.mem_append_right _ h
    · intro x hx
      rcases List.mem_cons.1 hx with rfl | hx
      · exact ho
      · exact h3 x hx
  induction p with
  | pure a =>
    intro half acc a' rlog h
    simp only [Except.ok.injEq, Prod.mk.injEq] at h
    exact ⟨[], [], [], by simp [← h.2], by simp, by simp, by simp⟩
  | throw e =>
    intro half acc a' rlog h
    cases h
  | panic => intro half acc; simp [RProg.traced, RProg.zeros, Prog.traced, Prog.Leaves]
  | alloc v k ih =>
    intro half acc
    cases v with
    | ok v =>
      cases half <;>
      · simp only [RProg.traced, RProg.zeros, Prog.traced, Prog.Leaves, Prog.leaves_map]
        intro x o
        exact (ih _ _ _).mono fun r hr => skip (vs := [(x, o)]) (vs' := [(x, o)]) (ps := []) (ps' := [])
          (o := (none, none)) (by simp [RProg.error, Except.toOption]) rfl (List.Sublist.refl _) (by simp) hr
    | error e =>
      cases half
      · simp only [RProg.traced, RProg.zeros, Prog.traced, Prog.Leaves, Prog.leaves_map]
        intro x o x' o'
        exact (ih _ _ _).mono fun r hr => skip (vs := []) (vs' := [(x, o), (x', o')]) (ps := []) (ps' := [])
          (o := (some e, some e)) (by simp [RProg.error, Except.toOption]) rfl (by simp) (by simp) hr
      · simp only [RProg.traced, RProg.zeros, Prog.traced, Prog.Leaves, Prog.leaves_map]
        intro x o
        exact (ih _ _ _).mono fun r hr => skip (vs := []) (vs' := [(x, o)]) (ps := []) (ps' := [])
          (o := (some e, some e)) (by simp [RProg.error, Except.toOption]) rfl (by simp) (by simp) hr
  | allocInput v k ih =>
    intro half acc
    cases v with
    | ok v =>
      cases half <;>
      · simp only [RProg.traced, RProg.zeros, Prog.traced, Prog.Leaves, Prog.leaves_map]
        intro x o
        exact (ih _ _ _).mono fun r hr => skip (vs := [(x, o)]) (vs' := [(x, o)]) (ps := []) (ps' := [])
          (o := (none, none)) (by simp [RProg.error, Except.toOption]) rfl (List.Sublist.refl _) (by simp) hr
    | error e =>
      cases half
      · simp only [RProg.traced, RProg.zeros, Prog.traced, Prog.Leaves, Prog.leaves_map]
        intro x o x' o'
        exact (ih _ _ _).mono fun r hr => skip (vs := []) (vs' := [(x, o), (x', o')]) (ps := []) (ps' := [])
          (o := (some e, some e)) (by simp [RProg.error, Except.toOption]) rfl (by simp) (by simp) hr
      · simp only [RProg.traced, RProg.zeros, Prog.traced, Prog.Leaves, Prog.leaves_map]
        intro x o
        exact (ih _ _ _).mono fun r hr => skip (vs := []) (vs' := [(x, o)]) (ps := []) (ps' := [])
          (o := (some e, some e)) (by simp [RProg.error, Except.toOption]) rfl (by simp) (by simp) hr
  | enforceZero lc k ih =>
    intro half acc
    cases half <;> exact ih _ _
  | multiply v k ih =>
    intro half acc
    cases v with
    | ok v =>
      cases half <;>
      · simp only [RProg.traced, RProg.zeros, Prog.traced, Prog.Leaves, Prog.leaves_map]
        intro a b c o _
        exact (ih _ _ _).mono fun r hr => skip
          (vs := [(a, o.map fun v => v.1), (b, o.map fun v => v.2.1), (c, o.map fun v => v.2.2)])
          (vs' := [(a, o.map fun v => v.1), (b, o.map fun v => v.2.1), (c, o.map fun v => v.2.2)])
          (ps := o.toList) (ps' := o.toList)
          (o := (none, none)) (by simp [RProg.error]) rfl (List.Sublist.refl _) (fun t h => .inl h) hr
    | error e =>
      cases half <;>
      · simp only [RProg.traced, RProg.zeros, Prog.traced, Prog.Leaves, Prog.leaves_map]
        intro a b c o ho
        refine (ih _ _ _).mono fun r hr => skip (vs := [])
          (vs' := [(a, o.map fun v => v.1), (b, o.map fun v => v.2.1), (c, o.map fun v => v.2.2)])
          (ps := []) (ps' := o.toList) (o := (some e, some e)) (by simp [RProg.error]) rfl (by simp) ?_ hr
        rcases ho with rfl | rfl <;> simp [Except.toOption]

theorem synthesize_tracedR {B : Backend F β ι} (hB : NoErr B) {α : Type} {circuit : Var → RProg F α}
    {b : β} {log log' : RProg.Log F} {a : α} {d : Driver β}
    (h : Keep.synthesize B b (fun one => (circuit one).traced log) = some (.ok (a, log'), d)) :
    Keep.synthesize B b circuit = some (.ok a, d) := by
  rw [synthesize_eq hB] at h ⊢
  rcases hx : Basic.allocInput B ⟨b, none, 0, 0⟩ (.ok 1) with _ | ⟨⟨one, o⟩, d1⟩
  · simp [hx] at h
  · simp only [hx] at h ⊢
    split at h
    · rename_i h1
      rw [if_pos h1, run_tracedR B _ log, h]
      rfl
    · cases h

theorem synthesize_to_traced {B : Backend F β ι} {α : Type} {circuit : Var → Prog F α} {b : β}
    {a : α} {d : Driver β} {P : α × Log F → Prop} (hl : ((circuit Basic.ONE).traced).Leaves P)
    (h : Basic.synthesize B b circuit = .ok (a, d)) :
    ∃ log, Basic.synthesize B b (fun one => (circuit one).traced) = .ok ((a, log), d) ∧ P (a, log) := by
  unfold Basic.synthesize at h ⊢
  rcases hx : Basic.allocInput B ⟨b, none, 0, 0⟩ (.ok 1) with _ | ⟨⟨one, o⟩, d1⟩
  · simp [hx] at h
  · simp only [hx] at h ⊢
    split at h
    · rename_i h1
      rw [← run_traced] at h
      rw [if_pos h1]
      rcases hr : Basic.run B (circuit Basic.ONE).traced d1 with _ | ⟨⟨a', log⟩, d2⟩
      · simp [hr, Except.map] at h
      · simp only [hr, Except.map, Except.ok.injEq, Prod.mk.injEq] at h
        obtain ⟨rfl, rfl⟩ := h
        exact ⟨log, rfl, Prog.Leaves.run B _ hl hr⟩
    · cases h

/-- No call has failed. -/
theorem synthesize_strict {B : Backend F β ι} (hB : NoErr B) {α : Type} {circuit : Var → RProg F α}
    {b : β} {log log' : RProg.Log F} {a : α} {d : Driver β}
    (h : Keep.synthesize B b (fun one => (circuit one).traced log) = some (.ok (a, log'), d))
    (hn : ∀ o ∈ log'.outcomes, o.2 = none) :
    Basic.synthesize B b (fun one => (circuit one).strict) = .ok (a, d) := by
  rw [synthesize_eq hB] at h
  unfold Basic.synthesize
  rcases hx : Basic.allocInput B ⟨b, none, 0, 0⟩ (.ok 1) with _ | ⟨⟨one, o⟩, d1⟩
  · simp [hx] at h
  · simp only [hx] at h ⊢
    split at h
    · rename_i h1
      rw [if_pos h1]
      exact run_strict hB _ h hn
    · cases h

/-- Pass on the error that a program has ended with. -/
def Prog.rethrow {α : Type} (p : Prog F (Except SynthesisError α)) : Prog F α :=
  p.bind fun
    | .ok a => .pure a
    | .error e => .throw e

theorem run_rethrow (B : Backend F β ι) {α : Type} (p : Prog F (Except SynthesisError α)) :
    ∀ d, Basic.run B p.rethrow d = match Basic.run B p d with
      | .error e => .error e
      | .ok (.ok a, d) => .ok (a, d)
      | .ok (.error e, _) => .error (.err e) := by
  unfold Prog.rethrow
  induction p with
  | pure a => intro d; cases a <;> rfl
  | throw e => intro d; rfl
  | panic => intro d; rfl
  | alloc v k ih =>
    intro d
    simp only [Prog.bind, Basic.run]
    rcases Basic.alloc B d v with _ | ⟨⟨x, o⟩, d1⟩
    · rfl
    · exact ih _ _ _
  | allocInput v k ih =>
    intro d
    simp only [Prog.bind, Basic.run]
    rcases Basic.allocInput B d v with _ | ⟨⟨x, o⟩, d1⟩
    · rfl
    · exact ih _ _ _
  | enforceZero lc k ih =>
    intro d
    simp only [Prog.bind, Basic.run]
    rcases Basic.enforceZero B d lc with _ | d1
    · rfl
    · exact ih _
  | multiply v k ih =>
    intro d
    simp only [Prog.bind, Basic.run]
    rcases Basic.multiply B d v with _ | ⟨⟨x, y, z, o⟩, d1⟩
    · rfl
    · exact ih _ _ _ _ _

theorem synthesize_rethrow (B : Backend F β ι) {α : Type} (b : β)
    (circuit : Var → Prog F (Except SynthesisError α)) :
    Basic.synthesize B b (fun one => (circuit one).rethrow) = match Basic.synthesize B b circuit with
      | .error e => .error e
      | .ok (.ok a, d) => .ok (a, d)
      | .ok (.error e, _) => .error (.err e) := by
  unfold Basic.synthesize
  rcases Basic.allocInput B ⟨b, none, 0, 0⟩ (.ok 1) with _ | ⟨⟨one, o⟩, d1⟩
  · rfl
  · simp only
    split
    · exact run_rethrow B _ _
    · rfl

theorem collect_rethrow {α : Type} {known : Bool} (p : Prog F (Except SynthesisError α)) :
    ∀ (s s' : System F) (a : α), collect known p.rethrow s = .ok (a, s') ↔
      collect known p s = .ok (.ok a, s') := by
  unfold Prog.rethrow
  induction p with
  | pure a => intro s s' a'; cases a <;> simp [Prog.bind, collect]
  | throw e => intro s s' a; simp [Prog.bind, collect]
  | panic => intro s s' a; simp [Prog.bind, collect]
  | alloc v k ih =>
    intro s s' a
    cases known
    · simp only [Prog.bind, collect_alloc_false, ih]
    · cases v with
      | error e => simp [Prog.bind, collect]
      | ok v => simp only [Prog.bind, collect_alloc_ok, ih]
  | allocInput v k ih =>
    intro s s' a
    cases known
    · simp only [Prog.bind, collect_allocInput_false, ih]
    · cases v with
      | error e => simp [Prog.bind, collect]
      | ok v => simp only [Prog.bind, collect_allocInput_ok, ih]
  | enforceZero lc k ih => intro s s' a; exact ih _ _ _
  | multiply v k ih =>
    intro s s' a
    cases known
    · simp only [Prog.bind, collect_multiply_false, ih]
    · cases v with
      | error e => simp [Prog.bind, collect]
      | ok v => simp only [Prog.bind, collect_multiply_ok, ih]

omit [Field F] in
theorem recordKeep_lift {α : Type} (p : Prog F α) :
    ∀ vars ev, recordKeep p.lift vars ev = record p vars ev := by
  induction p with
  | pure a => intro vars ev; rfl
  | throw e => intro vars ev; rfl
  | panic => intro vars ev; rfl
  | alloc v k ih => intro vars ev; simp only [Prog.lift, recordKeep, record, ih]
  | allocInput v k ih => intro vars ev; simp only [Prog.lift, recordKeep, record, ih]
  | enforceZero lc k ih => intro vars ev; exact ih _ _
  | multiply v k ih => intro vars ev; simp only [Prog.lift, recordKeep, record, ih]

omit [Field F] in
theorem enforceEventsKeep_lift [DecidableEq F] {α : Type} (p : Prog F α) :
    ∀ vars ev, enforceEventsKeep p.lift vars ev = enforceEvents p vars ev := by
  induction p with
  | pure a => intro vars ev; rfl
  | throw e => intro vars ev; rfl
  | panic => intro vars ev; rfl
  | alloc v k ih =>
    intro vars ev
    rcases v with e | v
    · simp only [Prog.lift, enforceEventsKeep, enforceEvents]
    · rcases ev with _ | ⟨_ | _ | _ | _, ev⟩ <;> simp only [Prog.lift, enforceEventsKeep, enforceEvents, ih]
  | allocInput v k ih =>
    intro vars ev
    rcases v with e | v
    · simp only [Prog.lift, enforceEventsKeep, enforceEvents]
    · rcases ev with _ | ⟨_ | _ | _ | _, ev⟩ <;> simp only [Prog.lift, enforceEventsKeep, enforceEvents, ih]
  | enforceZero lc k ih =>
    intro vars ev
    rcases ev with _ | ⟨_ | _ | _ | _, ev⟩ <;> simp only [Prog.lift, enforceEventsKeep, enforceEvents, ih]
  | multiply v k ih =>
    intro vars ev
    rcases v with e | v
    · simp only [Prog.lift, enforceEventsKeep, enforceEvents]
    · rcases ev with _ | ⟨_ | _ | _ | _, ev⟩ <;> simp only [Prog.lift, enforceEventsKeep, enforceEvents, ih]

end Circuit
end Halo
