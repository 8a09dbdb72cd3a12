import Verif.Spec.Messages
import Verif.Lemmas.Count
import Verif.Lemmas.Satisfied
/-!
# `is_satisfied` with names follows the specification
-/
namespace Halo
namespace Circuit
variable {F : Type} [Field F]

/-- Without the names -/
def Driver.base (d : Driver (LabelState F)) : Driver (SatState F) := ⟨d.backend.base, d.cur, d.q, d.n⟩

/-- What the code notes for a gate -/
def LabelOf (m : MultName) : Option (List Name) → Prop
  | some path => m = .constraint (pathKey path)
  | none => ∃ a b, m = .allocation a b

theorem LabelOf.setName {m : MultName} {g : Option (List Name)} (h : LabelOf m g) (path : List Char) (var : Var) :
    LabelOf (m.setName path var) g := by
  cases g with
  | some p => rw [show m = .constraint (pathKey p) from h]; rfl
  | none =>
    obtain ⟨a, b, rfl⟩ := h
    cases var <;> exact ⟨_, _, rfl⟩

theorem forall₂_modify {ms : List MultName} {gs : List (Option (List Name))} (h : List.Forall₂ LabelOf ms gs) (i : ℕ)
    (path : List Char) (var : Var) : List.Forall₂ LabelOf (ms.modify i (.setName path var)) gs := by
  induction h generalizing i with
  | nil => cases i <;> exact .nil
  | cons h hs ih =>
    cases i with
    | zero => exact .cons (h.setName path var) hs
    | succ i => exact .cons h (ih i)

theorem forall₂_push {ms : List MultName} {gs : List (Option (List Name))} (h : List.Forall₂ LabelOf ms gs) {m : MultName}
    {g : Option (List Name)} (hm : LabelOf m g) : List.Forall₂ LabelOf (ms ++ [m]) (gs ++ [g]) := by
  induction h with
  | nil => exact .cons hm .nil
  | cons h hs ih => exact .cons h ih

/-- The code and the specification agree. -/
structure LabelRel (t : Traced F) (d : Driver (LabelState F)) : Prop where
  sat : SatRel t.system d.base
  names : d.backend.currentNamespace = t.within
  mults : List.Forall₂ LabelOf d.backend.multNames t.gates
  lcs : d.backend.lcNames = t.linear.map fun ns => pathKey (ns ++ [linearName])
  gates : t.gates.length = t.system.gates
  linear : t.linear.length = t.system.lcs.length
  holds : ∀ i, t.gates[i]? = some none → t.system.GateHolds i
  half : ∀ i, t.system.half = some i → t.gates[i - 1]? = some none

/-- What happens to the driver in an allocation with a proper name, besides what happens without the name -/
def relabel (d : Driver (LabelState F)) (path : List Char) (d' : Driver (SatState F)) : Driver (LabelState F) :=
  ⟨{ d.backend with
      base := d'.backend
      multNames := match d.cur with
        | some i => d.backend.multNames.modify (i - 1) (.setName path (.B i))
        | none => (d.backend.multNames ++ [MultName.allocation "unused".toList "unused".toList]).modify d.n
            (.setName path (.A (d.n + 1))) }, d'.cur, d'.q, d'.n⟩

theorem alloc_label {name : Name} {d : Driver (LabelState F)} {path : List Char}
    (hp : computePath d.backend.currentNamespace name = some path) (v : Except SynthesisError F) :
    Basic.alloc (labelBackend name) d v =
      (Basic.alloc satBackend d.base v).map fun r => (r.1, relabel d path r.2) := by
  obtain ⟨b, cur, q, n⟩ := d
  unfold Basic.alloc Driver.base relabel
  cases cur with
  | some i =>
    simp only [labelBackend, hp, Bool.false_eq_true, if_false, if_true]
    cases satBackend.getVar b.base (.A i) with
    | error e => rfl
    | ok va =>
      simp only [Except.bind_ok]
      cases satBackend.setVar b.base true (.B i) _ with
      | error e => rfl
      | ok r =>
        obtain ⟨b1, c1⟩ := r
        simp only [Except.bind_ok]
        cases satBackend.setVar b1 false (.C i) _ with
        | error e => rfl
        | ok r => rfl
  | none =>
    simp only [labelBackend, hp, Bool.false_eq_true, if_false, if_true]
    cases satBackend.setVar (satBackend.newGate b.base false) true (.A (n + 1)) v with
    | error e => rfl
    | ok r => rfl

theorem alloc_slash {t : Traced F} {name : Name} {d : Driver (LabelState F)} (h : LabelRel t d)
    (hp : computePath d.backend.currentNamespace name = none) (v : F) :
    Basic.alloc (labelBackend name) d (.ok v) = .error .panic := by
  have hs := h.sat
  obtain ⟨b, cur, q, n⟩ := d
  have hcur : cur = t.system.half := hs.cur
  have hn : n = t.system.gates := hs.n
  have hw : b.base.wires = _ := hs.wires
  subst hcur hn
  unfold Basic.alloc
  cases hh : t.system.half with
  | some i =>
    obtain ⟨h1, h2, h3, h4⟩ := hs.inv.half i hh
    have e1 := get_wiresOf (w := t.system.w) (n := t.system.gates) (var := .A i) h1 h2
    have e2 := set_wiresOf (w := t.system.w) (n := t.system.gates) (var := .B i) v h1 h2
    have e3 : at1 b.base.mults i = some false := hs.half i hh
    simp only [labelBackend, satBackend, hw, e1, Except.bind_ok, orMissing, e2, if_true, e3, hp, Except.bind_error]
  | none =>
    have e1 := push_wiresOf hs.inv.unused
    have e2 := set_wiresOf (w := t.system.w) (n := t.system.gates + 1) (var := .A (t.system.gates + 1)) v
      (Nat.succ_pos _) (le_refl _)
    have e3 : at1 (b.base.mults ++ [false]) (t.system.gates + 1) = some false := by
      have hm : b.base.mults.length = t.system.gates := hs.mults
      simp [at1, ← hm]
    simp only [labelBackend, satBackend, hw, e1, e2, Except.bind_ok, if_true, e3, hp, Except.bind_error]

theorem LabelRel.fresh {t : Traced F} {d : Driver (LabelState F)} (h : LabelRel t d) (path : List Char) (v : F)
    {d' : Driver (SatState F)} (hd : SatRel (t.system.fresh v).2 d') :
    LabelRel (t.fresh v) (relabel d path d') := by
  have hs := h.sat
  have hcur : d.cur = t.system.half := hs.cur
  have hn : d.n = t.system.gates := hs.n
  refine ⟨hd, h.names, ?_, h.lcs, ?_, ?_, ?_, ?_⟩
  · simp only [Traced.fresh, relabel, hcur]
    cases hh : t.system.half with
    | some i => exact forall₂_modify h.mults _ _ _
    | none => exact forall₂_modify (forall₂_push (g := none) h.mults ⟨_, _, rfl⟩) _ _ _
  · simp only [Traced.fresh, System.fresh]
    cases hh : t.system.half with
    | some i => exact h.gates
    | none => simp [h.gates]
  · have : (t.system.fresh v).2.lcs = t.system.lcs := by
      unfold System.fresh
      cases t.system.half <;> rfl
    simp only [Traced.fresh, this]
    exact h.linear
  · intro i hi
    simp only [Traced.fresh, System.GateHolds, System.fresh] at hi ⊢
    cases hh : t.system.half with
    | some j =>
      rw [hh] at hi
      simp only [Option.isSome_some, if_true] at hi ⊢
      by_cases hij : i + 1 = j
      · subst hij
        simp
      · have := h.holds i hi
        simpa [System.GateHolds, hij] using this
    | none =>
      rw [hh] at hi
      simp only [Option.isSome_none, Bool.false_eq_true, if_false] at hi ⊢
      by_cases hij : i = t.system.gates
      · have hb := hs.inv.unused (.B (i + 1)) (by simp [Var.index]; omega)
        have hc := hs.inv.unused (.C (i + 1)) (by simp [Var.index]; omega)
        simp [hb, hc]
      · have hlt : i < t.gates.length := by
          have := (List.getElem?_eq_some_iff.1 hi).1
          rw [List.length_append, List.length_singleton, h.gates] at this
          rw [h.gates]; omega
        rw [List.getElem?_append_left hlt] at hi
        have := h.holds i hi
        simpa [System.GateHolds, hij] using this
  · intro i hi
    simp only [Traced.fresh, System.fresh] at hi ⊢
    cases hh : t.system.half with
    | some j => rw [hh] at hi; cases hi
    | none =>
      rw [hh] at hi
      simp only [Option.some.injEq] at hi
      subst hi
      simp [h.gates]

theorem label_alloc {t : Traced F} {d : Driver (LabelState F)} (h : LabelRel t d) {name : Name} (hn : '/' ∉ name) (v : F) :
    ∃ d', Basic.alloc (labelBackend name) d (.ok v) = .ok (((t.system.fresh v).1, some v), d') ∧ LabelRel (t.fresh v) d' := by
  obtain ⟨d', h1, h2⟩ := sim_sat.alloc_ok rfl v h.sat
  have hp : computePath d.backend.currentNamespace name = some (pathKey (d.backend.currentNamespace ++ [name])) := by
    rw [computePath_eq, if_neg hn]
  refine ⟨_, ?_, h.fresh (pathKey (d.backend.currentNamespace ++ [name])) v h2⟩
  rw [alloc_label hp, h1]
  rfl

theorem label_alloc_err {t : Traced F} {d : Driver (LabelState F)} (h : LabelRel t d) (name : Name) (e : SynthesisError) :
    Basic.alloc (labelBackend name) d (.error e) = .error (.err e) := by
  have hs := h.sat
  obtain ⟨b, cur, q, n⟩ := d
  have hcur : cur = t.system.half := hs.cur
  have hw : b.base.wires = _ := hs.wires
  subst hcur
  unfold Basic.alloc
  cases hh : t.system.half with
  | some i =>
    obtain ⟨h1, h2, h3, h4⟩ := hs.inv.half i hh
    have e1 := get_wiresOf (w := t.system.w) (n := t.system.gates) (var := .A i) h1 h2
    simp only [labelBackend, satBackend, hw, e1, Except.bind_ok, Except.bind_error]
  | none => simp only [labelBackend, satBackend, Except.bind_error]

theorem label_insert (name : Name) (y : ℕ) (terms : List (Var × Coeff F)) : ∀ s : LabelState F,
    terms.foldlM (fun b t => (labelBackend name).insertCoeff b t.1 t.2 y) s =
      (terms.foldlM (fun b t => satBackend.insertCoeff b t.1 t.2 y) s.base).map fun base => { s with base } := by
  induction terms with
  | nil => intro s; rfl
  | cons t ts ih =>
    intro s
    rw [List.foldlM_cons, List.foldlM_cons]
    simp only [labelBackend]
    cases satBackend.insertCoeff s.base t.1 t.2 y with
    | error e => rfl
    | ok base =>
      simp only [Except.bind_ok]
      exact ih { s with base }

theorem label_enforce {t : Traced F} {d : Driver (LabelState F)} (h : LabelRel t d) (name : Name) (lc : LC F) :
    ∃ d', Basic.enforceZero (labelBackend name) d lc = .ok d' ∧
      LabelRel { t with system := t.system.constrain lc, linear := t.linear ++ [t.within] } d' := by
  rcases sim_sat.enforce lc h.sat with ⟨d', h1, h2⟩ | ⟨-, h2⟩
  swap
  · exact (h2 trivial).elim
  have hp : computePath d.backend.currentNamespace linearName = some (pathKey (d.backend.currentNamespace ++ [linearName])) := by
    rw [computePath_eq, if_neg (by decide)]
  unfold Basic.enforceZero at h1 ⊢
  simp only [Driver.base] at h1
  simp only [labelBackend] at *
  have hi := label_insert name (satBackend.newLinear d.backend.base).2 lc.terms
    { d.backend with
      base := (satBackend.newLinear d.backend.base).1
      lcNames := d.backend.lcNames ++ [(computePath d.backend.currentNamespace linearName).getD []] }
  simp only [labelBackend] at hi
  rw [hi]
  cases hf : lc.terms.foldlM (fun b t => satBackend.insertCoeff b t.1 t.2 (satBackend.newLinear d.backend.base).2)
      (satBackend.newLinear d.backend.base).1 with
  | error e => rw [hf] at h1; cases h1
  | ok base =>
    rw [hf] at h1
    simp only [Except.bind_ok, Except.ok.injEq] at h1
    subst h1
    refine ⟨_, rfl, h2, h.names, h.mults, ?_, h.gates, ?_, h.holds, h.half⟩
    · simp only [hp, Option.getD_some]
      simp only [h.lcs, h.names, List.map_append, List.map_cons, List.map_nil]
    · simp [System.constrain, h.linear]

theorem label_input {t : Traced F} {d : Driver (LabelState F)} (h : LabelRel t d) {name : Name} (hn : '/' ∉ name) (v : F) :
    ∃ d', Basic.allocInput (labelBackend name) d (.ok v) = .ok (((t.system.fresh v).1, some v), d') ∧
      LabelRel { t.fresh v with
        system := (t.system.fresh v).2.expose (t.system.fresh v).1 (some v)
        linear := t.linear ++ [t.within] } d' := by
  obtain ⟨d1, h1, r1⟩ := label_alloc h hn v
  obtain ⟨d2, h2, r2⟩ := label_enforce r1 name ⟨[((t.system.fresh v).1, .one)]⟩
  obtain ⟨b, h3, h4⟩ := sim_sat.newK (some v) r2.sat (fun _ => rfl)
  unfold Basic.allocInput
  rw [h1]
  simp only [Except.bind_ok]
  rw [show (LC.zero.addVar (t.system.fresh v).1 : LC F) = ⟨[((t.system.fresh v).1, .one)]⟩ from rfl, h2]
  simp only [Except.bind_ok]
  have hk : (labelBackend name).newK d2.backend d2.q (Except.toOption (.ok v : Except SynthesisError F)) =
      .ok { d2.backend with base := b } := by
    simp only [labelBackend]
    rw [show satBackend.newK d2.backend.base d2.q (Except.toOption (.ok v : Except SynthesisError F)) = .ok b from h3]
    rfl
  rw [hk]
  exact ⟨_, rfl, h4, r2.names, r2.mults, r2.lcs, r2.gates, r2.linear, r2.holds, r2.half⟩

theorem label_multiply {t : Traced F} {d : Driver (LabelState F)} (h : LabelRel t d) {name : Name} (hn : '/' ∉ name)
    (v : F × F × F) :
    ∃ d', Basic.multiply (labelBackend name) d (.ok v) =
        .ok ((.A (t.system.gates + 1), .B (t.system.gates + 1), .C (t.system.gates + 1), some v), d') ∧
      LabelRel { t with system := t.system.gate v, gates := t.gates ++ [some (t.within ++ [name])] } d' := by
  obtain ⟨d', h1, h2⟩ := sim_sat.mul_ok rfl v h.sat
  have hs := h.sat
  have hp : computePath d.backend.currentNamespace name = some (pathKey (d.backend.currentNamespace ++ [name])) := by
    rw [computePath_eq, if_neg hn]
  have key : Basic.multiply (labelBackend name) d (.ok v) = (Basic.multiply satBackend d.base (.ok v)).map fun r =>
      (r.1, (⟨{ d.backend with
        base := r.2.backend
        multNames := d.backend.multNames ++ [.constraint (pathKey (d.backend.currentNamespace ++ [name]))] },
        r.2.cur, r.2.q, r.2.n⟩ : Driver (LabelState F))) := by
    unfold Basic.multiply Driver.base
    simp only [labelBackend, hp, Bool.false_eq_true, if_false, if_true, Option.getD_some]
    cases satBackend.setVar (satBackend.newGate d.backend.base true) false (.A (d.n + 1)) _ with
    | error e => rfl
    | ok r =>
      obtain ⟨b1, c1⟩ := r
      simp only [Except.bind_ok]
      cases satBackend.setVar b1 false (.B (d.n + 1)) _ with
      | error e => rfl
      | ok r =>
        obtain ⟨b2, c2⟩ := r
        simp only [Except.bind_ok]
        cases satBackend.setVar b2 false (.C (d.n + 1)) _ with
        | error e => rfl
        | ok r => rfl
  rw [key, h1]
  refine ⟨_, rfl, h2, h.names, ?_, h.lcs, ?_, h.linear, ?_, ?_⟩
  · refine forall₂_push h.mults ?_
    rw [h.names]
    rfl
  · simp [System.gate, h.gates]
  · intro i hi
    by_cases hij : i < t.gates.length
    · rw [List.getElem?_append_left hij] at hi
      have := h.holds i hi
      have hne : i ≠ t.system.gates := by rw [h.gates] at hij; omega
      simpa [System.GateHolds, System.gate, hne] using this
    · rw [List.getElem?_append_right (by omega)] at hi
      cases hk : i - t.gates.length with
      | zero => rw [hk] at hi; simp at hi
      | succ k => rw [hk] at hi; simp at hi
  · intro i hi
    have := h.half i hi
    rw [List.getElem?_append_left (List.getElem?_eq_some_iff.1 this).1]
    exact this

omit [Field F] in
theorem label_multiply_err [Field F] (d : Driver (LabelState F)) (name : Name) (e : SynthesisError) :
    Basic.multiply (labelBackend name) d (.error e) = .error (.err e) := by
  simp [Basic.multiply, labelBackend, satBackend, Except.map, Except.bind_error]

/-- Running the circuit -/
theorem label_run {α : Type} (p : Named F α) : ∀ {t : Traced F} {d : Driver (LabelState F)}, LabelRel t d →
    match trace p t with
    | .error e => runSat p d = .error e
    | .ok (a, t') => ∃ d', runSat p d = .ok (a, d') ∧ LabelRel t' d' := by
  induction p with
  | pure a => intro t d h; exact ⟨d, rfl, h⟩
  | throw e => intro t d h; rfl
  | panic => intro t d h; rfl
  | alloc name v k ih =>
    intro t d h
    cases v with
    | error e =>
      simp only [trace, runSat, label_alloc_err h name e, Except.bind_error]
    | ok v =>
      by_cases hn : '/' ∈ name
      · have := alloc_slash h (show computePath d.backend.currentNamespace name = none by
          rw [computePath_eq, if_pos hn]) v
        simp only [trace, runSat, hn, if_true, this, Except.bind_error]
      · obtain ⟨d', h1, h2⟩ := label_alloc h hn v
        simp only [trace, runSat, hn, if_false, h1, Except.bind_ok]
        exact ih _ _ h2
  | allocInput name v k ih =>
    intro t d h
    cases v with
    | error e =>
      simp only [trace, runSat, Basic.allocInput, label_alloc_err h name e, Except.bind_error]
    | ok v =>
      by_cases hn : '/' ∈ name
      · have := alloc_slash h (show computePath d.backend.currentNamespace name = none by
          rw [computePath_eq, if_pos hn]) v
        simp only [trace, runSat, Basic.allocInput, hn, if_true, this, Except.bind_error]
      · obtain ⟨d', h1, h2⟩ := label_input h hn v
        simp only [trace, runSat, hn, if_false, h1, Except.bind_ok]
        exact ih _ _ h2
  | enforceZero lc k ih =>
    intro t d h
    obtain ⟨d', h1, h2⟩ := label_enforce h [] lc
    simp only [trace, runSat, h1, Except.bind_ok]
    exact ih h2
  | multiply name v k ih =>
    intro t d h
    by_cases hn : '/' ∈ name
    · cases v <;> simp only [trace, runSat, computePath_eq, hn, if_true]
    · cases v with
      | error e => simp only [trace, runSat, computePath_eq, hn, if_false, label_multiply_err, Except.bind_error]
      | ok v =>
        obtain ⟨d', h1, h2⟩ := label_multiply h hn v
        simp only [trace, runSat, computePath_eq, hn, if_false, h1, Except.bind_ok]
        exact ih _ _ _ _ h2
  | push name k ih =>
    intro t d h
    simp only [trace, runSat]
    exact ih ⟨h.sat, by simp [LabelState.push, h.names], h.mults, h.lcs, h.gates, h.linear, h.holds, h.half⟩
  | pop k ih =>
    intro t d h
    simp only [trace, runSat, LabelState.pop, h.names]
    by_cases hw : t.within = []
    · simp only [hw, if_true]
    · simp only [hw, if_false]
      exact ih ⟨h.sat, rfl, h.mults, h.lcs, h.gates, h.linear, h.holds, h.half⟩

/-- Without the names, a circuit asks for the same system. -/
theorem trace_collect {α : Type} (p : Named F α) : ∀ {t : Traced F} {a : α} {t' : Traced F},
    trace p t = .ok (a, t') → collect true p.erase t.system = .ok (a, t'.system) := by
  induction p with
  | pure a => intro t a' t' h; simp only [trace, Except.ok.injEq, Prod.mk.injEq] at h; obtain ⟨rfl, rfl⟩ := h; rfl
  | throw e => intro t a' t' h; simp [trace] at h
  | panic => intro t a' t' h; simp [trace] at h
  | alloc name v k ih =>
    intro t a' t' h
    cases v with
    | error e => simp [trace] at h
    | ok v =>
      simp only [trace] at h
      split at h
      · cases h
      · exact ih _ _ h
  | allocInput name v k ih =>
    intro t a' t' h
    cases v with
    | error e => simp [trace] at h
    | ok v =>
      simp only [trace] at h
      split at h
      · cases h
      · exact ih _ _ h
  | enforceZero lc k ih =>
    intro t a' t' h
    simp only [trace] at h
    exact ih h
  | multiply name v k ih =>
    intro t a' t' h
    cases v with
    | error e =>
      simp only [trace] at h
      split at h <;> cases h
    | ok v =>
      simp only [trace] at h
      split at h
      · cases h
      · exact ih _ _ _ _ h
  | push name k ih =>
    intro t a' t' h
    simp only [trace] at h
    exact ih (t := { t with within := t.within ++ [name] }) h
  | pop k ih =>
    intro t a' t' h
    simp only [trace] at h
    split at h
    · cases h
    · exact ih (t := { t with within := t.within.dropLast }) h

theorem traceCircuit_system {α : Type} {circuit : Var → Named F α} {a : α} {t : Traced F}
    (h : traceCircuit circuit = .ok (a, t)) : circuitSystem true (fun one => (circuit one).erase) = .ok (a, t.system) :=
  trace_collect _ h

theorem label_start : LabelRel (F := F) ⟨System.empty, [], [], []⟩
    ⟨⟨⟨0, 0, ⟨[], [], []⟩, [], [], []⟩, [], [], []⟩, none, 0, 0⟩ :=
  ⟨⟨.empty, rfl, rfl, rfl, rfl, rfl, rfl, rfl, by simp [System.empty], rfl, rfl⟩, rfl, .nil, rfl, rfl, rfl,
    by simp, by simp [System.empty]⟩

section
variable [DecidableEq F]

theorem checkGatesNamed_cases (l : List (((F × F) × F) × MultName)) :
    (checkGatesNamed l = .ok () ∧ ∀ (i : ℕ) p, l[i]? = some p → p.1.1.1 * p.1.1.2 = p.1.2) ∨
      ∃ (i : ℕ) (p : ((F × F) × F) × MultName), l[i]? = some p ∧ p.1.1.1 * p.1.1.2 ≠ p.1.2 ∧
        (∀ j < i, ∀ p, l[j]? = some p → p.1.1.1 * p.1.1.2 = p.1.2) ∧
        checkGatesNamed l = .error (.multiplication p.2.message p.1.1.1 p.1.1.2 p.1.2) := by
  induction l with
  | nil => left; simp [checkGatesNamed]
  | cons p l ih =>
    obtain ⟨⟨⟨a, b⟩, c⟩, m⟩ := p
    by_cases h : a * b = c
    · have he : checkGatesNamed ((((a, b), c), m) :: l) = checkGatesNamed l := by simp [checkGatesNamed, h]
      rw [he]
      rcases ih with ⟨h1, h2⟩ | ⟨i, p, h1, h2, h3, h4⟩
      · left
        refine ⟨h1, ?_⟩
        rintro (_ | i) p hp
        · simp only [List.getElem?_cons_zero, Option.some.injEq] at hp; subst hp; exact h
        · exact h2 i p hp
      · right
        refine ⟨i + 1, p, h1, h2, ?_, h4⟩
        rintro (_ | j) hj p hp
        · simp only [List.getElem?_cons_zero, Option.some.injEq] at hp; subst hp; exact h
        · exact h3 j (by omega) p hp
    · right
      exact ⟨0, _, rfl, h, by simp, by simp [checkGatesNamed, h]⟩

theorem checkLinearNamed_cases (w : Wires F) (l : List ((LC F × F) × List Char)) :
    (checkLinearNamed w l = .ok () ∧ ∀ (i : ℕ) p, l[i]? = some p → p.1.1.evaluate w.a w.b w.c = some p.1.2) ∨
      ∃ (i : ℕ) (p : (LC F × F) × List Char), l[i]? = some p ∧
        (∀ j < i, ∀ p, l[j]? = some p → p.1.1.evaluate w.a w.b w.c = some p.1.2) ∧
        ((p.1.1.evaluate w.a w.b w.c = none ∧ checkLinearNamed w l = .error .panic) ∨
          ∃ x, p.1.1.evaluate w.a w.b w.c = some x ∧ x ≠ p.1.2 ∧ checkLinearNamed w l = .error (.linear p.2 x p.1.2)) := by
  induction l with
  | nil => left; simp [checkLinearNamed]
  | cons p l ih =>
    obtain ⟨⟨lc, r⟩, m⟩ := p
    cases hv : lc.evaluate w.a w.b w.c with
    | none =>
      right
      exact ⟨0, _, rfl, by simp, .inl ⟨hv, by simp [checkLinearNamed, hv]⟩⟩
    | some x =>
      by_cases h : x = r
      · subst h
        have he : checkLinearNamed w (((lc, x), m) :: l) = checkLinearNamed w l := by simp [checkLinearNamed, hv]
        rw [he]
        rcases ih with ⟨h1, h2⟩ | ⟨i, p, h1, h3, h4⟩
        · left
          refine ⟨h1, ?_⟩
          rintro (_ | i) p hp
          · simp only [List.getElem?_cons_zero, Option.some.injEq] at hp; subst hp; exact hv
          · exact h2 i p hp
        · right
          refine ⟨i + 1, p, h1, ?_, h4⟩
          rintro (_ | j) hj p hp
          · simp only [List.getElem?_cons_zero, Option.some.injEq] at hp; subst hp; exact hv
          · exact h3 j (by omega) p hp
      · right
        exact ⟨0, _, rfl, by simp, .inr ⟨x, hv, h, by simp [checkLinearNamed, hv, h]⟩⟩

omit [DecidableEq F] in
theorem forall₂_getElem? {ms : List MultName} {gs : List (Option (List Name))} (h : List.Forall₂ LabelOf ms gs) {i : ℕ}
    {m : MultName} (hm : ms[i]? = some m) : ∃ g, gs[i]? = some g ∧ LabelOf m g := by
  induction h generalizing i with
  | nil => simp at hm
  | cons h hs ih =>
    cases i with
    | zero => simp only [List.getElem?_cons_zero, Option.some.injEq] at hm; subst hm; exact ⟨_, rfl, h⟩
    | succ i => exact ih hm

theorem verdict_ok {t : Traced F} {d : Driver (LabelState F)} (h : LabelRel t d) (hin : t.system.InputsOk) (inputs : List F) :
    Verdict inputs (.ok ((), t))
      (let s := d.backend.base
        if s.n = s.wires.a.length ∧ s.n = s.wires.b.length ∧ s.n = s.wires.c.length ∧
            s.n = s.mults.length ∧ s.q = s.lcs.length then
          if inputs.length + 1 ≠ s.inputs.length then
            .error (.inputLength inputs.length (s.inputs.length - 1))
          else match placeInputs s.lcs ((1 :: inputs).zip s.inputs) with
            | none => .error .panic
            | some lcs => do
              checkGatesNamed (((s.wires.a.zip s.wires.b).zip s.wires.c).zip d.backend.multNames)
              checkLinearNamed s.wires (lcs.zip d.backend.lcNames)
              .ok true
        else .error .panic) := by
  have hR := h.sat
  have hm2 := h.mults
  have hl2 := h.lcs
  obtain ⟨⟨b, ns, ms, ls⟩, cur, q, n⟩ := d
  simp only [Driver.base] at hR hm2 hl2 ⊢
  have hw : b.wires = _ := hR.wires
  have hlcs : b.lcs = _ := hR.lcs
  have hinp : b.inputs = _ := hR.inputs
  have hassert : b.n = b.wires.a.length ∧ b.n = b.wires.b.length ∧ b.n = b.wires.c.length ∧
      b.n = b.mults.length ∧ b.q = b.lcs.length := by
    have h1 : b.n = _ := hR.bn
    have h2 : b.mults.length = _ := hR.mults
    have h3 : b.q = _ := hR.bq
    rw [hw, h1, h2, h3, hlcs]
    simp [wiresOf]
  rw [if_pos hassert]
  have hil : b.inputs.length = t.system.inputs.length := by rw [hinp]; simp
  by_cases hl : inputs.length + 1 ≠ b.inputs.length
  · rw [if_pos hl, hil]
    exact .inputLength (by rw [← hil]; exact fun h => hl h.symm)
  rw [if_neg hl]
  push Not at hl
  have hlen : t.system.inputs.length = inputs.length + 1 := by rw [← hil, hl]
  have hn : (((1 :: inputs).zip b.inputs).map Prod.snd) = b.inputs := by
    rw [List.map_snd_zip]
    simp [hl]
  have hp := placeInputs_eq ((1 :: inputs).zip b.inputs) b.lcs (by
    rw [hn, hinp]
    exact hin.sorted.imp (fun h => Nat.ne_of_lt h)) (by
    intro p hp
    have : p.2 ∈ b.inputs := (List.of_mem_zip hp).2
    rw [hinp] at this
    obtain ⟨p', hp', he⟩ := List.mem_map.1 this
    rw [← he, hlcs]
    simpa using hin.range p' hp')
  simp only [hp]
  have hgl : ms.length = t.system.gates := by rw [hm2.length_eq, h.gates]
  have hg : ∀ i < t.system.gates, ∀ m, ms[i]? = some m →
      (((b.wires.a.zip b.wires.b).zip b.wires.c).zip ms)[i]? =
        some (((t.system.w (.A (i + 1)), t.system.w (.B (i + 1))), t.system.w (.C (i + 1))), m) := by
    intro i hi m hm
    rw [hw]
    simp [wiresOf, col, List.getElem?_zip_eq_some, hi, hm]
  have hg' : ∀ i p, (((b.wires.a.zip b.wires.b).zip b.wires.c).zip ms)[i]? = some p →
      i < t.system.gates ∧ ms[i]? = some p.2 := by
    intro i p hp
    rw [List.getElem?_zip_eq_some] at hp
    exact ⟨by rw [← hgl]; exact (List.getElem?_eq_some_iff.1 hp.2).1, hp.2⟩
  have hll : ls.length = t.system.lcs.length := by rw [hl2, List.length_map, h.linear]
  set placed := b.lcs.mapIdx fun q x =>
    (x.1, ((((1 :: inputs).zip b.inputs).find? fun p => p.2 = q + 1).map Prod.fst).getD x.2) with hplaced
  have hL : ∀ q p, (placed.zip ls)[q]? = some p ↔ ∃ lc, t.system.lcs[q]? = some lc ∧ ∃ path, t.linear[q]? = some path ∧
      p = ((lc, t.system.target inputs q), pathKey (path ++ [linearName])) := by
    intro q p
    rw [List.getElem?_zip_eq_some, hplaced, hlcs, hl2, hinp]
    simp only [List.getElem?_mapIdx, List.getElem?_map, Option.map_eq_some_iff, System.target]
    constructor
    · rintro ⟨⟨_, ⟨lc, hlc, rfl⟩, e1⟩, path, hpath, e2⟩
      refine ⟨lc, hlc, path, hpath, ?_⟩
      obtain ⟨p1, p2⟩ := p
      simp only at e1 e2
      rw [← e1, ← e2, zip_find]
    · rintro ⟨lc, hlc, path, hpath, rfl⟩
      exact ⟨⟨_, ⟨lc, hlc, rfl⟩, by rw [zip_find]⟩, path, hpath, rfl⟩
  have hold : ∀ q, (∀ j < q, ∀ p, (placed.zip ls)[j]? = some p → p.1.1.evaluate b.wires.a b.wires.b b.wires.c = some p.1.2) →
      t.system.LinearHold inputs q := by
    intro q hq j hj lc hlc
    have hjl : j < t.linear.length := by rw [h.linear]; exact (List.getElem?_eq_some_iff.1 hlc).1
    have := hq j hj _ ((hL j _).2 ⟨lc, hlc, _, List.getElem?_eq_getElem hjl, rfl⟩)
    rw [hw] at this
    exact evaluate_wiresOf.1 this
  rcases checkGatesNamed_cases (((b.wires.a.zip b.wires.b).zip b.wires.c).zip ms) with ⟨h1, h2⟩ | ⟨i, p, h1, h2, h3, h4⟩
  · rw [h1]
    simp only [Except.bind_ok]
    have hgates : ∀ j < t.system.gates, t.system.GateHolds j := by
      intro j hj
      have hjm : j < ms.length := by rw [hgl]; exact hj
      exact h2 j _ (hg j hj _ (List.getElem?_eq_getElem hjm))
    rcases checkLinearNamed_cases b.wires (placed.zip ls) with ⟨k1, k2⟩ | ⟨q, p, k1, k2, k3⟩
    · rw [k1]
      simp only [Except.bind_ok]
      exact .satisfied hlen hgates (hold _ fun j _ p hp => k2 j p hp)
    · obtain ⟨lc, hlc, path, hpath, rfl⟩ := (hL q p).1 k1
      rcases k3 with ⟨k3, k4⟩ | ⟨x, k3, k4, k5⟩
      · rw [k4]
        simp only [Except.bind_error]
        refine .scope q lc hlen hgates (hold _ k2) hlc ?_
        intro hs
        rw [hw, evaluate_wiresOf.2 ⟨hs, rfl⟩] at k3
        cases k3
      · rw [k5]
        simp only [Except.bind_error]
        rw [hw] at k3
        obtain ⟨hs, rfl⟩ := evaluate_wiresOf.1 k3
        exact .linear q lc path hlen hgates (hold _ k2) hlc hs k4 hpath
  · rw [h4]
    simp only [Except.bind_error]
    obtain ⟨hi, hm⟩ := hg' i p h1
    have e := hg i hi _ hm
    rw [h1, Option.some.injEq] at e
    obtain ⟨g, hgi, hgm⟩ := forall₂_getElem? hm2 hm
    have hbad : ¬ t.system.GateHolds i := by
      rw [e] at h2
      exact h2
    cases g with
    | none => exact (hbad (h.holds i hgi)).elim
    | some path =>
      rw [e, show p.2 = .constraint (pathKey path) from hgm]
      refine .gate i path hlen hi ?_ hbad hgi
      intro j hj
      have hjm : j < ms.length := by rw [hgl]; omega
      exact h3 j hj _ (hg j (by omega) _ (List.getElem?_eq_getElem hjm))

end

end Circuit
end Halo
