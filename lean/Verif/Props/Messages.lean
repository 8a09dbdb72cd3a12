import Verif.Lemmas.Messages
import Verif.Props.Count
/-!
# The error messages of `is_satisfied` (C73)
-/
namespace Halo
namespace Circuit
variable {F : Type} [Field F]

section
variable [DecidableEq F]

/-- **C73**. `is_satisfied` fails as the circuit does. Otherwise it reports the number of public inputs if it is wrong, else the
first gate that does not hold, with its values and the path of the multiplication that asked for it, else the first linear
constraint that does not hold, with both its sides and the path of its namespace, and else it returns true. -/
theorem C73_verdict (circuit : Var → Named F Unit) (inputs : List F) :
    Verdict inputs (traceCircuit circuit) (isSatisfiedNamed circuit inputs) := by
  obtain ⟨d, h1, h2⟩ := label_input (label_start (F := F)) (name := "one".toList) (by decide) 1
  have h3 := label_run (circuit (.A 1)) (show LabelRel (Traced.start : Traced F) d from h2)
  unfold isSatisfiedNamed
  rw [h1]
  simp only
  rw [if_neg (not_not.2 (show ((System.empty : System F).fresh 1).1 = .A 1 from rfl))]
  cases ht : traceCircuit circuit with
  | error e =>
    rw [show trace (circuit (.A 1)) Traced.start = _ from ht] at h3
    rw [show runSat (circuit Basic.ONE) d = .error e from h3]
    cases e with
    | err e => exact .synthesis e
    | panic => exact .panic
  | ok x =>
    obtain ⟨⟨⟩, t⟩ := x
    rw [show trace (circuit (.A 1)) Traced.start = _ from ht] at h3
    obtain ⟨d', h4, h5⟩ := h3
    rw [show runSat (circuit Basic.ONE) d = _ from h4]
    exact verdict_ok h5 (inputsOk_circuit (traceCircuit_system ht)) inputs

omit [DecidableEq F] in
/-- **C73**, the verdict is determined by what the circuit does. -/
theorem C73_unique {inputs : List F} {r : Except Fail (Unit × Traced F)} {x y : Except (NamedError F) Bool}
    (hx : Verdict inputs r x) (hy : Verdict inputs r y) : x = y := by
  have first : ∀ {t : Traced F} {q q' : ℕ} {lc lc' : LC F}, t.system.LinearHold inputs q → t.system.LinearHold inputs q' →
      t.system.lcs[q]? = some lc → t.system.lcs[q']? = some lc' →
      ¬ (t.system.InScope lc ∧ lc.eval t.system.w = t.system.target inputs q) →
      ¬ (t.system.InScope lc' ∧ lc'.eval t.system.w = t.system.target inputs q') → q = q' := by
    intro t q q' lc lc' h h' e e' n n'
    rcases lt_trichotomy q q' with hl | rfl | hl
    · exact (n (h' q hl lc e)).elim
    · rfl
    · exact (n' (h q' hl lc' e')).elim
  have last : ∀ {t : Traced F} {q : ℕ} {lc : LC F}, t.system.LinearHold inputs t.system.lcs.length →
      t.system.lcs[q]? = some lc → t.system.InScope lc ∧ lc.eval t.system.w = t.system.target inputs q :=
    fun h e => h _ (List.getElem?_eq_some_iff.1 e).1 _ e
  cases hx with
  | synthesis e => cases hy; rfl
  | panic => cases hy; rfl
  | inputLength h =>
    cases hy with
    | inputLength => rfl
    | gate _ _ h' | linear _ _ _ h' | scope _ _ h' | satisfied h' => exact (h h').elim
  | gate i path h h1 h2 h3 h4 =>
    cases hy with
    | inputLength h' => exact (h' h).elim
    | gate i' path' _ h1' h2' h3' h4' =>
      rcases lt_trichotomy i i' with hl | rfl | hl
      · exact (h3 (h2' i hl)).elim
      · rw [h4, Option.some.injEq, Option.some.injEq] at h4'
        rw [h4']
      · exact (h3' (h2 i' hl)).elim
    | linear _ _ _ _ h' | scope _ _ _ h' | satisfied _ h' => exact (h3 (h' i h1)).elim
  | linear q lc path h h1 h2 h3 h4 h5 h6 =>
    cases hy with
    | inputLength h' => exact (h' h).elim
    | gate i' path' _ h1' h2' h3' h4' => exact (h3' (h1 i' h1')).elim
    | linear q' lc' path' _ _ h2' h3' h4' h5' h6' =>
      obtain rfl := first h2 h2' h3 h3' (fun h => h5 h.2) (fun h => h5' h.2)
      rw [h3, Option.some.injEq] at h3'
      rw [h6, Option.some.injEq] at h6'
      rw [h3', h6']
    | scope q' lc' _ _ h2' h3' h4' =>
      obtain rfl := first h2 h2' h3 h3' (fun h => h5 h.2) (fun h => h4' h.1)
      rw [h3, Option.some.injEq] at h3'
      exact (h4' (h3' ▸ h4)).elim
    | satisfied _ _ h' => exact (h5 (last h' h3).2).elim
  | scope q lc h h1 h2 h3 h4 =>
    cases hy with
    | inputLength h' => exact (h' h).elim
    | gate i' path' _ h1' h2' h3' h4' => exact (h3' (h1 i' h1')).elim
    | linear q' lc' path' _ _ h2' h3' h4' h5' h6' =>
      obtain rfl := first h2 h2' h3 h3' (fun h => h4 h.1) (fun h => h5' h.2)
      rw [h3, Option.some.injEq] at h3'
      exact (h4 (h3' ▸ h4')).elim
    | scope => rfl
    | satisfied _ _ h' => exact (h4 (last h' h3).1).elim
  | satisfied h h1 h2 =>
    cases hy with
    | inputLength h' => exact (h' h).elim
    | gate i' path' _ h1' h2' h3' h4' => exact (h3' (h1 i' h1')).elim
    | linear q' lc' path' _ _ h2' h3' h4' h5' h6' => exact (h5' (last h2 h3').2).elim
    | scope q' lc' _ _ h2' h3' h4' => exact (h4' (last h2 h3').1).elim
    | satisfied => rfl

omit [DecidableEq F] in
/-- **C73**, the system of the verdict is the one that is proved, of the circuit without names. -/
theorem C73_system {α : Type} {circuit : Var → Named F α} {a : α} {t : Traced F} (h : traceCircuit circuit = .ok (a, t)) :
    circuitSystem true (fun one => (circuit one).erase) = .ok (a, t.system) := traceCircuit_system h

omit [DecidableEq F] in
/-- The verdict is true if and only if the system is satisfied. -/
theorem verdict_true {inputs : List F} {r : Except Fail (Unit × Traced F)} :
    Verdict inputs r (.ok true) ↔ ∃ t, r = .ok ((), t) ∧ t.system.inputs.length = inputs.length + 1 ∧
      (∀ lc ∈ t.system.lcs, ∀ x ∈ lc.terms, 1 ≤ x.1.index ∧ x.1.index ≤ t.system.gates) ∧
      t.system.Satisfied t.system.w inputs := by
  constructor
  · intro h
    cases h with
    | @satisfied t h h1 h2 =>
      refine ⟨t, rfl, h, fun lc hlc => ?_, fun i hi hi' => ?_, fun q lc hq => ?_⟩
      · obtain ⟨q, hq, rfl⟩ := List.mem_iff_getElem.1 hlc
        exact (h2 q hq _ (List.getElem?_eq_getElem hq)).1
      · have := h1 (i - 1) (by omega)
        unfold System.GateHolds at this
        rwa [show i - 1 + 1 = i by omega] at this
      · exact (h2 q (List.getElem?_eq_some_iff.1 hq).1 lc hq).2
  · rintro ⟨t, rfl, h, h1, h2, h3⟩
    exact .satisfied h (fun j hj => h2 (j + 1) (by omega) (by omega)) fun j _ lc hlc =>
      ⟨h1 lc (List.mem_of_getElem? hlc), h3 j lc hlc⟩

/-- **C73**, names do not matter for the answer true: if no name of a variable or a multiplication has a slash, and no namespace is
left that has not been entered, then the circuit without names has the same. -/
theorem C73_names {circuit : Var → Named F Unit} {inputs : List F} :
    isSatisfiedNamed circuit inputs = .ok true ↔
      (∃ t, traceCircuit circuit = .ok ((), t)) ∧ isSatisfied (fun one => (circuit one).erase) inputs = .ok true := by
  rw [isSatisfied_iff]
  constructor
  · intro h
    have hv := C73_verdict circuit inputs
    rw [h, verdict_true] at hv
    obtain ⟨t, ht, h1, h2, h3⟩ := hv
    exact ⟨⟨t, ht⟩, t.system, C73_system ht, h1, h2, h3⟩
  · rintro ⟨⟨t, ht⟩, s, hs, h1, h2, h3⟩
    have he := C73_system ht
    rw [hs] at he
    simp only [Except.ok.injEq, Prod.mk.injEq, true_and] at he
    subst he
    exact C73_unique (C73_verdict circuit inputs) (verdict_true.2 ⟨t, ht, h1, h2, h3⟩)

/-- **C73**, what a message names: a violated gate is always one that a multiplication asked for, so the message
`allocation(…)` does not occur. -/
theorem C73_gate {circuit : Var → Named F Unit} {inputs : List F} {path : List Char} {a b c : F}
    (h : isSatisfiedNamed circuit inputs = .error (.multiplication path a b c)) :
    a * b ≠ c ∧ ∃ t i names, traceCircuit circuit = .ok ((), t) ∧ t.gates[i]? = some (some names) ∧ path = pathKey names ∧
      a = t.system.w (.A (i + 1)) ∧ b = t.system.w (.B (i + 1)) ∧ c = t.system.w (.C (i + 1)) := by
  have hv := C73_verdict circuit inputs
  rw [h] at hv
  generalize hr : traceCircuit circuit = r at hv
  cases hv with
  | @gate t i names _ _ _ h3 h4 => exact ⟨h3, t, i, names, rfl, h4, rfl, rfl, rfl, rfl⟩

end

omit [Field F] in
/-- Whatever values it gets, the names of variables and of multiplications have no slash. -/
def Named.Plain {α : Type} : Named F α → Prop
  | .pure _ => True
  | .throw _ => True
  | .panic => True
  | .alloc name _ k => '/' ∉ name ∧ ∀ x o, (k x o).Plain
  | .allocInput name _ k => '/' ∉ name ∧ ∀ x o, (k x o).Plain
  | .enforceZero _ k => k.Plain
  | .multiply name _ k => '/' ∉ name ∧ ∀ a b c o, (k a b c o).Plain
  | .push _ k => k.Plain
  | .pop k => k.Plain

theorem trace_plain {α : Type} (p : Named F α) : ∀ {t : Traced F}, p.Balanced t.within.length → p.Plain →
    ∀ {a : α} {s : System F}, collect true p.erase t.system = .ok (a, s) → ∃ t', trace p t = .ok (a, t') ∧ t'.within = [] := by
  induction p with
  | pure a =>
    intro t hb _ a' s h
    simp only [Named.erase, collect, Except.ok.injEq, Prod.mk.injEq] at h
    obtain ⟨rfl, rfl⟩ := h
    exact ⟨t, rfl, List.length_eq_zero_iff.1 hb⟩
  | throw e => intro t _ _ a' s h; simp [Named.erase, collect] at h
  | panic => intro t _ _ a' s h; simp [Named.erase, collect] at h
  | alloc name v k ih =>
    intro t hb hp a' s h
    cases v with
    | error e => simp [Named.erase, collect] at h
    | ok v =>
      simp only [trace, hp.1, if_false]
      exact ih _ _ (t := t.fresh v) (hb _ _) (hp.2 _ _) h
  | allocInput name v k ih =>
    intro t hb hp a' s h
    cases v with
    | error e => simp [Named.erase, collect] at h
    | ok v =>
      simp only [trace, hp.1, if_false]
      exact ih _ _ (t := { t.fresh v with
          system := (t.system.fresh v).2.expose (t.system.fresh v).1 (some v)
          linear := t.linear ++ [t.within] }) (hb _ _) (hp.2 _ _) h
  | enforceZero lc k ih =>
    intro t hb hp a' s h
    simp only [trace]
    exact ih (t := { t with system := t.system.constrain lc, linear := t.linear ++ [t.within] }) hb hp h
  | multiply name v k ih =>
    intro t hb hp a' s h
    cases v with
    | error e => simp [Named.erase, collect] at h
    | ok v =>
      simp only [trace, hp.1, if_false]
      exact ih _ _ _ _ (t := { t with system := t.system.gate v, gates := t.gates ++ [some (t.within ++ [name])] }) (hb _ _ _ _) (hp.2 _ _ _ _) h
  | push name k ih =>
    intro t hb hp a' s h
    simp only [trace]
    exact ih (t := { t with within := t.within ++ [name] }) (by rw [List.length_append]; exact hb) hp h
  | pop k ih =>
    intro t hb hp a' s h
    have h0 := hb.1
    have hne : t.within ≠ [] := fun e => by simp [e] at h0
    simp only [trace, hne, if_false]
    exact ih (t := { t with within := t.within.dropLast }) (by simpa using hb.2) hp h

/-- **C73**, circuits that use `namespace` and names without a slash: `is_satisfied` answers true exactly if it does without the names. -/
theorem C73_plain [DecidableEq F] {circuit : Var → Named F Unit} (hb : (circuit (.A 1)).Balanced 0) (hp : (circuit (.A 1)).Plain)
    (inputs : List F) :
    isSatisfiedNamed circuit inputs = .ok true ↔ isSatisfied (fun one => (circuit one).erase) inputs = .ok true := by
  rw [C73_names]
  refine ⟨And.right, fun h => ⟨?_, h⟩⟩
  obtain ⟨s, hs, -⟩ := (isSatisfied_iff _ _).1 h
  obtain ⟨t, ht, -⟩ := trace_plain (circuit (.A 1)) (t := Traced.start) hb hp hs
  exact ⟨t, ht⟩

/-- two multiplications, with the values `x` and `y`, in namespaces with these names, and a linear constraint, in the last one -/
def twoProducts (x y : F × F × F) (n m : Name) (k : F) (_ : Var) : Named F Unit :=
  (Named.within n (.multiply ['g'] (.ok x) fun _ _ _ _ => .pure ())).bind fun _ =>
    .within m (.multiply ['g'] (.ok y) fun a _ _ _ => .enforceZero ⟨[(a, .one), (.A 1, .full k)]⟩ (.pure ()))

/-- its system -/
def twoSystem (x y : F × F × F) (k : F) : System F :=
  ((Traced.start.system.gate x).gate y).constrain ⟨[(.A 3, .one), (.A 1, .full k)]⟩

theorem twoProducts_trace (x y : F × F × F) (n m : Name) (k : F) : traceCircuit (twoProducts x y n m k) = .ok ((),
    ⟨twoSystem x y k, [none, some [n, ['g']], some [m, ['g']]], [[], [m]], []⟩) := by
  unfold traceCircuit twoProducts Named.within
  simp only [Named.bind, trace, Traced.start]
  rw [if_neg (by decide), if_neg (by simp), if_neg (by decide), if_neg (by simp)]
  rfl

theorem twoSystem_w (x y : F × F × F) (k : F) :
    (twoSystem x y k).GateHolds 0 ∧ ((twoSystem x y k).GateHolds 1 ↔ x.1 * x.2.1 = x.2.2) ∧
      ((twoSystem x y k).GateHolds 2 ↔ y.1 * y.2.1 = y.2.2) := by
  simp [twoSystem, System.GateHolds, System.gate, System.constrain, Traced.start, System.fresh, System.expose, System.empty]

section
variable [DecidableEq F]

/-- The first violated gate is reported. -/
theorem twoProducts_first {x : F × F × F} (hx : x.1 * x.2.1 ≠ x.2.2) (y : F × F × F) (n m : Name) (k : F) :
    isSatisfiedNamed (twoProducts x y n m k) [] = .error (.multiplication (pathKey [n, ['g']]) x.1 x.2.1 x.2.2) := by
  have hv := C73_verdict (twoProducts x y n m k) []
  refine C73_unique hv ?_
  rw [twoProducts_trace]
  obtain ⟨h0, h1, h2⟩ := twoSystem_w x y k
  refine Verdict.gate (inputs := []) 1 [n, ['g']] rfl (show 1 < 3 by decide) (fun j hj => ?_) (fun h => hx (h1.1 h)) rfl
  obtain rfl : j = 0 := by omega
  exact h0

theorem twoProducts_second {x y : F × F × F} (hx : x.1 * x.2.1 = x.2.2) (hy : y.1 * y.2.1 ≠ y.2.2) (n m : Name) (k : F) :
    isSatisfiedNamed (twoProducts x y n m k) [] = .error (.multiplication (pathKey [m, ['g']]) y.1 y.2.1 y.2.2) := by
  have hv := C73_verdict (twoProducts x y n m k) []
  refine C73_unique hv ?_
  rw [twoProducts_trace]
  obtain ⟨h0, h1, h2⟩ := twoSystem_w x y k
  refine Verdict.gate (inputs := []) 2 [m, ['g']] rfl (show 2 < 3 by decide) (fun j hj => ?_) (fun h => hy (h2.1 h)) rfl
  rcases (by omega : j = 0 ∨ j = 1) with rfl | rfl
  · exact h0
  · exact h1.2 hx

/-- If the gates hold then the linear constraint is reported, without a name of its own. -/
theorem twoProducts_linear {x y : F × F × F} (hx : x.1 * x.2.1 = x.2.2) (hy : y.1 * y.2.1 = y.2.2) (n m : Name) {k : F}
    (hk : y.1 + k ≠ 0) : isSatisfiedNamed (twoProducts x y n m k) [] =
      .error (.linear (pathKey [m, "TODO_LINEAR".toList]) (y.1 + k) 0) := by
  have hv := C73_verdict (twoProducts x y n m k) []
  refine C73_unique hv ?_
  rw [twoProducts_trace]
  obtain ⟨h0, h1, h2⟩ := twoSystem_w x y k
  have he : (⟨[(.A 3, .one), (.A 1, .full k)]⟩ : LC F).eval (twoSystem x y k).w = y.1 + k := by
    simp [LC.eval, Coeff.value, twoSystem, System.gate, System.constrain, Traced.start, System.fresh, System.expose, System.empty]
  have ht : (twoSystem x y k).target [] 1 = 0 := by
    simp [System.target, rhs, twoSystem, System.gate, System.constrain, Traced.start, System.fresh, System.expose, System.empty]
  rw [← he] at hk ⊢
  rw [← ht] at hk
  have hz : ∀ r : F, r = (twoSystem x y k).target [] 1 → Verdict ([] : List F) (.ok ((), (⟨twoSystem x y k,
      [none, some [n, ['g']], some [m, ['g']]], [[], [m]], []⟩ : Traced F)))
      (.error (.linear (pathKey [m, "TODO_LINEAR".toList])
        ((⟨[(.A 3, .one), (.A 1, .full k)]⟩ : LC F).eval (twoSystem x y k).w) r)) := by
    rintro r rfl
    refine Verdict.linear (inputs := []) 1 _ [m] rfl (fun j hj => ?_) (fun j hj lc hlc => ?_) rfl ?_ hk rfl
    · have hj : j < 3 := hj
      rcases (by omega : j = 0 ∨ j = 1 ∨ j = 2) with rfl | rfl | rfl
      · exact h0
      · exact h1.2 hx
      · exact h2.2 hy
    · obtain rfl : j = 0 := by omega
      simp only [twoSystem, System.gate, System.constrain, Traced.start, System.fresh, System.expose, System.empty,
        List.nil_append, List.cons_append, List.getElem?_cons_zero, Option.some.injEq] at hlc
      subst hlc
      simp [System.InScope, System.target, rhs, LC.eval, Coeff.value, Var.index, twoSystem, System.gate, System.constrain,
        Traced.start, System.fresh, System.expose, System.empty]
    · intro x hx
      simp only [List.mem_cons, List.not_mem_nil, or_false] at hx
      rcases hx with rfl | rfl
      · exact ⟨show 1 ≤ 3 by decide, show 3 ≤ 3 by decide⟩
      · exact ⟨show 1 ≤ 1 by decide, show 1 ≤ 3 by decide⟩
  exact hz 0 ht.symm

/-- **C73**, a message need not tell which constraint is violated: names can be used again, and linear constraints have none, so the
same error is reported for this circuit if only its first product is wrong and if only its second one is. -/
theorem C73_ambiguous (n : Name) :
    isSatisfiedNamed (twoProducts ((0, 0, 1) : F × F × F) (0, 0, 0) n n 0) [] =
      isSatisfiedNamed (twoProducts ((0, 0, 0) : F × F × F) (0, 0, 1) n n 0) [] ∧
    isSatisfiedNamed (twoProducts ((0, 0, 1) : F × F × F) (0, 0, 0) n n 0) [] ≠ .ok true := by
  rw [twoProducts_first (by simp), twoProducts_second (by simp) (by simp)]
  exact ⟨rfl, nofun⟩

/-- The hypotheses of C73 are met: this is what is reported. -/
example : isSatisfiedNamed (twoProducts ((1, 1, 1) : F × F × F) (0, 0, 1) "left".toList "right".toList 0) [] =
    .error (.multiplication "right/g".toList 0 0 1) :=
  twoProducts_second (by simp) (by simp) _ _ _

example : isSatisfiedNamed (twoProducts ((1, 1, 1) : F × F × F) (0, 0, 0) "left".toList "right".toList 1) [] =
    .error (.linear "right/TODO_LINEAR".toList 1 0) := by
  have := twoProducts_linear (x := ((1, 1, 1) : F × F × F)) (y := (0, 0, 0)) (by simp) (by simp) "left".toList "right".toList (k := 1) (by simp)
  rwa [zero_add] at this

example : (twoProducts ((1, 1, 1) : F × F × F) (0, 0, 1) ['n'] ['m'] 0 (.A 1)).Balanced 0 ∧
    (twoProducts ((1, 1, 1) : F × F × F) (0, 0, 1) ['n'] ['m'] 0 (.A 1)).Plain := by
  simp [twoProducts, Named.within, Named.bind, Named.Balanced, Named.Plain]

end

end Circuit
end Halo
