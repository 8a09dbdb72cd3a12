import Verif.Spec.Events
/-!
# What `determinism_check` checks
-/
namespace Halo
namespace Circuit
variable {F : Type} [DecidableEq F]

/-- A prefix of the first list is like the second list. -/
def PrefixAlike (ev c : List (Event F)) : Prop :=
  ∃ pre suf, ev = pre ++ suf ∧ List.Forall₂ Event.Alike pre c

omit [DecidableEq F] in
theorem record_eq {α : Type} [Field F] (p : Prog F α) : ∀ (v : ℕ) (ev : List (Event F)) ,
    (∀ l, record p v ev = .ok l ↔ ∃ c, calls false p v = some c ∧ l = ev ++ c) := by
  induction p with
  | pure a => intro v ev l; simp [record, calls, eq_comm]
  | throw e => intro v ev l; simp [record, calls]
  | panic => intro v ev l; simp [record, calls]
  | alloc value k ih =>
    intro v ev l
    cases value <;> simp [record, calls, ih]
  | allocInput value k ih =>
    intro v ev l
    cases value <;> simp [record, calls, ih]
  | enforceZero lc k ih =>
    intro v ev l
    simp [record, calls, ih]
  | multiply values k ih =>
    intro v ev l
    cases values <;> simp [record, calls, ih]

theorem sameLC_iff [Field F] (a b : LC F) : sameLC a b = true ↔
    (a.terms.map fun t => (t.1.index, t.2)) = b.terms.map fun t => (t.1.index, t.2) := by
  obtain ⟨a⟩ := a
  obtain ⟨b⟩ := b
  simp only [sameLC, Bool.and_eq_true, decide_eq_true_eq]
  induction a generalizing b with
  | nil => cases b <;> simp
  | cons x a ih =>
    cases b with
    | nil => simp
    | cons y b =>
      have := ih b
      simp only [List.length_cons, Nat.add_right_cancel_iff, List.zip_cons_cons, List.all_cons,
        Bool.and_eq_true, decide_eq_true_eq, List.map_cons, List.cons.injEq, Prod.mk.injEq]
      rw [← this]
      tauto

theorem enforceEvents_iff {α : Type} [Field F] (p : Prog F α) : ∀ (v : ℕ) (ev : List (Event F)),
    (enforceEvents p v ev = .ok () ↔
      ∃ c, calls true p v = some c ∧ PrefixAlike ev c) := by
  have cons : ∀ (e : Event F) (x : Option (List (Event F))) (ev : List (Event F)),
      (∃ c, x.map (e :: ·) = some c ∧ PrefixAlike ev c) ↔
      ∃ e' ev', ev = e' :: ev' ∧ e'.Alike e ∧
        ∃ c, x = some c ∧ PrefixAlike ev' c := by
    intro e x ev
    constructor
    · rintro ⟨c, hc, pre, suf, rfl, hf⟩
      cases x with
      | none => simp at hc
      | some c' =>
        simp only [Option.map_some, Option.some.injEq] at hc
        subst hc
        cases hf with
        | cons h1 h2 => exact ⟨_, _, rfl, h1, _, rfl, _, suf, rfl, h2⟩
    · rintro ⟨e', ev', rfl, h1, c, rfl, pre, suf, rfl, h2⟩
      exact ⟨_, rfl, _, suf, rfl, .cons h1 h2⟩
  induction p with
  | pure a =>
    intro v ev
    simp only [enforceEvents, calls, Option.some.injEq, true_iff]
    exact ⟨[], rfl, [], ev, rfl, .nil⟩
  | throw e => intro v ev; simp [enforceEvents, calls]
  | panic => intro v ev; simp [enforceEvents, calls]
  | alloc value k ih =>
    intro v ev
    cases value with
    | error e => simp [enforceEvents, calls]
    | ok x =>
      simp only [enforceEvents, calls]
      rw [cons]
      rcases ev with _ | ⟨e, ev⟩
      · simp
      · cases e <;> simp [ih, Event.Alike]
  | allocInput value k ih =>
    intro v ev
    cases value with
    | error e => simp [enforceEvents, calls]
    | ok x =>
      simp only [enforceEvents, calls]
      rw [cons]
      rcases ev with _ | ⟨e, ev⟩
      · simp
      · cases e <;> simp [ih, Event.Alike]
  | enforceZero lc k ih =>
    intro v ev
    simp only [enforceEvents, calls]
    rw [cons]
    rcases ev with _ | ⟨e, ev⟩
    · simp
    · cases e with
      | enforceZero other =>
        by_cases hs : sameLC other lc = true
        · simp [hs, ih, Event.Alike, (sameLC_iff other lc).1 hs]
        · have := (sameLC_iff other lc).not.1 hs
          simp [hs, Event.Alike, this]
      | _ => simp [Event.Alike]
  | multiply values k ih =>
    intro v ev
    cases values with
    | error e => simp [enforceEvents, calls]
    | ok x =>
      simp only [enforceEvents, calls]
      rw [cons]
      rcases ev with _ | ⟨e, ev⟩
      · simp
      · cases e <;> simp [ih, Event.Alike]

theorem determinismCheck_iff [Field F] (circuit : Var → Prog F Unit) :
    determinismCheck circuit = .ok () ↔
      ∃ c c', calls false (circuit (.A 0)) 1 = some c ∧ calls true (circuit (.A 0)) 1 = some c' ∧
        PrefixAlike c c' := by
  unfold determinismCheck
  cases hr : record (circuit (.A 0)) 1 [] with
  | error e =>
    simp only [bind, Except.bind]
    constructor
    · simp
    · rintro ⟨c, c', h1, -⟩
      rw [(record_eq _ _ _ c).2 ⟨c, h1, rfl⟩] at hr
      simp at hr
  | ok l =>
    obtain ⟨c, h1, rfl⟩ := (record_eq _ _ _ l).1 hr
    simp only [bind, Except.bind, enforceEvents_iff, h1, Option.some.injEq]
    constructor
    · rintro ⟨c', h2, h3⟩
      exact ⟨_, c', rfl, h2, h3⟩
    · rintro ⟨_, c', rfl, h2, h3⟩
      exact ⟨c', h2, h3⟩

end Circuit
end Halo
