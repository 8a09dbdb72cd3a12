import Verif.Lemmas.Count
import Verif.Model.FieldConsts
/-!
# Counting constraints (C72)
-/
namespace Halo
namespace Circuit
variable {F : Type} [Field F]

/-- **C72**. `constraint_count` fails as the circuit does, and panics when a namespace with a slash in its name is left, also because of an
error, or one that has not been entered. Otherwise it returns, for a circuit that leaves the namespaces that it enters: for the empty path
the totals of the circuit, and for any other path the counts of the namespace with this path that was left last. -/
theorem C72_counts {α : Type} (circuit : Var → Named F α) :
    match tallyCircuit circuit with
    | .error e => constraintCount circuit = .error e
    | .ok (_, t) => t.entered = [] → ∃ counts, constraintCount circuit = .ok counts ∧
        counts [] = some t.totals ∧
        ∀ key, key ≠ [] → counts key = ((t.left.filter fun e => pathKey e.1 = key).getLast?).map Prod.snd := by
  have h0 : CountRel (⟨System.empty, 0, 0, [], []⟩ : Tally F) ⟨⟨fun _ => none, [], [], 0⟩, none, 0, 0⟩ :=
    ⟨rfl, rfl, rfl, rfl, fun _ => rfl⟩
  obtain ⟨d, h1, h2⟩ := count_input h0 (.ok 1)
  have h3 := count_run (circuit (.A 1)) (show CountRel (Tally.start : Tally F) d from h2)
  unfold constraintCount tallyCircuit
  rw [h1]
  simp only
  rw [if_pos (show ((System.empty : System F).fresh 0).1 = .A 1 from rfl)]
  cases ht : tally (circuit (.A 1)) (Tally.start : Tally F) with
  | error e =>
    rw [ht] at h3
    show (runCount (circuit (.A 1)) d >>= _) = _
    rw [show runCount (circuit (.A 1)) d = .error e from h3]
    rfl
  | ok x =>
    obtain ⟨a, t⟩ := x
    rw [ht] at h3
    obtain ⟨d', h4, h5⟩ := h3
    intro he
    refine ⟨_, by show (runCount (circuit (.A 1)) d >>= _) = _; rw [h4]; rfl, ?_, fun key hk => ?_⟩
    · have := h5.stack
      rw [he] at this
      cases hs : d'.backend.countStack.reverse with
      | nil =>
        rw [hs] at this
        have : t.totals = d'.backend.currentCounts := this
        simp [this]
      | cons r rs => rw [hs] at this; exact this.elim
    · simp only [hk, if_false]
      exact h5.counts key

theorem tally_collect {α : Type} (p : Named F α) : ∀ (t : Tally F) {a : α} {t' : Tally F}, tally p t = .ok (a, t') →
    collect false p.erase t.system = .ok (a, t'.system) := by
  induction p with
  | pure a =>
    intro t a t' h
    cases h
    rfl
  | throw e => intro t a t' h; simp only [tally] at h; split at h <;> cases h
  | panic => intro t a t' h; cases h
  | alloc name v k ih =>
    intro t a t' h
    rw [Named.erase, collect_alloc_false]
    exact ih _ _ _ h
  | allocInput name v k ih =>
    intro t a t' h
    rw [Named.erase, collect_allocInput_false]
    exact ih _ _ _ h
  | enforceZero lc k ih =>
    intro t a t' h
    exact ih _ h
  | multiply name v k ih =>
    intro t a t' h
    rw [Named.erase, collect_multiply_false]
    exact ih _ _ _ _ _ h
  | push name k ih => intro t a t' h; simp only [tally] at h; have := ih _ h; exact this
  | pop k ih =>
    intro t a t' h
    simp only [tally] at h
    cases he : t.entered with
    | nil => rw [he] at h; cases h
    | cons e outer =>
      rw [he] at h
      simp only at h
      by_cases hs : '/' ∈ e.1
      · rw [if_pos hs] at h; cases h
      · rw [if_neg hs] at h
        exact ih { t with entered := outer, left := _ } h

/-- **C72**, the totals: they are the numbers of gates and linear constraints of the system that is proved. -/
theorem C72_system {α : Type} {circuit : Var → Named F α} {a : α} {t : Tally F} (h : tallyCircuit circuit = .ok (a, t)) :
    circuitSystem false (fun one => (circuit one).erase) = .ok (a, t.system) := tally_collect _ _ h

omit [Field F] in
theorem balanced_bind {α β : Type} {p : Named F α} {f : α → Named F β} {e : ℕ} (hf : ∀ a, (f a).Balanced e) :
    ∀ {d : ℕ}, p.Balanced d → (p.bind f).Balanced (d + e) := by
  induction p with
  | pure a => intro d h; cases h; simpa [Named.bind] using hf a
  | throw e => intro d h; trivial
  | panic => intro d h; trivial
  | alloc name v k ih => intro d h x o; exact ih x o (h x o)
  | allocInput name v k ih => intro d h x o; exact ih x o (h x o)
  | enforceZero lc k ih => intro d h; exact ih h
  | multiply name v k ih => intro d h a b c o; exact ih a b c o (h a b c o)
  | push name k ih =>
    intro d h
    have := ih h
    rwa [Nat.add_right_comm] at this
  | pop k ih =>
    intro d h
    have := ih h.2
    exact ⟨by have := h.1; omega, by rwa [show d + e - 1 = d - 1 + e by have := h.1; omega]⟩

omit [Field F] in
/-- **C72**, namespaces: what `namespace` makes of a circuit leaves what it enters. -/
theorem C72_within {α : Type} {name : Name} {p : Named F α} (h : p.Balanced 0) : (Named.within name p).Balanced 0 :=
  balanced_bind (f := fun a => .pop (.pure a)) (e := 1) (fun _ => ⟨one_pos, rfl⟩) h

theorem tally_balanced {α : Type} (p : Named F α) : ∀ {t : Tally F} {a : α} {t' : Tally F}, p.Balanced t.entered.length →
    tally p t = .ok (a, t') → t'.entered = [] := by
  induction p with
  | pure a =>
    intro t a t' hb h
    cases h
    exact List.length_eq_zero_iff.1 hb
  | throw e => intro t a t' _ h; simp only [tally] at h; split at h <;> cases h
  | panic => intro t a t' _ h; cases h
  | alloc name v k ih => intro t a t' hb h; simp only [tally] at h; exact ih _ _ (by exact hb _ _) h
  | allocInput name v k ih => intro t a t' hb h; simp only [tally] at h; exact ih _ _ (by exact hb _ _) h
  | enforceZero lc k ih => intro t a t' hb h; simp only [tally] at h; exact ih (by exact hb) h
  | multiply name v k ih => intro t a t' hb h; simp only [tally] at h; exact ih _ _ _ _ (by exact hb _ _ _ _) h
  | push name k ih => intro t a t' hb h; simp only [tally] at h; exact ih (by exact hb) h
  | pop k ih =>
    intro t a t' hb h
    simp only [tally] at h
    cases he : t.entered with
    | nil => rw [he] at h; cases h
    | cons e outer =>
      rw [he] at h hb
      simp only at h
      by_cases hs : '/' ∈ e.1
      · rw [if_pos hs] at h; cases h
      · rw [if_neg hs] at h
        exact ih (by exact hb.2) h

/-- **C72**, circuits that use `namespace` meet the hypothesis of `C72_counts`. -/
theorem C72_balanced {α : Type} {circuit : Var → Named F α} (hb : (circuit (.A 1)).Balanced 0) {a : α} {t : Tally F}
    (h : tallyCircuit circuit = .ok (a, t)) : t.entered = [] := tally_balanced _ (t := ⟨_, _, _, [], _⟩) hb h

/-- **C72**, paths: different paths have different keys, if there is no slash in the names; only the key of the whole circuit
is also that of a namespace without a name. -/
theorem C72_paths {p q : List Name} (hp : ∀ n ∈ p, '/' ∉ n) (hq : ∀ n ∈ q, '/' ∉ n) (hp0 : p ≠ []) (hq0 : q ≠ [])
    (h : pathKey p = pathKey q) : p = q := by
  have h1 := List.splitOn_intercalate '/' hp hp0
  have h2 := List.splitOn_intercalate '/' hq hq0
  rw [← h1, ← h2]
  exact congrArg _ h

/-- How the numbers hang together: a gate is used for two allocations or one multiplication. -/
structure GatesOk (t : Tally F) : Prop where
  gates : t.system.gates = t.multiplications + (t.allocations + 1) / 2
  half : t.system.half.isSome = true ↔ t.allocations % 2 = 1
  entered : ∀ e ∈ t.entered, e.2.totalMults = e.2.multConstraints + (e.2.allocations + 1) / 2 ∧
    e.2.allocations ≤ t.allocations ∧ e.2.multConstraints ≤ t.multiplications
  left : ∀ e ∈ t.left, e.2.multConstraints ≤ e.2.totalMults ∧
    2 * (e.2.totalMults - e.2.multConstraints) ≤ e.2.allocations + 1 ∧
    e.2.allocations ≤ 2 * (e.2.totalMults - e.2.multConstraints) + 1

theorem GatesOk.fresh {t : Tally F} (h : GatesOk t) :
    GatesOk { t with system := (t.system.fresh 0).2, allocations := t.allocations + 1 } := by
  have h1 := h.gates
  have h2 := h.half
  unfold System.fresh
  cases hh : t.system.half with
  | none =>
    rw [hh] at h2
    simp only [Option.isSome_none, Bool.false_eq_true, false_iff] at h2
    refine ⟨?_, ?_, fun e he => ⟨(h.entered e he).1, by have := h.entered e he; simp only; omega, (h.entered e he).2.2⟩, h.left⟩
    · simp only; omega
    · simp only [Option.isSome_some, true_iff]; omega
  | some i =>
    rw [hh] at h2
    simp only [Option.isSome_some, true_iff] at h2
    refine ⟨?_, ?_, fun e he => ⟨(h.entered e he).1, by have := h.entered e he; simp only; omega, (h.entered e he).2.2⟩, h.left⟩
    · simp only; omega
    · simp only [Option.isSome_none, Bool.false_eq_true, false_iff]; omega

theorem tally_gates {α : Type} (p : Named F α) : ∀ {t : Tally F} {a : α} {t' : Tally F}, GatesOk t →
    tally p t = .ok (a, t') → GatesOk t' := by
  induction p with
  | pure a =>
    intro t a t' hg h
    cases h
    exact hg
  | throw e => intro t a t' _ h; simp only [tally] at h; split at h <;> cases h
  | panic => intro t a t' _ h; cases h
  | alloc name v k ih => intro t a t' hg h; exact ih _ _ hg.fresh h
  | allocInput name v k ih =>
    intro t a t' hg h
    simp only [tally] at h
    refine ih _ _ ?_ h
    exact ⟨hg.fresh.gates, hg.fresh.half, hg.fresh.entered, hg.left⟩
  | enforceZero lc k ih => intro t a t' hg h; simp only [tally] at h; refine ih ?_ h; exact ⟨hg.gates, hg.half, hg.entered, hg.left⟩
  | multiply name v k ih =>
    intro t a t' hg h
    simp only [tally] at h
    refine ih _ _ _ _ ?_ h
    refine ⟨?_, hg.half, fun e he => ?_, hg.left⟩
    · have := hg.gates
      simp only [System.gate]; omega
    · obtain ⟨h1, h2, h3⟩ := hg.entered e he
      exact ⟨h1, h2, by simp only; omega⟩
  | push name k ih =>
    intro t a t' hg h
    simp only [tally] at h
    refine ih ?_ h
    refine ⟨hg.gates, hg.half, fun e he => ?_, hg.left⟩
    rcases List.mem_cons.1 he with rfl | he
    · exact ⟨hg.gates, le_rfl, le_rfl⟩
    · exact hg.entered e he
  | pop k ih =>
    intro t a t' hg h
    simp only [tally] at h
    cases he : t.entered with
    | nil => rw [he] at h; cases h
    | cons e outer =>
      rw [he] at h
      simp only at h
      by_cases hs : '/' ∈ e.1
      · rw [if_pos hs] at h; cases h
      · rw [if_neg hs] at h
        refine ih ?_ h
        refine ⟨hg.gates, hg.half, fun e' he' => hg.entered e' (by rw [he]; exact List.mem_cons_of_mem _ he'), fun e' he' => ?_⟩
        rcases List.mem_append.1 he' with he' | he'
        · exact hg.left e' he'
        · rw [List.mem_singleton] at he'
          subst he'
          obtain ⟨h1, h2, h3⟩ := hg.entered e (by rw [he]; exact List.mem_cons_self)
          have h4 := hg.gates
          simp only [Tally.since]
          omega

/-- **C72**, gates: in all there is one for each multiplication and for each two allocations. For a namespace this is only so up to
half a gate, as one may have been left over for it or by it: the same gadget can be counted differently in different places. -/
theorem C72_gates {α : Type} {circuit : Var → Named F α} {a : α} {t : Tally F} (h : tallyCircuit circuit = .ok (a, t)) :
    t.totals.totalMults = t.totals.multConstraints + (t.totals.allocations + 1) / 2 ∧
    ∀ e ∈ t.left, e.2.multConstraints ≤ e.2.totalMults ∧
      2 * (e.2.totalMults - e.2.multConstraints) ≤ e.2.allocations + 1 ∧
      e.2.allocations ≤ 2 * (e.2.totalMults - e.2.multConstraints) + 1 := by
  have h0 : GatesOk (Tally.start : Tally F) := by
    refine ⟨?_, ?_, nofun, nofun⟩ <;>
      simp [Tally.start, System.fresh, System.expose, System.constrain, System.empty]
  have := tally_gates _ h0 h
  exact ⟨this.gates, this.left⟩

/-- a gadget with one allocation and a product -/
def someGadget (F : Type) (name : Name) : Named F Unit :=
  .within name (.alloc ['v'] (.error .assignmentMissing) fun _ _ => .multiply ['g'] (.error .assignmentMissing) fun _ _ _ _ => .pure ())

/-- a circuit that uses it twice, within another namespace, with the same name or not -/
def someCircuit (F : Type) (name : Name) (_ : Var) : Named F Unit :=
  .within ['o'] ((someGadget F ['i']).bind fun _ => (someGadget F name).bind fun _ => .enforceZero ⟨[]⟩ (.pure ()))

/-- The hypotheses of C72 are met by this circuit. The first gadget takes the other half of the gate of the constant one, the second one does not. -/
example : (someCircuit F ['j'] (.A 1)).Balanced 0 ∧ ∃ t, tallyCircuit (someCircuit F ['j']) = .ok ((), t) ∧
    t.entered = [] ∧ t.totals = ⟨3, 2, 4, 2⟩ ∧
    t.left = [([['o'], ['i']], ⟨1, 1, 1, 0⟩), ([['o'], ['j']], ⟨1, 1, 2, 0⟩), ([['o']], ⟨2, 2, 3, 1⟩)] := by
  refine ⟨?_, _, rfl, rfl, rfl, rfl⟩
  simp [someCircuit, someGadget, Named.within, Named.bind, Named.Balanced]

/-- With the same name twice, only the second one is reported. -/
example : ∃ counts, constraintCount (someCircuit F ['i']) = .ok counts ∧ counts ['o', '/', 'i'] = some ⟨1, 1, 2, 0⟩ ∧
    counts [] = some ⟨3, 2, 4, 2⟩ := by
  obtain ⟨counts, h1, h2, h3⟩ := C72_counts (someCircuit F ['i']) rfl
  exact ⟨counts, h1, by rw [h3 _ (by simp)]; rfl, h2⟩

end Circuit
end Halo
