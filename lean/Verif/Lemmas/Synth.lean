import Verif.Spec.System
/-!
# The synthesizer follows the constraint system of a circuit
-/
namespace Halo
namespace Circuit
variable {F β ι : Type} [Field F]

theorem Except.bind_ok {ε α β : Type} (a : α) (f : α → Except ε β) : (Except.ok a >>= f) = f a := rfl
theorem Except.bind_error {ε α β : Type} (e : ε) (f : α → Except ε β) :
    (Except.error e >>= f) = .error e := rfl

theorem collect_alloc_false {α : Type} (v : Except SynthesisError F) (k : Var → Option F → Prog F α)
    (s : System F) : collect false (.alloc v k) s =
      collect false (k (s.fresh 0).1 none) (s.fresh 0).2 := by cases v <;> rfl
theorem collect_alloc_ok {α : Type} (v : F) (k : Var → Option F → Prog F α)
    (s : System F) : collect true (.alloc (.ok v) k) s =
      collect true (k (s.fresh v).1 (some v)) (s.fresh v).2 := rfl
theorem collect_allocInput_false {α : Type} (v : Except SynthesisError F)
    (k : Var → Option F → Prog F α) (s : System F) : collect false (.allocInput v k) s =
      collect false (k (s.fresh 0).1 v.toOption) ((s.fresh 0).2.expose (s.fresh 0).1 v.toOption) := by
  cases v <;> rfl
theorem collect_allocInput_ok {α : Type} (v : F)
    (k : Var → Option F → Prog F α) (s : System F) : collect true (.allocInput (.ok v) k) s =
      collect true (k (s.fresh v).1 (some v)) ((s.fresh v).2.expose (s.fresh v).1 (some v)) := rfl
theorem collect_multiply_false {α : Type} (v : Except SynthesisError (F × F × F))
    (k : Var → Var → Var → Option (F × F × F) → Prog F α) (s : System F) :
    collect false (.multiply v k) s =
      collect false (k (.A (s.gates + 1)) (.B (s.gates + 1)) (.C (s.gates + 1)) none)
        (s.gate (0, 0, 0)) := by cases v <;> rfl
theorem collect_multiply_ok {α : Type} (v : F × F × F)
    (k : Var → Var → Var → Option (F × F × F) → Prog F α) (s : System F) :
    collect true (.multiply (.ok v) k) s =
      collect true (k (.A (s.gates + 1)) (.B (s.gates + 1)) (.C (s.gates + 1)) (some v))
        (s.gate v) := rfl

/-- The synthesizer with backend `B` follows the system, state by state related by `R`.  It can
panic in a linear constraint only if the system is not `Good`. -/
structure Sim (known : Bool) (B : Backend F β ι) (R : System F → Driver β → Prop)
    (Good : System F → Prop) : Prop where
  alloc_ok : known = true → ∀ {s d} (v : F), R s d →
    ∃ d', Basic.alloc B d (.ok v) = .ok (((s.fresh v).1, some v), d') ∧ R (s.fresh v).2 d'
  alloc_err : known = true → ∀ {s d} (e : SynthesisError), R s d →
    Basic.alloc B d (.error e) = .error (.err e)
  alloc_unknown : known = false → ∀ {s d} (v : Except SynthesisError F), R s d →
    ∃ d', Basic.alloc B d v = .ok (((s.fresh 0).1, none), d') ∧ R (s.fresh 0).2 d'
  enforce : ∀ {s d} (lc : LC F), R s d →
    (∃ d', Basic.enforceZero B d lc = .ok d' ∧ R (s.constrain lc) d') ∨
    (Basic.enforceZero B d lc = .error .panic ∧ ¬ Good (s.constrain lc))
  newK : ∀ {s d} (v : Option F), R s d → (known = true → v.isSome) →
    ∃ b, B.newK d.backend d.q v = .ok b ∧
      R { s with inputs := s.inputs ++ [(s.lcs.length, v)] } { d with backend := b }
  mul_ok : known = true → ∀ {s d} (v : F × F × F), R s d →
    ∃ d', Basic.multiply B d (.ok v) =
      .ok ((.A (s.gates + 1), .B (s.gates + 1), .C (s.gates + 1), some v), d') ∧ R (s.gate v) d'
  mul_err : known = true → ∀ {s d} (e : SynthesisError), R s d →
    Basic.multiply B d (.error e) = .error (.err e)
  mul_unknown : known = false → ∀ {s d} (v : Except SynthesisError (F × F × F)), R s d →
    ∃ d', Basic.multiply B d v =
      .ok ((.A (s.gates + 1), .B (s.gates + 1), .C (s.gates + 1), none), d') ∧
      R (s.gate (0, 0, 0)) d'
  good_fresh : ∀ {s : System F} {v}, Good (s.fresh v).2 → Good s
  good_constrain : ∀ {s : System F} {lc}, Good (s.constrain lc) → Good s
  good_gate : ∀ {s : System F} {v}, Good (s.gate v) → Good s
  good_inputs : ∀ {s : System F} {l}, Good { s with inputs := l } ↔ Good s

/-- What it means that a run of the synthesizer follows a run of `collect`. -/
def Follows {α : Type} (R : System F → Driver β → Prop) (Good : System F → Prop)
    (x : Except Fail (α × Driver β)) (y : Except Fail (α × System F)) : Prop :=
  match x, y with
  | .ok (a, d), .ok (a', s) => a = a' ∧ R s d
  | .error e, .error e' => e = e' ∨ e = .panic
  | .error e, .ok (_, s) => e = .panic ∧ ¬ Good s
  | .ok _, .error _ => False

namespace Sim
variable {known : Bool} {B : Backend F β ι} {R : System F → Driver β → Prop}
  {Good : System F → Prop}

theorem good_collect (h : Sim known B R Good) {α : Type} (p : Prog F α) :
    ∀ (s : System F) {a s'}, collect known p s = .ok (a, s') → Good s' → Good s := by
  have hin : ∀ {s : System F} {l}, Good { s with inputs := l } → Good s := h.good_inputs.1
  induction p with
  | pure a =>
    intro s a s' hc hg
    simp only [collect, Except.ok.injEq, Prod.mk.injEq] at hc
    rw [hc.2]; exact hg
  | throw e => intro s a s' hc; simp [collect] at hc
  | panic => intro s a s' hc; simp [collect] at hc
  | alloc v k ih =>
    intro s a s' hc hg
    cases known
    · rw [collect_alloc_false] at hc
      exact h.good_fresh (ih _ _ _ hc hg)
    · cases v with
      | error e => simp [collect] at hc
      | ok v => exact h.good_fresh (ih _ _ _ (collect_alloc_ok v k s ▸ hc) hg)
  | allocInput v k ih =>
    intro s a s' hc hg
    cases known
    · rw [collect_allocInput_false] at hc
      exact h.good_fresh (h.good_constrain (hin (ih _ _ _ hc hg)))
    · cases v with
      | error e => simp [collect] at hc
      | ok v => exact h.good_fresh (h.good_constrain (hin (ih _ _ _ hc hg)))
  | enforceZero lc k ih =>
    intro s a s' hc hg
    exact h.good_constrain (ih _ hc hg)
  | multiply v k ih =>
    intro s a s' hc hg
    cases known
    · rw [collect_multiply_false] at hc
      exact h.good_gate (ih _ _ _ _ _ hc hg)
    · cases v with
      | error e => simp [collect] at hc
      | ok v => exact h.good_gate (ih _ _ _ _ _ hc hg)

theorem follows_panic (h : Sim known B R Good) {α : Type} (p : Prog F α) {s : System F}
    (hs : ¬ Good s) : Follows R Good (.error .panic) (collect known p s) := by
  cases hc : collect known p s with
  | error e => exact .inr rfl
  | ok x => exact ⟨rfl, fun hg => hs (h.good_collect p s hc hg)⟩

/-- Allocating a public input -/
theorem allocInput (h : Sim known B R Good) {s : System F} {d : Driver β}
    (value : Except SynthesisError F) {x : F} {o : Option F} {d1 : Driver β}
    (ha : Basic.alloc B d value = .ok (((s.fresh x).1, o), d1)) (hR : R (s.fresh x).2 d1)
    (hv : known = true → value.toOption.isSome) :
    (∃ d', Basic.allocInput B d value = .ok (((s.fresh x).1, value.toOption), d') ∧
      R ((s.fresh x).2.expose (s.fresh x).1 value.toOption) d') ∨
    (Basic.allocInput B d value = .error .panic ∧
      ¬ Good ((s.fresh x).2.expose (s.fresh x).1 value.toOption)) := by
  have hlc : (LC.zero.addVar (s.fresh x).1 : LC F) = ⟨[((s.fresh x).1, .one)]⟩ := rfl
  simp only [Basic.allocInput, ha, Except.bind_ok]
  rcases h.enforce (LC.zero.addVar (s.fresh x).1) hR with ⟨d2, h2, hR2⟩ | ⟨h2, hb⟩
  · left
    obtain ⟨b, hb, hR3⟩ := h.newK value.toOption hR2 hv
    simp only [h2, Except.bind_ok, hb]
    exact ⟨_, rfl, hR3⟩
  · right
    simp only [h2, Except.bind_error, true_and]
    intro hg
    exact hb (h.good_inputs.1 hg)

/-- A run of the synthesizer follows the system of the program. -/
theorem run_follows (h : Sim known B R Good) {α : Type} (p : Prog F α) :
    ∀ {s d}, R s d → Follows R Good (Basic.run B p d) (collect known p s) := by
  induction p with
  | pure a => intro s d hR; exact ⟨rfl, hR⟩
  | throw e => intro s d _; exact .inl rfl
  | panic => intro s d _; exact .inl rfl
  | alloc v k ih =>
    intro s d hR
    cases hk : known with
    | false =>
      obtain ⟨d', h1, h2⟩ := h.alloc_unknown hk v hR
      simp only [Basic.run, h1, Except.bind_ok, collect_alloc_false]
      exact hk ▸ ih _ _ h2
    | true =>
      cases v with
      | error e =>
        simp only [Basic.run, h.alloc_err hk e hR, collect, if_true, Except.bind_error]
        exact .inl rfl
      | ok v =>
        obtain ⟨d', h1, h2⟩ := h.alloc_ok hk v hR
        simp only [Basic.run, h1, Except.bind_ok, collect, if_true]
        exact hk ▸ ih _ _ h2
  | allocInput v k ih =>
    intro s d hR
    cases hk : known with
    | false =>
      obtain ⟨d', h1, h2⟩ := h.alloc_unknown hk v hR
      rcases h.allocInput v h1 h2 (by simp [hk]) with ⟨d2, h3, h4⟩ | ⟨h3, h4⟩
      · simp only [Basic.run, h3, Except.bind_ok, collect_allocInput_false]
        exact hk ▸ ih _ _ h4
      · simp only [Basic.run, h3, Except.bind_error, collect_allocInput_false]
        exact hk ▸ h.follows_panic _ h4
    | true =>
      cases v with
      | error e =>
        simp only [Basic.run, Basic.allocInput, h.alloc_err hk e hR, collect, if_true,
          Except.bind_error]
        exact .inl rfl
      | ok v =>
        obtain ⟨d', h1, h2⟩ := h.alloc_ok hk v hR
        rcases h.allocInput (.ok v) h1 h2 (by simp [Except.toOption]) with ⟨d2, h3, h4⟩ | ⟨h3, h4⟩
        · simp only [Basic.run, h3, Except.bind_ok, collect, if_true]
          exact hk ▸ ih _ _ h4
        · simp only [Basic.run, h3, Except.bind_error, collect, if_true]
          exact hk ▸ h.follows_panic _ h4
  | enforceZero lc k ih =>
    intro s d hR
    rcases h.enforce lc hR with ⟨d', h1, h2⟩ | ⟨h1, h2⟩
    · simp only [Basic.run, h1, Except.bind_ok, collect]
      exact ih h2
    · simp only [Basic.run, h1, Except.bind_error, collect]
      exact h.follows_panic _ h2
  | multiply v k ih =>
    intro s d hR
    cases hk : known with
    | false =>
      obtain ⟨d', h1, h2⟩ := h.mul_unknown hk v hR
      simp only [Basic.run, h1, Except.bind_ok, collect_multiply_false]
      exact hk ▸ ih _ _ _ _ h2
    | true =>
      cases v with
      | error e =>
        simp only [Basic.run, h.mul_err hk e hR, collect, if_true, Except.bind_error]
        exact .inl rfl
      | ok v =>
        obtain ⟨d', h1, h2⟩ := h.mul_ok hk v hR
        simp only [Basic.run, h1, Except.bind_ok, collect, if_true]
        exact hk ▸ ih _ _ _ _ h2

/-- Synthesis follows the system of the circuit. -/
theorem synthesize_follows (h : Sim known B R Good) {α : Type} (circuit : Var → Prog F α) {b : β}
    (hR : R System.empty ⟨b, none, 0, 0⟩) :
    Follows R Good (Basic.synthesize B b circuit) (circuitSystem known circuit) := by
  have key : ∀ x : F, (if known then (1 : F) else 0) = x →
      (∃ o d1, Basic.alloc B ⟨b, none, 0, 0⟩ (.ok 1) = .ok ((((System.empty : System F).fresh x).1, o), d1) ∧
        R ((System.empty : System F).fresh x).2 d1) := by
    rintro x rfl
    cases hk : known with
    | false =>
      obtain ⟨d', h1, h2⟩ := h.alloc_unknown hk (.ok 1) hR
      exact ⟨_, d', h1, h2⟩
    | true =>
      obtain ⟨d', h1, h2⟩ := h.alloc_ok hk 1 hR
      exact ⟨_, d', h1, h2⟩
  obtain ⟨o, d1, h1, h2⟩ := key _ rfl
  rcases h.allocInput (.ok 1) h1 h2 (fun _ => rfl) with ⟨d2, h3, h4⟩ | ⟨h3, h4⟩
  · simp only [Basic.synthesize, h3, circuitSystem]
    exact h.run_follows _ h4
  · simp only [Basic.synthesize, h3, circuitSystem]
    exact h.follows_panic _ h4

/-- A completed synthesis has asked for what the circuit describes. -/
theorem synthesize_ok (h : Sim known B R Good) {α : Type} {circuit : Var → Prog F α} {b : β}
    (hR : R System.empty ⟨b, none, 0, 0⟩) {a : α} {d : Driver β}
    (hs : Basic.synthesize B b circuit = .ok (a, d)) :
    ∃ s, circuitSystem known circuit = .ok (a, s) ∧ R s d := by
  have := h.synthesize_follows circuit hR
  rw [hs] at this
  cases hc : circuitSystem known circuit with
  | error e => rw [hc] at this; exact this.elim
  | ok y =>
    rw [hc] at this
    exact ⟨y.2, by rw [this.1], this.2⟩

/-- Synthesis completes if the circuit does. -/
theorem synthesize_of_system (h : Sim known B R Good) {α : Type} {circuit : Var → Prog F α} {b : β}
    (hR : R System.empty ⟨b, none, 0, 0⟩) {a : α} {s : System F}
    (hs : circuitSystem known circuit = .ok (a, s)) (hg : Good s) :
    ∃ d, Basic.synthesize B b circuit = .ok (a, d) ∧ R s d := by
  have := h.synthesize_follows circuit hR
  rw [hs] at this
  cases hc : Basic.synthesize B b circuit with
  | error e => rw [hc] at this; exact (this.2 hg).elim
  | ok y =>
    rw [hc] at this
    exact ⟨y.2, by rw [← this.1], this.2⟩

end Sim
end Circuit
end Halo
