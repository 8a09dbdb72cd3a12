import Verif.Lemmas.Gadget.Closed
import Verif.Spec.Gadget.Twin
import Verif.Model.Gadget.Sha256
/-!
# Programs that ask for the same constraints, whatever values they know
-/
set_option linter.unusedSectionVars false
namespace Halo
namespace Circuit
variable {F : Type} {α β γ δ : Type} {V : Var → Prop}

theorem Blind.mono {p : Prog F β} {P Q : β → Prop} (h : ∀ b, P b → Q b) : Blind V p P → Blind V p Q := by
  induction p with
  | pure b => exact h b
  | throw e => exact id
  | panic => exact id
  | alloc v k ih => exact fun hp x hx => ih x _ (hp x hx)
  | allocInput v k ih => exact False.elim
  | enforceZero lc k ih => exact fun hp => ⟨hp.1, ih hp.2⟩
  | multiply v k ih => exact fun hp a b c ha hb hc => ih a b c _ (hp a b c ha hb hc)

theorem Blind.bind {p : Prog F β} {f : β → Prog F δ} {P : β → Prop} {Q : δ → Prop}
    (hf : ∀ b, P b → Blind V (f b) Q) : Blind V p P → Blind V (p.bind f) Q := by
  induction p with
  | pure b => exact hf b
  | throw e => exact id
  | panic => exact id
  | alloc v k ih => exact fun hp x hx => ih x _ (hp x hx)
  | allocInput v k ih => exact False.elim
  | enforceZero lc k ih => exact fun hp => ⟨hp.1, ih hp.2⟩
  | multiply v k ih => exact fun hp a b c ha hb hc => ih a b c _ (hp a b c ha hb hc)

theorem Twin.blind {p : Prog F α} : ∀ {p' : Prog F β} {R : α → β → Prop}, Twin V p p' R →
    Blind V p' fun b => ∃ a, R a b := by
  induction p with
  | throw e => exact id
  | panic => exact id
  | pure a =>
    intro p' R h
    cases p' <;> first | exact ⟨a, h⟩ | exact h.elim
  | alloc v k ih =>
    intro p' R h
    cases p' <;> first | exact fun x hx => ih x none (h x none hx) | exact h.elim
  | allocInput v k ih => exact False.elim
  | enforceZero lc k ih =>
    intro p' R h
    cases p' <;> first | exact ⟨h.1 ▸ h.2.1, ih h.2.2⟩ | exact h.elim
  | multiply v k ih =>
    intro p' R h
    cases p' <;> first | exact fun a b c ha hb hc => ih a b c none (h a b c none ha hb hc) | exact h.elim

theorem Twin.mono {R T : α → β → Prop} (h : ∀ a b, R a b → T a b) {p : Prog F α} :
    ∀ {p' : Prog F β}, Twin V p p' R → Twin V p p' T := by
  induction p with
  | throw e => exact Blind.mono fun b ⟨a, ha⟩ => ⟨a, h a b ha⟩
  | panic => exact Blind.mono fun b ⟨a, ha⟩ => ⟨a, h a b ha⟩
  | pure a =>
    intro p' hp
    cases p' <;> first | exact h _ _ hp | exact hp.elim
  | alloc v k ih =>
    intro p' hp
    cases p' <;> first | exact fun x o hx => ih x o (hp x o hx) | exact hp.elim
  | allocInput v k ih => exact False.elim
  | enforceZero lc k ih =>
    intro p' hp
    cases p' <;> first | exact ⟨hp.1, hp.2.1, ih hp.2.2⟩ | exact hp.elim
  | multiply v k ih =>
    intro p' hp
    cases p' <;> first | exact fun a b c o ha hb hc => ih a b c o (hp a b c o ha hb hc) | exact hp.elim

theorem Twin.bind {f : α → Prog F γ} {f' : β → Prog F δ} {R : α → β → Prop} {T : γ → δ → Prop}
    {p : Prog F α} : ∀ {p' : Prog F β}, Twin V p p' R →
    (∀ a b, R a b → Twin V (f a) (f' b) T) → Twin V (p >>= f) (p' >>= f') T := by
  induction p with
  | throw e => exact fun hp hf => Blind.bind (fun b ⟨a, ha⟩ => (hf a b ha).blind) hp
  | panic => exact fun hp hf => Blind.bind (fun b ⟨a, ha⟩ => (hf a b ha).blind) hp
  | pure a =>
    intro p' hp hf
    cases p' <;> first | exact hf _ _ hp | exact hp.elim
  | alloc v k ih =>
    intro p' hp hf
    cases p' <;> first | exact fun x o hx => ih x o (hp x o hx) hf | exact hp.elim
  | allocInput v k ih => exact fun hp _ => hp.elim
  | enforceZero lc k ih =>
    intro p' hp hf
    cases p' <;> first | exact ⟨hp.1, hp.2.1, ih hp.2.2 hf⟩ | exact hp.elim
  | multiply v k ih =>
    intro p' hp hf
    cases p' <;> first | exact fun a b c o ha hb hc => ih a b c o (hp a b c o ha hb hc) hf | exact hp.elim

theorem Twin.ret {a : α} {b : β} {R : α → β → Prop} (h : R a b) :
    Twin V (Pure.pure a : Prog F α) (Pure.pure b) R := h

/-- The two states agree, except for values. -/
structure System.Like (s s' : System F) : Prop where
  gates : s.gates = s'.gates
  half : s.half = s'.half
  lcs : s.lcs = s'.lcs
  inputs : (s.inputs.map fun p => p.1) = s'.inputs.map fun p => p.1
  wellScoped : s.wellScoped = s'.wellScoped

namespace System.Like
variable {s s' : System F} (h : s.Like s')
include h

theorem constrain (lc : LC F) : (s.constrain lc).Like (s'.constrain lc) :=
  ⟨h.gates, h.half, by simp [System.constrain, h.lcs], h.inputs, by
    simp [System.constrain, h.wellScoped, h.gates]⟩

theorem gate (v v' : F × F × F) : (s.gate v).Like (s'.gate v') :=
  ⟨by simp [System.gate, h.gates], h.half, h.lcs, h.inputs, h.wellScoped⟩

variable [Field F]

theorem fresh (v v' : F) : (s.fresh v).1 = (s'.fresh v').1 ∧ (s.fresh v).2.Like (s'.fresh v').2 := by
  unfold System.fresh
  rw [h.half]
  cases s'.half with
  | some i => exact ⟨rfl, h.gates, rfl, h.lcs, h.inputs, h.wellScoped⟩
  | none => exact ⟨by rw [h.gates], by simp only [h.gates], by simp only [h.gates], h.lcs, h.inputs, h.wellScoped⟩

theorem expose (x : Var) (o o' : Option F) : (s.expose x o).Like (s'.expose x o') := by
  have := h.constrain ⟨[(x, .one)]⟩
  exact ⟨this.gates, this.half, this.lcs, by
    simp only [System.expose, List.map_append, List.map_cons, List.map_nil]
    rw [this.inputs, this.lcs], this.wellScoped⟩

end System.Like

/-- The variable belongs to a gate that exists. -/
def System.Scope (s : System F) (v : Var) : Prop := 0 < v.index ∧ v.index ≤ s.gates

/-- A gate that is half handed out exists. -/
def System.HalfOk (s : System F) : Prop := ∀ i, s.half = some i → 0 < i ∧ i ≤ s.gates

theorem fresh_scope [Field F] {s : System F} (h : s.HalfOk) (v : F) :
    (s.fresh v).2.HalfOk ∧ (s.fresh v).2.Scope (s.fresh v).1 ∧ ∀ x, s.Scope x → (s.fresh v).2.Scope x := by
  unfold System.fresh
  cases hh : s.half with
  | some i => exact ⟨by simp [System.HalfOk], h i hh, fun x hx => hx⟩
  | none =>
    refine ⟨by simp [System.HalfOk], ⟨by simp [Var.index], by simp [Var.index]⟩, fun x hx => ⟨hx.1, ?_⟩⟩
    have := hx.2
    simp only
    omega

theorem gate_scope {s : System F} (h : s.HalfOk) (v : F × F × F) :
    (s.gate v).HalfOk ∧ (∀ x, x.index = s.gates + 1 → (s.gate v).Scope x) ∧
      ∀ x, s.Scope x → (s.gate v).Scope x := by
  refine ⟨fun i hi => ?_, fun x hx => ?_, fun x hx => ?_⟩
  · have := h i hi
    simp only [System.gate]
    omega
  · simp only [System.Scope, System.gate]
    omega
  · have := hx.1
    have := hx.2
    simp only [System.Scope, System.gate]
    omega

theorem constrain_scoped {s : System F} {lc : LC F} (hw : s.wellScoped = true) (h : lc.In s.Scope) :
    (s.constrain lc).wellScoped = true := by
  simp only [System.constrain, hw, Bool.true_and, List.all_eq_true, Bool.and_eq_true, decide_eq_true_eq]
  exact fun t ht => h t ht

section collect
variable [Field F]

omit [Field F] in
theorem expose_scoped {s : System F} {x : Var} {o : Option F} (hw : s.wellScoped = true) (h : s.Scope x) :
    (s.expose x o).wellScoped = true :=
  constrain_scoped (lc := ⟨[(x, .one)]⟩) hw fun t ht => by simp at ht; subst ht; exact h

theorem Blind.collect {Q : β → Prop} (p : Prog F β) :
    ∀ {s : System F}, s.HalfOk → s.wellScoped = true →
      (∀ V, (∀ v, s.Scope v → V v) → Blind V p Q) →
      ∃ b t, Circuit.collect false p s = .ok (b, t) ∧ Q b ∧ t.wellScoped = true ∧ t.inputs = s.inputs := by
  induction p with
  | pure b => exact fun {s} _ hw hp => ⟨b, s, rfl, hp s.Scope (fun _ h => h), hw, rfl⟩
  | throw e => exact fun {s} _ _ hp => (hp s.Scope fun _ h => h).elim
  | panic => exact fun {s} _ _ hp => (hp s.Scope fun _ h => h).elim
  | alloc v k ih =>
    intro s hh hw hp
    obtain ⟨h1, h2, h3⟩ := fresh_scope hh 0
    rw [collect_alloc_false, ← (fresh_inputs s 0).1]
    exact ih _ _ h1 (by unfold System.fresh; cases s.half <;> exact hw)
      fun V hV => hp V (fun x hx => hV x (h3 x hx)) _ (hV _ h2)
  | allocInput v k ih => exact fun {s} _ _ hp => (hp s.Scope fun _ h => h).elim
  | enforceZero lc k ih =>
    intro s hh hw hp
    exact ih (s := s.constrain lc) hh (constrain_scoped hw (hp s.Scope fun _ h => h).1)
      fun V hV => (hp V hV).2
  | multiply v k ih =>
    intro s hh hw hp
    obtain ⟨h1, h2, h3⟩ := gate_scope hh (0, 0, 0)
    rw [collect_multiply_false]
    exact ih _ _ _ _ (s := s.gate (0, 0, 0)) h1 hw fun V hV => hp V (fun x hx => hV x (h3 x hx)) _ _ _
      (hV _ (h2 _ rfl)) (hV _ (h2 _ rfl)) (hV _ (h2 _ rfl))

theorem Twin.collect {R : α → β → Prop} (p : Prog F α) :
    ∀ {p' : Prog F β} {known : Bool} {s s' t : System F} {a : α}, s'.HalfOk → s.Like s' →
      (∀ V, (∀ v, s'.Scope v → V v) → Twin V p p' R) → Circuit.collect known p s = .ok (a, t) →
      ∃ b t', Circuit.collect false p' s' = .ok (b, t') ∧ R a b ∧ t.Like t' ∧ t.inputs = s.inputs := by
  induction p with
  | throw e => intro p' known s s' t a hh hl hp h; simp [Circuit.collect] at h
  | panic => intro p' known s s' t a hh hl hp h; simp [Circuit.collect] at h
  | pure a =>
    intro p' known s s' t a' hh hl hp h
    have := hp s'.Scope fun _ h => h
    simp only [Circuit.collect, Except.ok.injEq, Prod.mk.injEq] at h
    obtain ⟨rfl, rfl⟩ := h
    cases p' <;> first | exact ⟨_, _, rfl, this, hl, rfl⟩ | exact this.elim
  | alloc v k ih =>
    intro p' known s s' t a' hh hl hp h
    have := hp s'.Scope fun _ h => h
    obtain ⟨h1, h2, h3⟩ := fresh_scope hh (0 : F)
    cases p' with
    | alloc v' k' =>
      rw [collect_alloc_false]
      have step : ∀ u o, Circuit.collect known (k (s.fresh u).1 o) (s.fresh u).2 = .ok (a', t) →
          ∃ b t', Circuit.collect false (k' (s'.fresh 0).1 none) (s'.fresh 0).2 = .ok (b, t') ∧ R a' b ∧
            t.Like t' ∧ t.inputs = s.inputs := by
        intro u o h
        obtain ⟨e1, e2⟩ := hl.fresh u 0
        rw [e1] at h
        rw [← (fresh_inputs s u).1]
        exact ih _ _ h1 e2 (fun V hV => hp V (fun x hx => hV x (h3 x hx)) _ _ (hV _ h2)) h
      cases known
      · rw [collect_alloc_false] at h
        exact step _ _ h
      · cases v with
        | error e => simp [Circuit.collect] at h
        | ok v => exact step _ _ h
    | _ => exact this.elim
  | allocInput v k ih => intro p' known s s' t a' hh hl hp h; exact (hp s'.Scope fun _ h => h).elim
  | enforceZero lc k ih =>
    intro p' known s s' t a' hh hl hp h
    have := hp s'.Scope fun _ h => h
    cases p' with
    | enforceZero lc' k' =>
      obtain ⟨rfl, h1, h2⟩ := this
      exact ih (s := s.constrain lc) (s' := s'.constrain lc) hh (hl.constrain lc) (fun V hV => (hp V hV).2.2) h
    | _ => exact this.elim
  | multiply v k ih =>
    intro p' known s s' t a' hh hl hp h
    have := hp s'.Scope fun _ h => h
    obtain ⟨h1, h2, h3⟩ := gate_scope hh ((0, 0, 0) : F × F × F)
    cases p' with
    | multiply v' k' =>
      rw [collect_multiply_false]
      have step : ∀ u o, Circuit.collect known (k (.A (s.gates + 1)) (.B (s.gates + 1)) (.C (s.gates + 1)) o)
            (s.gate u) = .ok (a', t) →
          ∃ b t', Circuit.collect false (k' (.A (s'.gates + 1)) (.B (s'.gates + 1)) (.C (s'.gates + 1)) none)
            (s'.gate (0, 0, 0)) = .ok (b, t') ∧ R a' b ∧ t.Like t' ∧ t.inputs = s.inputs := by
        intro u o h
        rw [hl.gates] at h
        exact ih _ _ _ _ (s := s.gate u) h1 (hl.gate u _) (fun V hV => hp V (fun x hx => hV x (h3 x hx)) _ _ _ _
          (hV _ (h2 _ rfl)) (hV _ (h2 _ rfl)) (hV _ (h2 _ rfl))) h
      cases known
      · rw [collect_multiply_false] at h
        exact step _ _ h
      · cases v with
        | error e => simp [Circuit.collect] at h
        | ok v => exact step _ _ h
    | _ => exact this.elim

/-- The numbers of the constraints of public inputs -/
def System.positions (s : System F) : List ℕ := s.inputs.map fun p => p.1

theorem TwinIn.collect {R : α → β → Prop} (vs : List F) :
    ∀ {p : Prog F α} {p' : Prog F β} {s s' : System F}, s'.HalfOk → s.Like s' → s'.wellScoped = true →
      (∀ V, (∀ v, s'.Scope v → V v) → TwinIn V vs p p' R) →
      ∃ b t', Circuit.collect false p' s' = .ok (b, t') ∧ t'.wellScoped = true ∧
        t'.positions = s'.positions ++ List.range' (s'.lcs.length + 1) vs.length ∧
        ∀ known a t, Circuit.collect known p s = .ok (a, t) → R a b ∧ t.Like t' ∧
          t.inputs = s.inputs ++ (List.range' (s'.lcs.length + 1) vs.length).zip (vs.map some) := by
  induction vs with
  | nil =>
    intro p p' s s' hh hl hw h
    obtain ⟨b, t', e1, -, e2, e3⟩ := Blind.collect p' hh hw fun V hV => (h V hV).blind
    refine ⟨b, t', e1, e2, by simp [System.positions, e3], fun known a t ht => ?_⟩
    obtain ⟨b', t'', e3, e4, e5, e6⟩ := Twin.collect (R := R) p hh hl h ht
    cases e1.symm.trans e3
    exact ⟨e4, e5, by simp [e6]⟩
  | cons v vs ih =>
    intro p p' s s' hh hl hw h
    have h0 := h s'.Scope fun _ h => h
    cases p with
    | allocInput u k =>
      cases u with
      | error e => exact h0.elim
      | ok u =>
        cases p' with
        | allocInput v' k' =>
          cases v' with
          | error e => exact h0.elim
          | ok v' =>
            obtain rfl := h0.1
            obtain ⟨h1, h2, h3⟩ := fresh_scope hh (0 : F)
            rw [collect_allocInput_false]
            have key : ∀ x : F, ∃ b t', Circuit.collect false (k' (s'.fresh 0).1 (some v'))
                ((s'.fresh 0).2.expose (s'.fresh 0).1 (some v')) = .ok (b, t') ∧ t'.wellScoped = true ∧
                t'.positions = s'.positions ++ List.range' (s'.lcs.length + 1) (vs.length + 1) ∧
                ∀ known a t, Circuit.collect known (k (s.fresh x).1 (some u))
                  ((s.fresh x).2.expose (s.fresh x).1 (some u)) = .ok (a, t) → R a b ∧ t.Like t' ∧
                  t.inputs = s.inputs ++ (List.range' (s'.lcs.length + 1) (vs.length + 1)).zip
                    (some u :: vs.map some) := by
              intro x
              obtain ⟨e1, e2⟩ := hl.fresh x 0
              rw [e1]
              have f1 := fresh_inputs s' (0 : F)
              have f2 := fresh_inputs s x
              have el : ((s'.fresh 0).2.expose (s'.fresh 0).1 (some v')).lcs.length = s'.lcs.length + 1 := by
                simp [System.expose, System.constrain, f1.2]
              obtain ⟨b, t', g1, g2, g3, g4⟩ := ih (p := k (s'.fresh 0).1 (some u)) (p' := k' (s'.fresh 0).1 (some v'))
                (s := (s.fresh x).2.expose (s'.fresh 0).1 (some u))
                (s' := (s'.fresh 0).2.expose (s'.fresh 0).1 (some v')) h1 (e2.expose _ _ _)
                (expose_scoped (by unfold System.fresh; cases s'.half <;> exact hw) h2)
                fun V hV => (h V fun x hx => hV x (h3 x hx)).2 _ (hV _ h2)
              rw [el] at g3 g4
              refine ⟨b, t', g1, g2, ?_, fun known a t ht => ?_⟩
              · rw [g3, List.range'_succ]
                simp [System.positions, System.expose, System.constrain, f1.1, f1.2]
              · obtain ⟨g5, g6, g7⟩ := g4 known a t ht
                refine ⟨g5, g6, ?_⟩
                rw [g7, List.range'_succ, List.zip_cons_cons]
                simp [System.expose, System.constrain, f2.1, f2.2, hl.lcs]
            obtain ⟨b, t', g1, g2, g3, g4⟩ := key 0
            refine ⟨b, t', g1, g2, g3, fun known a t ht => ?_⟩
            cases known
            · rw [collect_allocInput_false] at ht
              exact g4 _ _ _ ht
            · rw [collect_allocInput_ok] at ht
              obtain ⟨b', t'', k1, -, -, k4⟩ := key u
              cases g1.symm.trans k1
              exact k4 _ _ _ ht
        | _ => exact h0.elim
    | _ => cases p' <;> exact h0.elim

/-- Circuits that are twins -/
theorem twin_system {circuit : Var → Prog F α} {circuit' : Var → Prog F β} {R : α → β → Prop} {vs : List F}
    (h : ∀ V one, V one → TwinIn V vs (circuit one) (circuit' one) R) :
    ∃ b t', circuitSystem false circuit' = .ok (b, t') ∧ t'.wellScoped = true ∧
      t'.positions = List.range' 1 (vs.length + 1) ∧
      ∀ known a t, circuitSystem known circuit = .ok (a, t) → R a b ∧ t.Like t' ∧
        t.inputs = (List.range' 1 (vs.length + 1)).zip (some 1 :: vs.map some) := by
  have h0 : ∀ x : F, (start x).HalfOk ∧ (start x).Scope (.A 1) := fun x => by
    simp [start, System.fresh, System.empty, System.expose, System.constrain, Var.index, System.HalfOk,
      System.Scope]
  have hw : ∀ x : F, (start x).wellScoped = true := fun x => by
    simp [start, System.fresh, System.empty, System.expose, System.constrain, Var.index]
  have hl : ∀ x : F, (start x).lcs.length = 1 ∧ (start x).inputs = [(1, some 1)] := fun x => by
    simp [start, System.fresh, System.empty, System.expose, System.constrain]
  have key := fun x : F => TwinIn.collect (R := R) vs (h0 0).1 (s := start x) (by
      constructor <;> simp [start, System.fresh, System.empty, System.expose, System.constrain]) (hw 0)
    fun V hV => h V (.A 1) (hV _ (h0 0).2)
  simp only [hl, System.positions, List.map_cons, List.map_nil, List.cons_append, List.nil_append] at key
  rw [List.range'_succ]
  obtain ⟨b, t', e1, e2, e3, e4⟩ := key 0
  refine ⟨b, t', e1, e2, e3, fun known a t ht => ?_⟩
  cases known
  · exact e4 _ _ _ ht
  · obtain ⟨b', t'', k1, -, -, k4⟩ := key 1
    cases e1.symm.trans k1
    exact k4 _ _ _ ht

end collect

/-! ### Rules -/

section rules
variable {R : α → β → Prop}

theorem twin_alloc {v v' : Except SynthesisError F} {f : Var × Option F → Prog F α}
    {f' : Var × Option F → Prog F β} (h : ∀ x o, V x → Twin V (f (x, o)) (f' (x, none)) R) :
    Twin V (Prog.doAlloc v >>= f) (Prog.doAlloc v' >>= f') R := h

theorem twin_enforce {lc lc' : LC F} {f : Unit → Prog F α} {f' : Unit → Prog F β} (h1 : lc = lc')
    (h2 : lc.In V) (h3 : Twin V (f ()) (f' ()) R) :
    Twin V (Prog.enforce lc >>= f) (Prog.enforce lc' >>= f') R := ⟨h1, h2, h3⟩

theorem twin_enforce' {lc lc' : LC F} {R : Unit → Unit → Prop} (h1 : lc = lc')
    (h2 : lc.In V) (h3 : R () ()) : Twin V (Prog.enforce lc) (Prog.enforce lc') R := ⟨h1, h2, h3⟩

theorem twin_multiply {v v' : Except SynthesisError (F × F × F)}
    {f : Var × Var × Var × Option (F × F × F) → Prog F α}
    {f' : Var × Var × Var × Option (F × F × F) → Prog F β}
    (h : ∀ a b c o, V a → V b → V c → Twin V (f (a, b, c, o)) (f' (a, b, c, none)) R) :
    Twin V (Prog.doMultiply v >>= f) (Prog.doMultiply v' >>= f') R := h

theorem twin_mapProg {A : γ → δ → Prop} {f : γ → Prog F α} {f' : δ → Prog F β} {xs : List γ} {xs' : List δ}
    (h : List.Forall₂ A xs xs') (hf : ∀ x x', A x x' → Twin V (f x) (f' x') R) :
    Twin V (mapProg f xs) (mapProg f' xs') fun ys ys' => List.Forall₂ R ys ys' ∧ ys'.length = xs'.length := by
  induction h with
  | nil => exact Twin.ret ⟨.nil, rfl⟩
  | cons hx _ ih =>
    exact (hf _ _ hx).bind fun y y' hy => ih.bind fun ys ys' hys =>
      Twin.ret ⟨.cons hy hys.1, by rw [List.length_cons, List.length_cons, hys.2]⟩

/-- The same, with an invariant that may depend on the number of iterations -/
theorem twin_foldProg_index {A : γ → δ → Prop} {I : ℕ → α → β → Prop} {f : α → γ → Prog F α}
    {f' : β → δ → Prog F β} {xs : List γ} {xs' : List δ} (h : List.Forall₂ A xs xs')
    (hf : ∀ i x x' s s', A x x' → I i s s' → Twin V (f s x) (f' s' x') (I (i + 1))) :
    ∀ {i : ℕ} {s : α} {s' : β}, I i s s' →
      Twin V (Sha256.foldProg f xs s) (Sha256.foldProg f' xs' s') (I (i + xs'.length)) := by
  induction h with
  | nil => exact fun hs => Twin.ret hs
  | cons hx _ ih =>
    intro i s s' hs
    refine (hf _ _ _ _ _ hx hs).bind fun s s' hs => ?_
    rw [List.length_cons, show ∀ n, i + (n + 1) = i + 1 + n by intro n; omega]
    exact ih hs

theorem twin_foldProg {A : γ → δ → Prop} {f : α → γ → Prog F α} {f' : β → δ → Prog F β} {xs : List γ}
    {xs' : List δ} (h : List.Forall₂ A xs xs')
    (hf : ∀ x x' s s', A x x' → R s s' → Twin V (f s x) (f' s' x') R) :
    ∀ {s : α} {s' : β}, R s s' → Twin V (Sha256.foldProg f xs s) (Sha256.foldProg f' xs' s') R := by
  induction h with
  | nil => exact fun hs => Twin.ret hs
  | cons hx _ ih => exact fun hs => (hf _ _ _ _ hx hs).bind fun s s' hs => ih hs

theorem twin_index {A : α → β → Prop} {xs : List α} {xs' : List β} (h : List.Forall₂ A xs xs') {i : ℕ}
    (hi : i < xs'.length) : Twin V (Sha256.index xs i : Prog F α) (Sha256.index xs' i) A := by
  have hi' : i < xs.length := h.length_eq ▸ hi
  simp only [Sha256.index, List.getElem?_eq_getElem hi, List.getElem?_eq_getElem hi', orPanic]
  exact h.get hi' hi

/-- A guard that holds on the blind side -/
theorem twin_guard {c c' : Prop} [Decidable c] [Decidable c'] {p : Prog F α} {p' : Prog F β} (hc : ¬ c')
    (h : Twin V p p' R) : Twin V (if c then .panic else p) (if c' then .panic else p') R := by
  rw [if_neg hc]
  split
  · exact h.blind
  · exact h

end rules

/-! ### Linear combinations -/

namespace LC
variable [Field F] {l o : LC F}

omit [Field F] in
theorem in_zero : (LC.zero : LC F).In V := by simp [In, zero]
omit [Field F] in
theorem in_add {c : Coeff F} {v : Var} (h : l.In V) (hv : V v) : (l.add c v).In V := by
  simp only [In, add, List.mem_append, List.mem_singleton]
  rintro t (ht | rfl)
  · exact h t ht
  · exact hv
theorem in_sub {c : Coeff F} {v : Var} (h : l.In V) (hv : V v) : (l.sub c v).In V := in_add h hv
theorem in_addVar {v : Var} (h : l.In V) (hv : V v) : (l.addVar v).In V := in_add h hv
theorem in_subVar {v : Var} (h : l.In V) (hv : V v) : (l.subVar v).In V := in_add h hv
theorem in_ofVar {v : Var} (hv : V v) : (LC.ofVar v : LC F).In V := in_add in_zero hv
theorem in_addLC (h : l.In V) (ho : o.In V) : (l.addLC o).In V := by
  unfold addLC
  obtain ⟨ts⟩ := o
  induction ts generalizing l with
  | nil => exact h
  | cons t ts ih =>
    exact ih (in_add h (ho t (by simp))) fun t ht => ho t (by simp only [List.mem_cons]; exact .inr ht)
theorem in_subLC (h : l.In V) (ho : o.In V) : (l.subLC o).In V := by
  unfold subLC
  obtain ⟨ts⟩ := o
  induction ts generalizing l with
  | nil => exact h
  | cons t ts ih =>
    exact ih (in_sub h (ho t (by simp))) fun t ht => ho t (by simp only [List.mem_cons]; exact .inr ht)

end LC
end Circuit
end Halo
