import Verif.Lemmas.Traced
import Verif.Spec.Gadget
/-!
# Soundness and completeness of gadgets carry over to the synthesized constraint system
-/
namespace Halo
namespace Circuit
variable {F : Type} [Field F] {α β : Type}

omit [Field F] in
theorem Prog.bind_eq (p : Prog F α) (f : α → Prog F β) : (p >>= f) = p.bind f := rfl
omit [Field F] in
theorem Prog.pure_eq (a : α) : (Pure.pure a : Prog F α) = Prog.pure a := rfl
omit [Field F] in
theorem Prog.pure_bind (a : α) (f : α → Prog F β) : (Prog.pure a).bind f = f a := rfl

omit [Field F] in
theorem Prog.map_eq (f : α → β) (p : Prog F α) : (f <$> p) = p.bind fun a => .pure (f a) := rfl

omit [Field F] in
theorem Prog.bind_assoc {γ : Type} (p : Prog F α) (f : α → Prog F β) (g : β → Prog F γ) :
    (p.bind f).bind g = p.bind fun a => (f a).bind g := by
  induction p with
  | pure a => rfl
  | throw e => rfl
  | panic => rfl
  | alloc v k ih => simp only [Prog.bind, ih]
  | allocInput v k ih => simp only [Prog.bind, ih]
  | enforceZero lc k ih => simp only [Prog.bind, ih]
  | multiply v k ih => simp only [Prog.bind, ih]

section Sound
variable {w : Var → F}

theorem Sound.mono {p : Prog F α} {Q Q' : α → Prop} (h : ∀ a, Q a → Q' a) :
    Sound w p Q → Sound w p Q' := by
  induction p with
  | pure a => exact h a
  | throw e => exact id
  | panic => exact id
  | alloc v k ih => exact fun hs x o => ih x o (hs x o)
  | allocInput v k ih => exact fun hs x o => ih x o (hs x o)
  | enforceZero lc k ih => exact fun hs hl => ih (hs hl)
  | multiply v k ih => exact fun hs a b c o hm => ih a b c o (hs a b c o hm)

@[simp] theorem sound_pure (a : α) (Q : α → Prop) : Sound w (.pure a) Q ↔ Q a := Iff.rfl
@[simp] theorem sound_throw (e) (Q : α → Prop) : Sound w (.throw e) Q ↔ True := Iff.rfl
@[simp] theorem sound_panic (Q : α → Prop) : Sound w .panic Q ↔ True := Iff.rfl

theorem sound_bind' (p : Prog F α) (f : α → Prog F β) (Q : β → Prop) :
    Sound w (p.bind f) Q ↔ Sound w p fun a => Sound w (f a) Q := by
  induction p with
  | pure a => rfl
  | throw e => rfl
  | panic => rfl
  | alloc v k ih => simp only [Prog.bind, Sound, ih]
  | allocInput v k ih => simp only [Prog.bind, Sound, ih]
  | enforceZero lc k ih => simp only [Prog.bind, Sound, ih]
  | multiply v k ih => simp only [Prog.bind, Sound, ih]

theorem sound_bind (p : Prog F α) (f : α → Prog F β) (Q : β → Prop) :
    Sound w (p >>= f) Q ↔ Sound w p fun a => Sound w (f a) Q := sound_bind' p f Q

/-- Sequencing, with the postcondition of the first part -/
theorem Sound.bind {p : Prog F α} {f : α → Prog F β} {P : α → Prop} {Q : β → Prop}
    (hp : Sound w p P) (hf : ∀ a, P a → Sound w (f a) Q) : Sound w (p >>= f) Q :=
  (sound_bind p f Q).2 (hp.mono hf)

theorem sound_doAlloc (v : Except SynthesisError F) (Q : Var × Option F → Prop) :
    Sound w (.doAlloc v) Q ↔ ∀ x o, Q (x, o) := Iff.rfl
theorem sound_doAllocInput (v : Except SynthesisError F) (Q : Var × Option F → Prop) :
    Sound w (.doAllocInput v) Q ↔ ∀ x o, Q (x, o) := Iff.rfl
theorem sound_enforce (lc : LC F) (Q : Unit → Prop) :
    Sound w (.enforce lc) Q ↔ (lc.eval w = 0 → Q ()) := Iff.rfl
theorem sound_doMultiply (v : Except SynthesisError (F × F × F))
    (Q : Var × Var × Var × Option (F × F × F) → Prop) :
    Sound w (.doMultiply v) Q ↔ ∀ a b c o, w a * w b = w c → Q (a, b, c, o) := Iff.rfl

end Sound

section Complete
variable {w : Var → F}

theorem Complete.mono {p : Prog F α} {Q Q' : α → Prop} (h : ∀ a, Q a → Q' a) :
    Complete w p Q → Complete w p Q' := by
  induction p with
  | pure a => exact h a
  | throw e => exact id
  | panic => exact id
  | alloc v k ih => exact fun ⟨u, h1, h2⟩ => ⟨u, h1, fun x hx => ih x _ (h2 x hx)⟩
  | allocInput v k ih => exact fun ⟨u, h1, h2⟩ => ⟨u, h1, fun x hx => ih x _ (h2 x hx)⟩
  | enforceZero lc k ih => exact fun ⟨h1, h2⟩ => ⟨h1, ih h2⟩
  | multiply v k ih =>
    exact fun ⟨u, h1, h2, h3⟩ => ⟨u, h1, h2, fun a b c ha hb hc => ih a b c _ (h3 a b c ha hb hc)⟩

@[simp] theorem complete_pure (a : α) (Q : α → Prop) : Complete w (.pure a) Q ↔ Q a := Iff.rfl
@[simp] theorem complete_throw (e) (Q : α → Prop) : Complete w (.throw e) Q ↔ False := Iff.rfl
@[simp] theorem complete_panic (Q : α → Prop) : Complete w .panic Q ↔ False := Iff.rfl

theorem complete_bind' (p : Prog F α) (f : α → Prog F β) (Q : β → Prop) :
    Complete w (p.bind f) Q ↔ Complete w p fun a => Complete w (f a) Q := by
  induction p with
  | pure a => rfl
  | throw e => rfl
  | panic => rfl
  | alloc v k ih => simp only [Prog.bind, Complete, ih]
  | allocInput v k ih => simp only [Prog.bind, Complete, ih]
  | enforceZero lc k ih => simp only [Prog.bind, Complete, ih]
  | multiply v k ih => simp only [Prog.bind, Complete, ih]

theorem complete_bind (p : Prog F α) (f : α → Prog F β) (Q : β → Prop) :
    Complete w (p >>= f) Q ↔ Complete w p fun a => Complete w (f a) Q := complete_bind' p f Q

/-- Sequencing, with the postcondition of the first part -/
theorem Complete.bind {p : Prog F α} {f : α → Prog F β} {P : α → Prop} {Q : β → Prop}
    (hp : Complete w p P) (hf : ∀ a, P a → Complete w (f a) Q) : Complete w (p >>= f) Q :=
  (complete_bind p f Q).2 (hp.mono hf)

theorem complete_doAlloc (v : Except SynthesisError F) (Q : Var × Option F → Prop) :
    Complete w (.doAlloc v) Q ↔ ∃ u, v = .ok u ∧ ∀ x, w x = u → Q (x, some u) := Iff.rfl
theorem complete_doAllocInput (v : Except SynthesisError F) (Q : Var × Option F → Prop) :
    Complete w (.doAllocInput v) Q ↔ ∃ u, v = .ok u ∧ ∀ x, w x = u → Q (x, some u) := Iff.rfl
theorem complete_enforce (lc : LC F) (Q : Unit → Prop) :
    Complete w (.enforce lc) Q ↔ (lc.eval w = 0 ∧ Q ()) := Iff.rfl
theorem complete_doMultiply (v : Except SynthesisError (F × F × F))
    (Q : Var × Var × Var × Option (F × F × F) → Prop) :
    Complete w (.doMultiply v) Q ↔ ∃ u, v = .ok u ∧ u.1 * u.2.1 = u.2.2 ∧
      ∀ a b c, w a = u.1 → w b = u.2.1 → w c = u.2.2 → Q (a, b, c, some u) := Iff.rfl

end Complete

/-- An assignment satisfies all gates, and all linear constraints that do not expose an input. -/
def System.Holds (s : System F) (w : Var → F) : Prop :=
  (∀ i, 1 ≤ i → i ≤ s.gates → w (.A i) * w (.B i) = w (.C i)) ∧
  ∀ q lc, s.lcs[q]? = some lc → q + 1 ∉ s.inputs.map (fun p => p.1) → lc.eval w = 0

theorem rhs_eq_zero {l : List (ℕ × F)} {q : ℕ} (h : q ∉ l.map Prod.fst) : rhs l q = 0 := by
  have : l.find? (fun p => decide (p.1 = q)) = none := by
    rw [List.find?_eq_none]
    intro p hp hpq
    exact h (List.mem_map.2 ⟨p, hp, by simpa using hpq⟩)
  simp [rhs, this]

theorem System.Satisfied.holds {s : System F} {w : Var → F} {inp : List F}
    (h : s.Satisfied w inp) : s.Holds w := by
  refine ⟨h.1, fun q lc hq hn => ?_⟩
  rw [h.2 q lc hq]
  apply rhs_eq_zero
  intro hm
  obtain ⟨p, hp, he⟩ := List.mem_map.1 hm
  have := (List.of_mem_zip (l₁ := s.inputs.map fun p => p.1) (a := p.1) (b := p.2) hp).1
  rw [he] at this
  exact hn this

/-- What a later system contains of an earlier one -/
structure System.Extends (s s' : System F) : Prop where
  gates : s.gates ≤ s'.gates
  lcs : s.lcs <+: s'.lcs
  inputs : ∀ q, q ≤ s.lcs.length → q ∈ s'.inputs.map (fun p => p.1) → q ∈ s.inputs.map (fun p => p.1)

omit [Field F] in
theorem System.Extends.refl (s : System F) : s.Extends s := ⟨le_refl _, List.prefix_rfl, fun _ _ h => h⟩

omit [Field F] in
theorem System.Extends.trans {s s' s'' : System F} (h : s.Extends s') (h' : s'.Extends s'') :
    s.Extends s'' :=
  ⟨h.gates.trans h'.gates, h.lcs.trans h'.lcs,
    fun q hq hm => h.inputs q hq (h'.inputs q (hq.trans h.lcs.length_le) hm)⟩

theorem extends_fresh (s : System F) (v : F) : s.Extends (s.fresh v).2 := by
  obtain ⟨h1, h2⟩ := fresh_inputs s v
  refine ⟨?_, by rw [h2], fun q _ => by rw [h1]; exact id⟩
  unfold System.fresh; cases s.half <;> simp

omit [Field F] in
theorem extends_constrain (s : System F) (lc : LC F) : s.Extends (s.constrain lc) :=
  ⟨le_refl _, List.prefix_append _ _, fun _ _ h => h⟩

omit [Field F] in
theorem extends_expose (s : System F) (x : Var) (o : Option F) : s.Extends (s.expose x o) := by
  refine ⟨le_refl _, List.prefix_append _ _, fun q hq hm => ?_⟩
  simp only [System.expose, System.constrain, List.map_append, List.map_cons, List.map_nil,
    List.mem_append, List.mem_singleton, List.length_append, List.length_singleton] at hm
  rcases hm with h | h
  · exact h
  · omega

omit [Field F] in
theorem extends_gate (s : System F) (v : F × F × F) : s.Extends (s.gate v) :=
  ⟨by simp [System.gate], List.prefix_rfl, fun _ _ h => h⟩

theorem collect_extends {known : Bool} {p : Prog F α} {s s' : System F} {a : α}
    (h : collect known p s = .ok (a, s')) : s.Extends s' :=
  collect_inv (P := fun t => s.Extends t) (fun _ _ h => h.trans (extends_fresh _ _))
    (fun _ _ h => h.trans (extends_constrain _ _)) (fun _ _ h => h.trans (extends_gate _ _))
    (fun _ _ _ h => (h.trans (extends_fresh _ _)).trans (extends_expose _ _ _)) p h (.refl s)

/-- A gate of the final system is a gate. -/
theorem holds_gate {s s' : System F} {w : Var → F} {v : F × F × F} (hh : s'.Holds w)
    (he : (s.gate v).Extends s') :
    w (.A (s.gates + 1)) * w (.B (s.gates + 1)) = w (.C (s.gates + 1)) :=
  hh.1 _ (by omega) he.gates

theorem holds_constrain {s s' : System F} {w : Var → F} {lc : LC F} (hh : s'.Holds w)
    (hi : s.InputsOk) (he : (s.constrain lc).Extends s') : lc.eval w = 0 := by
  have hq : s'.lcs[s.lcs.length]? = some lc := by
    obtain ⟨t, ht⟩ := he.lcs
    rw [← ht]
    simp [System.constrain]
  refine hh.2 _ lc hq fun hm => ?_
  have := he.inputs (s.lcs.length + 1) (by simp [System.constrain]) hm
  obtain ⟨p, hp, hpe⟩ := List.mem_map.1 this
  have := (hi.range p hp).2
  omega

omit [Field F] in
theorem inputsOk_gate {s : System F} (h : s.InputsOk) (v : F × F × F) : (s.gate v).InputsOk :=
  ⟨h.sorted, h.range⟩

/-- If the constraints of the final system hold, then a sound program has established its
postcondition. -/
theorem Sound.collect {known : Bool} {w : Var → F} (p : Prog F α) :
    ∀ {s s' : System F} {a : α} {Q : α → Prop}, Sound w p Q → s.InputsOk →
      Circuit.collect known p s = .ok (a, s') → s'.Holds w → Q a := by
  induction p with
  | pure a =>
    intro s s' a Q hs hi h hh
    simp only [Circuit.collect, Except.ok.injEq, Prod.mk.injEq] at h
    exact h.1 ▸ hs
  | throw e => intro s s' a Q hs hi h; simp [Circuit.collect] at h
  | panic => intro s s' a Q hs hi h; simp [Circuit.collect] at h
  | alloc v k ih =>
    intro s s' a Q hs hi h hh
    cases known
    · rw [collect_alloc_false] at h
      exact ih _ _ (hs _ _) (inputsOk_fresh hi _) h hh
    · cases v with
      | error e => simp [Circuit.collect] at h
      | ok v => exact ih _ _ (hs _ _) (inputsOk_fresh hi _) h hh
  | allocInput v k ih =>
    intro s s' a Q hs hi h hh
    cases known
    · rw [collect_allocInput_false] at h
      exact ih _ _ (hs _ _) (inputsOk_expose (inputsOk_fresh hi _) _ _) h hh
    · cases v with
      | error e => simp [Circuit.collect] at h
      | ok v => exact ih _ _ (hs _ _) (inputsOk_expose (inputsOk_fresh hi _) _ _) h hh
  | enforceZero lc k ih =>
    intro s s' a Q hs hi h hh
    exact ih (hs (holds_constrain hh hi (collect_extends (p := k) h))) (inputsOk_constrain hi lc) h hh
  | multiply v k ih =>
    intro s s' a Q hs hi h hh
    cases known
    · rw [collect_multiply_false] at h
      exact ih _ _ _ _ (hs _ _ _ _ (holds_gate hh (collect_extends h))) (inputsOk_gate hi _) h hh
    · cases v with
      | error e => simp [Circuit.collect] at h
      | ok v =>
        rw [collect_multiply_ok] at h
        exact ih _ _ _ _ (hs _ _ _ _ (holds_gate hh (collect_extends h))) (inputsOk_gate hi _) h hh

/-- The assignment gives to the variables that have been handed out the values that they have. -/
def System.Agrees (s : System F) (w : Var → F) : Prop := ∀ v, s.Issued v → w v = s.w v

/-- The linear constraints hold for the values that the variables will have: every later assignment
that keeps the values that have been handed out satisfies them, those that expose inputs with the
value of the input. -/
def System.LcsOk (s : System F) : Prop :=
  ∀ w, s.Agrees w → ∀ q lc, s.lcs[q]? = some lc →
    lc.eval w = rhs (s.inputs.map fun p => (p.1, p.2.getD 0)) (q + 1)

omit [Field F] in
theorem agrees_of_keeps {s s' : System F} {w : Var → F} (h : s.Keeps s') (hw : s'.Agrees w) :
    s.Agrees w := fun v hv => (hw v (h v hv).1).trans (h v hv).2

theorem rhs_append {l : List (ℕ × F)} {q i : ℕ} {v : F} (h : q ≠ i) :
    rhs (l ++ [(i, v)]) q = rhs l q := by
  have : ¬ i = q := fun h' => h h'.symm
  unfold rhs
  rw [List.find?_append]
  cases l.find? (fun p => decide (p.1 = q)) with
  | none => simp [this]
  | some x => simp

theorem rhs_append_self {l : List (ℕ × F)} {i : ℕ} {v : F} (h : i ∉ l.map Prod.fst) :
    rhs (l ++ [(i, v)]) i = v := by
  have : l.find? (fun p => decide (p.1 = i)) = none := by
    rw [List.find?_eq_none]
    intro p hp hpq
    exact h (List.mem_map.2 ⟨p, hp, by simpa using hpq⟩)
  simp [rhs, List.find?_append, this]

theorem lcsOk_keeps {s s' : System F} (h : s.Keeps s') (hl : s'.lcs = s.lcs)
    (hin : s'.inputs = s.inputs) (hs : s.LcsOk) : s'.LcsOk := by
  intro w hw q lc hq
  rw [hl] at hq
  rw [hin]
  exact hs w (agrees_of_keeps h hw) q lc hq

theorem lcsOk_constrain {s : System F} (hi : s.InputsOk) {lc : LC F} (hs : s.LcsOk)
    (h : ∀ w, s.Agrees w → lc.eval w = 0) : (s.constrain lc).LcsOk := by
  intro w hw q lc' hq
  simp only [System.constrain] at hq ⊢
  have hw' : s.Agrees w := hw
  rw [List.getElem?_append] at hq
  split at hq
  · exact hs w hw' q lc' hq
  · rename_i hlt
    have hq0 : q = s.lcs.length := by
      have := (List.getElem?_eq_some_iff.1 hq).1
      simp at this
      omega
    subst hq0
    simp at hq
    subst hq
    rw [h w hw', rhs_eq_zero]
    intro hm
    simp only [List.map_map] at hm
    obtain ⟨p, hp, he⟩ := List.mem_map.1 hm
    have := (hi.range p hp).2
    simp only [Function.comp_apply] at he
    omega

theorem lcsOk_expose {s : System F} (hi : s.InputsOk) {x : Var} {v : F} (hs : s.LcsOk)
    (hx : s.Issued x) (hv : s.w x = v) : (s.expose x (some v)).LcsOk := by
  intro w hw q lc' hq
  simp only [System.expose, System.constrain] at hq ⊢
  have hw' : s.Agrees w := hw
  have hnot : s.lcs.length + 1 ∉ (s.inputs.map fun p => (p.1, p.2.getD (0 : F))).map Prod.fst := by
    intro hm
    simp only [List.map_map] at hm
    obtain ⟨p, hp, he⟩ := List.mem_map.1 hm
    have := (hi.range p hp).2
    simp only [Function.comp_apply] at he
    omega
  simp only [List.map_append, List.map_cons, List.map_nil, List.length_append,
    List.length_singleton, Option.getD_some]
  rw [List.getElem?_append] at hq
  split at hq
  · rename_i hlt
    rw [rhs_append (by omega)]
    exact hs w hw' q lc' hq
  · rename_i hlt
    have hq0 : q = s.lcs.length := by
      have := (List.getElem?_eq_some_iff.1 hq).1
      simp at this
      omega
    subst hq0
    simp at hq
    subst hq
    rw [rhs_append_self hnot]
    simp [hw' x hx, hv]

/-- A complete program succeeds, and all constraints hold for the values it has supplied. -/
theorem Complete.collect (p : Prog F α) :
    ∀ {s : System F} {Q : (Var → F) → α → Prop}, s.Inv → s.InputsOk → s.GatesOk → s.LcsOk →
      (∀ w, s.Agrees w → Complete w p (Q w)) →
      ∃ a s', Circuit.collect true p s = .ok (a, s') ∧ Q s'.w a ∧ s.Keeps s' ∧ s'.Inv ∧
        s'.InputsOk ∧ s'.GatesOk ∧ s'.LcsOk := by
  have self : ∀ s : System F, s.Agrees s.w := fun s _ _ => rfl
  induction p with
  | pure a =>
    intro s Q hi hio hg hl hc
    exact ⟨a, s, rfl, hc _ (self s), .refl s, hi, hio, hg, hl⟩
  | throw e => intro s Q hi hio hg hl hc; exact (hc _ (self s)).elim
  | panic => intro s Q hi hio hg hl hc; exact (hc _ (self s)).elim
  | alloc v k ih =>
    intro s Q hi hio hg hl hc
    obtain ⟨u, rfl, -⟩ := hc _ (self s)
    obtain ⟨h1, h2, h3⟩ := fresh_issued hi u
    have hk := keeps_fresh (s := s) u
    obtain ⟨a, s', hr, hQ, hk', h⟩ := ih (s.fresh u).1 (some u) (Q := Q) (hi.fresh u)
      (inputsOk_fresh hio u) (gatesOk_fresh hi hg u)
      (lcsOk_keeps hk (fresh_inputs s u).2 (fresh_inputs s u).1 hl) (by
        intro w hw
        obtain ⟨u', hu', hcw⟩ := hc w (agrees_of_keeps hk hw)
        cases hu'
        exact hcw _ ((hw _ h2).trans h3))
    exact ⟨a, s', hr, hQ, hk.trans hk', h⟩
  | allocInput v k ih =>
    intro s Q hi hio hg hl hc
    obtain ⟨u, rfl, -⟩ := hc _ (self s)
    obtain ⟨h1, h2, h3⟩ := fresh_issued hi u
    have hk : s.Keeps ((s.fresh u).2.expose (s.fresh u).1 (some u)) := keeps_fresh (s := s) u
    have hio' := inputsOk_fresh hio u
    obtain ⟨a, s', hr, hQ, hk', h⟩ := ih (s.fresh u).1 (some u) (Q := Q)
      (s := (s.fresh u).2.expose (s.fresh u).1 (some u))
      (((hi.fresh u).constrain _).inputs _) (inputsOk_expose hio' _ _) (gatesOk_fresh hi hg u)
      (lcsOk_expose hio' (lcsOk_keeps (keeps_fresh (s := s) u) (fresh_inputs s u).2
        (fresh_inputs s u).1 hl) h2 h3) (by
        intro w hw
        obtain ⟨u', hu', hcw⟩ := hc w (agrees_of_keeps hk hw)
        cases hu'
        exact hcw _ ((hw _ h2).trans h3))
    exact ⟨a, s', hr, hQ, hk.trans hk', h⟩
  | enforceZero lc k ih =>
    intro s Q hi hio hg hl hc
    obtain ⟨a, s', hr, hQ, hk', h⟩ := ih (s := s.constrain lc) (Q := Q) (hi.constrain lc)
      (inputsOk_constrain hio lc) hg
      (lcsOk_constrain hio hl fun w hw => (hc w hw).1) (fun w hw => (hc w hw).2)
    exact ⟨a, s', hr, hQ, hk', h⟩
  | multiply v k ih =>
    intro s Q hi hio hg hl hc
    obtain ⟨u, rfl, hmul, -⟩ := hc _ (self s)
    have hk := keeps_gate (s := s) u
    have ha := (gate_issued hi u (x := .A (s.gates + 1)) rfl).2
    have hb := (gate_issued hi u (x := .B (s.gates + 1)) rfl).2
    have hcc := (gate_issued hi u (x := .C (s.gates + 1)) rfl).2
    obtain ⟨a, s', hr, hQ, hk', h⟩ := ih (.A (s.gates + 1)) (.B (s.gates + 1)) (.C (s.gates + 1))
      (some u) (s := s.gate u) (Q := Q) (hi.gate u) ⟨hio.sorted, hio.range⟩ (gatesOk_gate hg hmul)
      (lcsOk_keeps hk rfl rfl hl) (by
        intro w hw
        obtain ⟨u', hu', -, hcw⟩ := hc w (agrees_of_keeps hk hw)
        cases hu'
        refine hcw _ _ _ ((hw _ ha).trans ?_) ((hw _ hb).trans ?_) ((hw _ hcc).trans ?_) <;>
          simp [System.gate])
    exact ⟨a, s', hr, hQ, hk.trans hk', h⟩

end Circuit
end Halo
