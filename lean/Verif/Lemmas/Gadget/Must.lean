import Verif.Lemmas.Gadget.Closed
/-!
# What holds if the values that the prover supplies satisfy all constraints
-/
namespace Halo
namespace Circuit
variable {F : Type} [Field F] {α β : Type} {w : Var → F}

/-- `Must w p Q`: whatever variables the constraint system hands out, if `w` assigns to them the values that
`p` supplies, all constraints that `p` adds are satisfied, and `p` completes, then its result satisfies `Q`. -/
def Must (w : Var → F) : Prog F α → (α → Prop) → Prop
  | .pure a, Q => Q a
  | .throw _, _ => True
  | .panic, _ => True
  | .alloc v k, Q => ∀ u, v = .ok u → ∀ x, w x = u → Must w (k x (some u)) Q
  | .allocInput v k, Q => ∀ u, v = .ok u → ∀ x, w x = u → Must w (k x (some u)) Q
  | .enforceZero lc k, Q => lc.eval w = 0 → Must w k Q
  | .multiply v k, Q => ∀ u, v = .ok u → u.1 * u.2.1 = u.2.2 →
      ∀ a b c, w a = u.1 → w b = u.2.1 → w c = u.2.2 → Must w (k a b c (some u)) Q

theorem must_of_sound {p : Prog F α} {Q : α → Prop} (h : Sound w p Q) : Must w p Q := by
  induction p with
  | pure a => exact h
  | throw e => trivial
  | panic => trivial
  | alloc v k ih => exact fun u _ x _ => ih x _ (h x _)
  | allocInput v k ih => exact fun u _ x _ => ih x _ (h x _)
  | enforceZero lc k ih => exact fun e => ih (h e)
  | multiply v k ih => exact fun u _ hu a b c ha hb hc => ih a b c _ (h a b c _ (by rw [ha, hb, hc, hu]))

theorem must_of_complete {p : Prog F α} {Q : α → Prop} (h : Complete w p Q) : Must w p Q := by
  induction p with
  | pure a => exact h
  | throw e => trivial
  | panic => trivial
  | alloc v k ih =>
    obtain ⟨u, rfl, h⟩ := h
    rintro _ ⟨rfl⟩ x hx
    exact ih x _ (h x hx)
  | allocInput v k ih =>
    obtain ⟨u, rfl, h⟩ := h
    rintro _ ⟨rfl⟩ x hx
    exact ih x _ (h x hx)
  | enforceZero lc k ih => exact fun _ => ih h.2
  | multiply v k ih =>
    obtain ⟨u, rfl, _, h⟩ := h
    rintro _ ⟨rfl⟩ _ a b c ha hb hc
    exact ih a b c _ (h a b c ha hb hc)

theorem Must.bind {p : Prog F α} {f : α → Prog F β} {P : α → Prop} {Q : β → Prop} (hp : Must w p P)
    (hf : ∀ a, P a → Must w (f a) Q) : Must w (p >>= f) Q := by
  show Must w (p.bind f) Q
  induction p with
  | pure a => exact hf a hp
  | throw e => trivial
  | panic => trivial
  | alloc v k ih => exact fun u hu x hx => ih x _ (hp u hu x hx)
  | allocInput v k ih => exact fun u hu x hx => ih x _ (hp u hu x hx)
  | enforceZero lc k ih => exact fun e => ih (hp e)
  | multiply v k ih => exact fun u hu e a b c ha hb hc => ih a b c _ (hp u hu e a b c ha hb hc)

theorem Must.mono {p : Prog F α} {P Q : α → Prop} (hp : Must w p P) (h : ∀ a, P a → Q a) : Must w p Q := by
  induction p with
  | pure a => exact h a hp
  | throw e => trivial
  | panic => trivial
  | alloc v k ih => exact fun u hu x hx => ih x _ (hp u hu x hx)
  | allocInput v k ih => exact fun u hu x hx => ih x _ (hp u hu x hx)
  | enforceZero lc k ih => exact fun e => ih (hp e)
  | multiply v k ih => exact fun u hu e a b c ha hb hc => ih a b c _ (hp u hu e a b c ha hb hc)

theorem Must.anyway (p : Prog F α) {Q : α → Prop} (h : ∀ a, Q a) : Must w p Q :=
  must_of_sound (by
    induction p with
    | pure a => exact h a
    | throw e => trivial
    | panic => trivial
    | alloc v k ih => exact fun x o => ih x o
    | allocInput v k ih => exact fun x o => ih x o
    | enforceZero lc k ih => exact fun _ => ih
    | multiply v k ih => exact fun a b c o _ => ih a b c o)

/-- Whatever the first part does -/
theorem Must.skip {p : Prog F α} {f : α → Prog F β} {Q : β → Prop} (hf : ∀ a, Must w (f a) Q) : Must w (p >>= f) Q :=
  Must.bind (P := fun _ => True) (Must.anyway p fun _ => trivial) fun a _ => hf a

theorem must_pure {a : α} {Q : α → Prop} (h : Q a) : Must w (Pure.pure a : Prog F α) Q := h

theorem must_panic {Q : α → Prop} : Must w (.panic : Prog F α) Q := trivial

theorem must_enforce {lc : LC F} {Q : Unit → Prop} (h : lc.eval w = 0 → Q ()) : Must w (.enforce lc) Q := h

theorem must_doMultiply {v : Except SynthesisError (F × F × F)} {Q : Var × Var × Var × Option (F × F × F) → Prop}
    (h : ∀ u, v = .ok u → u.1 * u.2.1 = u.2.2 → ∀ a b c, w a = u.1 → w b = u.2.1 → w c = u.2.2 → Q (a, b, c, some u)) :
    Must w (.doMultiply v) Q := h

theorem collect_keeps {p : Prog F α} {s s' : System F} {a : α} (h : collect true p s = .ok (a, s')) (hi : s.Inv) :
    s.Keeps s' ∧ s'.Inv :=
  collect_inv (P := fun t => s.Keeps t ∧ t.Inv)
    (fun _ v h => ⟨h.1.trans (keeps_fresh v), h.2.fresh v⟩) (fun _ lc h => ⟨h.1, h.2.constrain lc⟩)
    (fun _ v h => ⟨h.1.trans (keeps_gate v), h.2.gate v⟩)
    (fun t v _ h => ⟨h.1.trans (keeps_fresh (s := t) v), ((h.2.fresh v).constrain _).inputs _⟩) p h ⟨.refl s, hi⟩

theorem Must.collect (p : Prog F α) : ∀ {s s' : System F} {a : α} {Q : α → Prop}, Must s'.w p Q → s.Inv →
    s.InputsOk → Circuit.collect true p s = .ok (a, s') → s'.Holds s'.w → Q a := by
  induction p with
  | pure a =>
    intro s s' a Q hs hi hio h hh
    simp only [Circuit.collect, Except.ok.injEq, Prod.mk.injEq] at h
    exact h.1 ▸ hs
  | throw e => intro s s' a Q hs hi hio h; simp [Circuit.collect] at h
  | panic => intro s s' a Q hs hi hio h; simp [Circuit.collect] at h
  | alloc v k ih =>
    intro s s' a Q hs hi hio h hh
    cases v with
    | error e => simp [Circuit.collect] at h
    | ok u =>
      obtain ⟨-, h2, h3⟩ := fresh_issued hi u
      have hk := (collect_keeps (s := (s.fresh u).2) h (hi.fresh u)).1
      exact ih _ _ (hs u rfl _ ((hk _ h2).2.trans h3)) (hi.fresh u) (inputsOk_fresh hio u) h hh
  | allocInput v k ih =>
    intro s s' a Q hs hi hio h hh
    cases v with
    | error e => simp [Circuit.collect] at h
    | ok u =>
      obtain ⟨-, h2, h3⟩ := fresh_issued hi u
      have hi' : ((s.fresh u).2.expose (s.fresh u).1 (some u)).Inv := ((hi.fresh u).constrain _).inputs _
      have hk := (collect_keeps (s := (s.fresh u).2.expose (s.fresh u).1 (some u)) h hi').1
      exact ih _ _ (hs u rfl _ ((hk _ h2).2.trans h3)) hi' (inputsOk_expose (inputsOk_fresh hio u) _ _) h hh
  | enforceZero lc k ih =>
    intro s s' a Q hs hi hio h hh
    exact ih (hs (holds_constrain hh hio (collect_extends (p := k) h))) (hi.constrain lc) (inputsOk_constrain hio lc) h hh
  | multiply v k ih =>
    intro s s' a Q hs hi hio h hh
    cases v with
    | error e => simp [Circuit.collect] at h
    | ok u =>
      rw [collect_multiply_ok] at h
      have hk := (collect_keeps (s := s.gate u) h (hi.gate u)).1
      have ha := (hk _ (gate_issued hi u (x := .A (s.gates + 1)) rfl).2).2.trans
        (show (s.gate u).w (.A (s.gates + 1)) = u.1 by simp [System.gate])
      have hb := (hk _ (gate_issued hi u (x := .B (s.gates + 1)) rfl).2).2.trans
        (show (s.gate u).w (.B (s.gates + 1)) = u.2.1 by simp [System.gate])
      have hc := (hk _ (gate_issued hi u (x := .C (s.gates + 1)) rfl).2).2.trans
        (show (s.gate u).w (.C (s.gates + 1)) = u.2.2 by simp [System.gate])
      have hg := holds_gate hh (collect_extends h)
      rw [ha, hb, hc] at hg
      exact ih _ _ _ _ (hs u rfl hg _ _ _ ha hb hc) (hi.gate u) (inputsOk_gate hio _) h hh

/-- What follows if the prover's values satisfy a circuit -/
theorem must_of_provable {circuit : Var → Prog F α} {R : (Var → F) → α → Prop} (h : Provable circuit R) {P : Prop}
    (hm : ∀ w one, w one = 1 → Must w (circuit one) fun _ => P) : P := by
  obtain ⟨a, s, hc, hs, -⟩ := h
  exact Must.collect (circuit (.A 1)) (s := start 1) (hm s.w (.A 1) (satisfied_one hc hs)) (start_inv 1)
    (start_inputsOk 1) hc hs.holds

end Circuit
end Halo
