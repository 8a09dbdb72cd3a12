import Verif.Lemmas.Gadget.Twin
/-!
# Soundness of circuits whose public inputs have given values
-/
namespace Halo
namespace Circuit
variable {F : Type} [Field F] {α β : Type} {w : Var → F}

/-- Like `Sound`, for a program that first asks for public inputs, where the assignment gives these the
listed values -/
def SoundIn (w : Var → F) : List F → Prog F α → (α → Prop) → Prop
  | [], p, Q => Sound w p Q
  | v :: vs, .allocInput _ k, Q => ∀ x o, w x = v → SoundIn w vs (k x o) Q
  | _, _, _ => False

theorem collect_inputsOk {known : Bool} {p : Prog F α} {s s' : System F} {a : α}
    (h : collect known p s = .ok (a, s')) (hs : s.InputsOk) : s'.InputsOk :=
  collect_inv (P := fun t => t.InputsOk) (fun _ _ h => inputsOk_fresh h _)
    (fun _ _ h => inputsOk_constrain h _) (fun _ _ h => inputsOk_gate h _)
    (fun _ _ _ h => inputsOk_expose (inputsOk_fresh h _) _ _) p h hs

omit [Field F] in
theorem find_zip {q : ℕ} {v : F} : ∀ {l : List ℕ} {vs : List F} {j : ℕ}, l.Nodup → l[j]? = some q →
    vs[j]? = some v → (l.zip vs).find? (fun p => decide (p.1 = q)) = some (q, v)
  | [], _, j, _, h, _ => by simp at h
  | _ :: _, [], j, _, _, h => by simp at h
  | a :: l, u :: vs, 0, _, h, h' => by
    simp only [List.getElem?_cons_zero, Option.some.injEq] at h h'
    simp [h, h']
  | a :: l, u :: vs, j + 1, hn, h, h' => by
    simp only [List.getElem?_cons_succ] at h h'
    have ha : ¬ a = q := by
      rintro rfl
      exact (List.nodup_cons.1 hn).1 (List.mem_of_getElem? h)
    rw [List.zip_cons_cons, List.find?_cons, decide_eq_false ha]
    exact find_zip (List.nodup_cons.1 hn).2 h h'

/-- The value of a public input -/
theorem satisfied_input {s : System F} {inputs : List F} (hi : s.InputsOk) (hs : s.Satisfied w inputs) {j q : ℕ}
    {x : Var} {v : F} (hj : (s.inputs.map fun p => p.1)[j]? = some (q + 1)) (hq : s.lcs[q]? = some ⟨[(x, .one)]⟩)
    (hv : (1 :: inputs)[j]? = some v) : w x = v := by
  have := hs.2 q _ hq
  rw [rhs, find_zip hi.sorted.nodup hj hv] at this
  simpa [LC.eval, Coeff.value] using this

theorem SoundIn.collect {known : Bool} : ∀ (vs : List F) {p : Prog F α} {s s' : System F} {a : α} {Q : α → Prop}
    {inputs : List F}, SoundIn w vs p Q → s.InputsOk → Circuit.collect known p s = .ok (a, s') →
    s'.Satisfied w inputs → (1 :: inputs).drop s.inputs.length = vs → Q a
  | [], p, s, s', a, Q, inputs, h, hi, hc, hs, _ => Sound.collect p h hi hc hs.holds
  | v :: vs, p, s, s', a, Q, inputs, h, hi, hc, hs, hv => by
    cases p with
    | allocInput u k =>
      have step : ∀ (u' : F) (o : Option F) (o' : Option F),
          Circuit.collect known (k (s.fresh u').1 o) ((s.fresh u').2.expose (s.fresh u').1 o') = .ok (a, s') → Q a := by
        intro u' o o' hc
        have hi' := inputsOk_expose (inputsOk_fresh hi u') (s.fresh u').1 o'
        obtain ⟨⟨t, ht⟩, ⟨l, hl⟩⟩ := collect_prefix hc
        have hlen : ((s.fresh u').2.expose (s.fresh u').1 o').inputs.length = s.inputs.length + 1 := by
          simp [System.expose, System.constrain, (fresh_inputs s u').1]
        refine SoundIn.collect vs (h _ _ (satisfied_input (collect_inputsOk hc hi') hs (j := s.inputs.length)
          (q := s.lcs.length) ?_ ?_ ?_)) hi' hc hs ?_
        · rw [← ht]
          simp [System.expose, System.constrain, (fresh_inputs s u').1, (fresh_inputs s u').2]
        · rw [← hl]
          simp [System.expose, System.constrain, (fresh_inputs s u').1, (fresh_inputs s u').2]
        · have := congrArg (fun l => l[0]?) hv
          simpa using this
        · rw [hlen, ← List.drop_drop, hv]
          rfl
      cases known
      · rw [collect_allocInput_false] at hc
        exact step _ _ _ hc
      · cases u with
        | error e => simp [Circuit.collect] at hc
        | ok u => exact step _ _ _ hc
    | _ => exact h.elim

/-- What every satisfying assignment with these public inputs has -/
theorem holds_of_soundIn {known : Bool} {circuit : Var → Prog F α} {a : α} {s : System F} {inputs : List F}
    {Q : α → Prop} (hc : circuitSystem known circuit = .ok (a, s)) (hs : s.Satisfied w inputs)
    (h : ∀ one, w one = 1 → SoundIn w inputs (circuit one) Q) : Q a := by
  refine SoundIn.collect inputs (h (.A 1) (satisfied_one hc hs)) (start_inputsOk _) hc hs ?_
  simp [start, System.expose, System.constrain, System.fresh, System.empty]

theorem SoundIn.mono {Q Q' : α → Prop} : ∀ {vs : List F} {p : Prog F α}, SoundIn w vs p Q → (∀ a, Q a → Q' a) →
    SoundIn w vs p Q'
  | [], _, h, hq => Sound.mono hq h
  | _ :: _, .allocInput _ _, h, hq => fun x o hx => (h x o hx).mono hq
  | _ :: _, .pure _, h, _ => h.elim
  | _ :: _, .throw _, h, _ => h.elim
  | _ :: _, .panic, h, _ => h.elim
  | _ :: _, .alloc _ _, h, _ => h.elim
  | _ :: _, .enforceZero _ _, h, _ => h.elim
  | _ :: _, .multiply _ _, h, _ => h.elim

/-- Systems that agree except for values are satisfied by the same assignments. -/
theorem System.Like.satisfied {s s' : System F} (h : s.Like s') {inputs : List F} (hs : s.Satisfied w inputs) :
    s'.Satisfied w inputs := by
  refine ⟨fun i h1 h2 => hs.1 i h1 (h.gates ▸ h2), fun q lc hq => ?_⟩
  rw [← h.inputs]
  exact hs.2 q lc (h.lcs ▸ hq)

end Circuit
end Halo
