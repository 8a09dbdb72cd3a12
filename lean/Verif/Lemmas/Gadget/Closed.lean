import Verif.Lemmas.Gadget
/-!
# Soundness and completeness of whole circuits; forged assignments
-/
namespace Halo
namespace Circuit
variable {F : Type} [Field F] {α β : Type}

/-- The system before the circuit runs -/
def start (x : F) : System F :=
  (System.empty.fresh x).2.expose (System.empty.fresh x).1 (some 1)

theorem start_inv (x : F) : (start x).Inv :=
  ((System.Inv.empty.fresh x).constrain _).inputs _

theorem start_inputsOk (x : F) : (start x).InputsOk :=
  inputsOk_expose (inputsOk_fresh ⟨by simp [System.empty], by simp [System.empty]⟩ x) _ _

theorem start_issued (x : F) : (start x).Issued (.A 1) := ⟨by simp [Var.index], by
  simp [start, System.fresh, System.empty, System.expose, System.constrain, Var.index], fun _ => rfl⟩

theorem start_w (x : F) : (start x).w (.A 1) = x := by
  simp [start, System.fresh, System.empty, System.expose, System.constrain]

theorem start_gatesOk (x : F) : (start x).GatesOk :=
  gatesOk_fresh .empty (fun i h1 h2 => by simp [System.empty] at h2; omega) x

theorem start_lcsOk : (start (1 : F)).LcsOk := by
  refine lcsOk_expose (inputsOk_fresh ⟨by simp [System.empty], by simp [System.empty]⟩ 1) ?_
    (fresh_issued .empty 1).2.1 (fresh_issued .empty 1).2.2
  intro w _ q lc hq
  simp [System.fresh, System.empty] at hq

theorem collect_prefix {known : Bool} {p : Prog F α} {s s' : System F} {a : α}
    (h : collect known p s = .ok (a, s')) : s.inputs <+: s'.inputs ∧ s.lcs <+: s'.lcs :=
  collect_inv (P := fun t => s.inputs <+: t.inputs ∧ s.lcs <+: t.lcs)
    (fun t v h => by rw [(fresh_inputs t v).1, (fresh_inputs t v).2]; exact h)
    (fun _ _ h => ⟨h.1, h.2.trans (List.prefix_append _ _)⟩) (fun _ _ h => h)
    (fun t v o h => by
      refine ⟨h.1.trans ?_, h.2.trans ?_⟩
      · simp only [System.expose, System.constrain, (fresh_inputs t v).1]
        exact List.prefix_append _ _
      · simp only [System.expose, System.constrain, (fresh_inputs t v).2]
        exact List.prefix_append _ _) p h
    ⟨List.prefix_rfl, List.prefix_rfl⟩

theorem satisfied_one {known : Bool} {circuit : Var → Prog F α} {a : α} {s : System F}
    {w : Var → F} {inputs : List F} (h : circuitSystem known circuit = .ok (a, s))
    (hs : s.Satisfied w inputs) : w (.A 1) = 1 := by
  obtain ⟨⟨t, ht⟩, ⟨l, hl⟩⟩ := collect_prefix (s := start _) h
  have := hs.2 0 ⟨[(.A 1, .one)]⟩ (by rw [← hl]; rfl)
  rw [← ht] at this
  simpa [rhs, start, System.expose, System.constrain, System.fresh, System.empty, LC.eval] using this

theorem enforces_of_sound {circuit : Var → Prog F α} {Q : (Var → F) → α → Prop}
    (h : ∀ w one, w one = 1 → Sound w (circuit one) (Q w)) : Enforces circuit Q :=
  fun _ _ _ w _ hc hs => (h w (.A 1) (satisfied_one hc hs)).collect _ (start_inputsOk _) hc hs.holds

/-- The right-hand sides are those of the public inputs of the system. -/
theorem satisfied_of_ok {s : System F} (hp : (start (1 : F)).inputs <+: s.inputs) {w : Var → F}
    (hg : ∀ i, 1 ≤ i → i ≤ s.gates → w (.A i) * w (.B i) = w (.C i))
    (hl : ∀ q lc, s.lcs[q]? = some lc →
      lc.eval w = rhs (s.inputs.map fun p => (p.1, p.2.getD 0)) (q + 1)) :
    s.Satisfied w s.publicInputs := by
  obtain ⟨t, ht⟩ := hp
  refine ⟨hg, fun q lc hq => ?_⟩
  have he : 1 :: s.publicInputs = s.inputs.map fun p => p.2.getD 0 := by
    rw [System.publicInputs, ← ht]
    simp [start, System.expose, System.constrain, System.fresh, System.empty]
  rw [he, List.zip_map']
  exact hl q lc hq

theorem provable_of_complete {circuit : Var → Prog F α} {Q : (Var → F) → α → Prop}
    (h : ∀ w one, w one = 1 → Complete w (circuit one) (Q w)) : Provable circuit Q := by
  obtain ⟨a, s, hs, hQ, -, -, -, hg, hl⟩ := Complete.collect (circuit (.A 1)) (s := start 1) (Q := Q)
    (start_inv 1) (start_inputsOk 1) (start_gatesOk 1) start_lcsOk
    (fun w hw => h w (.A 1) ((hw _ (start_issued 1)).trans (start_w 1)))
  exact ⟨a, s, hs, satisfied_of_ok (collect_prefix hs).1 hg (hl _ fun _ _ => rfl), hQ⟩

/-! ### Forged assignments -/

/-- The game of a cheating prover, who supplies to the constraint system other values than those that
the program has computed, except for public inputs.  `Γ` is what is known about the assignment. -/
def Forge : ((Var → F) → Prop) → Prog F α → ((Var → F) → α → Prop) → Prop
  | Γ, .pure a, Q => ∀ w, Γ w → Q w a
  | Γ, .throw _, _ => ¬ ∃ w, Γ w
  | Γ, .panic, _ => ¬ ∃ w, Γ w
  | Γ, .alloc v k, Q => (∃ w, Γ w) → ∃ u u', v = .ok u ∧
      ∀ x, Forge (fun w => Γ w ∧ w x = u') (k x (some u)) Q
  | Γ, .allocInput v k, Q => (∃ w, Γ w) → ∃ u, v = .ok u ∧
      ∀ x, Forge (fun w => Γ w ∧ w x = u) (k x (some u)) Q
  | Γ, .enforceZero lc k, Q => (∀ w, Γ w → lc.eval w = 0) ∧ Forge Γ k Q
  | Γ, .multiply v k, Q => (∃ w, Γ w) → ∃ u, ∃ u' : F × F × F, v = .ok u ∧ u'.1 * u'.2.1 = u'.2.2 ∧
      ∀ a b c, Forge (fun w => Γ w ∧ w a = u'.1 ∧ w b = u'.2.1 ∧ w c = u'.2.2) (k a b c (some u)) Q

theorem Forge.anti {p : Prog F α} {Q : (Var → F) → α → Prop} : ∀ {Γ Γ' : (Var → F) → Prop},
    (∀ w, Γ' w → Γ w) → Forge Γ p Q → Forge Γ' p Q := by
  induction p with
  | pure a => exact fun h hf w hw => hf w (h w hw)
  | throw e => exact fun h hf ⟨w, hw⟩ => hf ⟨w, h w hw⟩
  | panic => exact fun h hf ⟨w, hw⟩ => hf ⟨w, h w hw⟩
  | alloc v k ih =>
    rintro Γ Γ' h hf ⟨w, hw⟩
    obtain ⟨u, u', hv, hk⟩ := hf ⟨w, h w hw⟩
    exact ⟨u, u', hv, fun x => ih _ _ (fun w hw => ⟨h w hw.1, hw.2⟩) (hk x)⟩
  | allocInput v k ih =>
    rintro Γ Γ' h hf ⟨w, hw⟩
    obtain ⟨u, hv, hk⟩ := hf ⟨w, h w hw⟩
    exact ⟨u, hv, fun x => ih _ _ (fun w hw => ⟨h w hw.1, hw.2⟩) (hk x)⟩
  | enforceZero lc k ih => exact fun h hf => ⟨fun w hw => hf.1 w (h w hw), ih h hf.2⟩
  | multiply v k ih =>
    rintro Γ Γ' h hf ⟨w, hw⟩
    obtain ⟨u, u', hv, hm, hk⟩ := hf ⟨w, h w hw⟩
    exact ⟨u, u', hv, hm, fun a b c => ih _ _ _ _ (fun w hw => ⟨h w hw.1, hw.2⟩) (hk a b c)⟩

theorem Forge.bind {p : Prog F α} {f : α → Prog F β} {P : (Var → F) → α → Prop}
    {Q : (Var → F) → β → Prop} {Γ₀ : (Var → F) → Prop}
    (hf : ∀ a, Forge (fun w => Γ₀ w ∧ P w a) (f a) Q) : ∀ {Γ : (Var → F) → Prop},
    (∀ w, Γ w → Γ₀ w) → Forge Γ p P → Forge Γ (p >>= f) Q := by
  induction p with
  | pure a => exact fun h hp => (hf a).anti fun w hw => ⟨h w hw, hp w hw⟩
  | throw e => exact fun _ h => h
  | panic => exact fun _ h => h
  | alloc v k ih =>
    intro Γ h hp hw
    obtain ⟨u, u', hv, hk⟩ := hp hw
    exact ⟨u, u', hv, fun x => ih _ _ (fun w hw => h w hw.1) (hk x)⟩
  | allocInput v k ih =>
    intro Γ h hp hw
    obtain ⟨u, hv, hk⟩ := hp hw
    exact ⟨u, hv, fun x => ih _ _ (fun w hw => h w hw.1) (hk x)⟩
  | enforceZero lc k ih => exact fun h hp => ⟨hp.1, ih h hp.2⟩
  | multiply v k ih =>
    intro Γ h hp hw
    obtain ⟨u, u', hv, hm, hk⟩ := hp hw
    exact ⟨u, u', hv, hm, fun a b c => ih _ _ _ _ (fun w hw => h w hw.1) (hk a b c)⟩

theorem Forge.seq {p : Prog F α} {f : α → Prog F β} {P : (Var → F) → α → Prop}
    {Q : (Var → F) → β → Prop} {Γ : (Var → F) → Prop} (hp : Forge Γ p P)
    (hf : ∀ a, Forge (fun w => Γ w ∧ P w a) (f a) Q) : Forge Γ (p >>= f) Q :=
  Forge.bind hf (fun _ h => h) hp

/-- A cheating prover may be honest for a while. -/
theorem Forge.honest {p : Prog F α} {Q : (Var → F) → α → Prop} : ∀ {Γ : (Var → F) → Prop},
    (∀ w, Γ w → Complete w p (Q w)) → Forge Γ p Q := by
  induction p with
  | pure a => exact fun h => h
  | throw e => exact fun h ⟨w, hw⟩ => h w hw
  | panic => exact fun h ⟨w, hw⟩ => h w hw
  | alloc v k ih =>
    rintro Γ h ⟨w, hw⟩
    obtain ⟨u, rfl, -⟩ := h w hw
    refine ⟨u, u, rfl, fun x => ih _ _ fun w hw => ?_⟩
    obtain ⟨u', hu, hk⟩ := h w hw.1
    cases hu
    exact hk x hw.2
  | allocInput v k ih =>
    rintro Γ h ⟨w, hw⟩
    obtain ⟨u, rfl, -⟩ := h w hw
    refine ⟨u, rfl, fun x => ih _ _ fun w hw => ?_⟩
    obtain ⟨u', hu, hk⟩ := h w hw.1
    cases hu
    exact hk x hw.2
  | enforceZero lc k ih => exact fun h => ⟨fun w hw => (h w hw).1, ih fun w hw => (h w hw).2⟩
  | multiply v k ih =>
    rintro Γ h ⟨w, hw⟩
    obtain ⟨u, rfl, hm, -⟩ := h w hw
    refine ⟨u, u, rfl, hm, fun a b c => ih _ _ _ _ fun w hw => ?_⟩
    obtain ⟨u', hu, -, hk⟩ := h w hw.1
    cases hu
    exact hk a b c hw.2.1 hw.2.2.1 hw.2.2.2

omit [Field F] in
theorem Prog.bind_pure (p : Prog F α) : (p.bind fun a => .pure a) = p := by
  induction p with
  | pure a => rfl
  | throw e => rfl
  | panic => rfl
  | alloc v k ih => simp only [Prog.bind, ih]
  | allocInput v k ih => simp only [Prog.bind, ih]
  | enforceZero lc k ih => simp only [Prog.bind, ih]
  | multiply v k ih => simp only [Prog.bind, ih]

theorem Forge.mono {p : Prog F α} {Q Q' : (Var → F) → α → Prop} {Γ : (Var → F) → Prop}
    (h : ∀ w a, Γ w → Q w a → Q' w a) (hp : Forge Γ p Q) : Forge Γ p Q' := by
  have := Forge.seq (f := fun a => (Pure.pure a : Prog F α)) (Q := Q') hp
    fun a w hw => h w a hw.1 hw.2
  rw [Prog.bind_eq] at this
  exact Prog.bind_pure p ▸ this

/-- The same constraints, but perhaps other values -/
structure System.Alike (s t : System F) : Prop where
  gates : s.gates = t.gates
  half : s.half = t.half
  lcs : s.lcs = t.lcs
  inputs : s.inputs = t.inputs

theorem System.Alike.fresh {s t : System F} (h : s.Alike t) (u u' : F) :
    (s.fresh u).1 = (t.fresh u').1 ∧ (s.fresh u).2.Alike (t.fresh u').2 := by
  unfold System.fresh
  rw [← h.half]
  cases s.half with
  | some i => exact ⟨rfl, h.gates, rfl, h.lcs, h.inputs⟩
  | none => exact ⟨by rw [h.gates], by simp [h.gates], by simp [h.gates], h.lcs, h.inputs⟩

omit [Field F] in
theorem System.Alike.constrain {s t : System F} (h : s.Alike t) (lc : LC F) :
    (s.constrain lc).Alike (t.constrain lc) :=
  ⟨h.gates, h.half, by simp [System.constrain, h.lcs], h.inputs⟩

omit [Field F] in
theorem System.Alike.expose {s t : System F} (h : s.Alike t) (x : Var) (o : Option F) :
    (s.expose x o).Alike (t.expose x o) :=
  ⟨h.gates, h.half, by simp [System.expose, System.constrain, h.lcs],
    by simp [System.expose, System.constrain, h.lcs, h.inputs]⟩

omit [Field F] in
theorem System.Alike.gate {s t : System F} (h : s.Alike t) (u u' : F × F × F) :
    (s.gate u).Alike (t.gate u') := ⟨by simp [System.gate, h.gates], h.half, h.lcs, h.inputs⟩

/-- The cheating prover has a satisfying assignment. -/
theorem Forge.collect (p : Prog F α) :
    ∀ {s t : System F} {Γ : (Var → F) → Prop} {Q : (Var → F) → α → Prop}, s.Alike t → t.Inv →
      t.InputsOk → t.GatesOk → t.LcsOk → (∀ w, t.Agrees w → Γ w) → Forge Γ p Q →
      ∃ a s' t', Circuit.collect true p s = .ok (a, s') ∧ s'.Alike t' ∧ Q t'.w a ∧ t'.GatesOk ∧
        t'.LcsOk := by
  have self : ∀ s : System F, s.Agrees s.w := fun s _ _ => rfl
  induction p with
  | pure a =>
    intro s t Γ Q hst hi hio hg hl hΓ hf
    exact ⟨a, s, t, rfl, hst, hf _ (hΓ _ (self t)), hg, hl⟩
  | throw e => intro s t Γ Q hst hi hio hg hl hΓ hf; exact (hf ⟨_, hΓ _ (self t)⟩).elim
  | panic => intro s t Γ Q hst hi hio hg hl hΓ hf; exact (hf ⟨_, hΓ _ (self t)⟩).elim
  | alloc v k ih =>
    intro s t Γ Q hst hi hio hg hl hΓ hf
    obtain ⟨u, u', rfl, hk⟩ := hf ⟨_, hΓ _ (self t)⟩
    obtain ⟨h1, h2, h3⟩ := fresh_issued hi u'
    have hkeep := keeps_fresh (s := t) u'
    obtain ⟨he, ha⟩ := hst.fresh u u'
    obtain ⟨a, s', t', hr, h⟩ := ih (s.fresh u).1 (some u) ha (hi.fresh u') (inputsOk_fresh hio u')
      (gatesOk_fresh hi hg u')
      (lcsOk_keeps hkeep (fresh_inputs t u').2 (fresh_inputs t u').1 hl)
      (fun w hw => ⟨hΓ w (agrees_of_keeps hkeep hw), by rw [he]; exact (hw _ h2).trans h3⟩) (hk _)
    exact ⟨a, s', t', hr, h⟩
  | allocInput v k ih =>
    intro s t Γ Q hst hi hio hg hl hΓ hf
    obtain ⟨u, rfl, hk⟩ := hf ⟨_, hΓ _ (self t)⟩
    obtain ⟨h1, h2, h3⟩ := fresh_issued hi u
    have hkeep : t.Keeps ((t.fresh u).2.expose (t.fresh u).1 (some u)) := keeps_fresh (s := t) u
    have hio' := inputsOk_fresh hio u
    obtain ⟨he, ha⟩ := hst.fresh u u
    obtain ⟨a, s', t', hr, h⟩ := ih (s.fresh u).1 (some u)
      (t := (t.fresh u).2.expose (t.fresh u).1 (some u))
      (s := (s.fresh u).2.expose (s.fresh u).1 (some u)) (by rw [he]; exact ha.expose _ _)
      (((hi.fresh u).constrain _).inputs _) (inputsOk_expose hio' _ _) (gatesOk_fresh hi hg u)
      (lcsOk_expose hio' (lcsOk_keeps (keeps_fresh (s := t) u) (fresh_inputs t u).2
        (fresh_inputs t u).1 hl) h2 h3)
      (fun w hw => ⟨hΓ w (agrees_of_keeps hkeep hw), by rw [he]; exact (hw _ h2).trans h3⟩) (hk _)
    exact ⟨a, s', t', hr, h⟩
  | enforceZero lc k ih =>
    intro s t Γ Q hst hi hio hg hl hΓ hf
    obtain ⟨a, s', t', hr, h⟩ := ih (hst.constrain lc) (hi.constrain lc) (inputsOk_constrain hio lc) hg
      (lcsOk_constrain hio hl fun w hw => hf.1 w (hΓ w hw)) hΓ hf.2
    exact ⟨a, s', t', hr, h⟩
  | multiply v k ih =>
    intro s t Γ Q hst hi hio hg hl hΓ hf
    obtain ⟨u, u', rfl, hmul, hk⟩ := hf ⟨_, hΓ _ (self t)⟩
    have hkeep := keeps_gate (s := t) u'
    have ha := (gate_issued hi u' (x := .A (t.gates + 1)) rfl).2
    have hb := (gate_issued hi u' (x := .B (t.gates + 1)) rfl).2
    have hcc := (gate_issued hi u' (x := .C (t.gates + 1)) rfl).2
    obtain ⟨a, s', t', hr, h⟩ := ih (.A (s.gates + 1)) (.B (s.gates + 1)) (.C (s.gates + 1))
      (some u) (hst.gate u u') (hi.gate u') ⟨hio.sorted, hio.range⟩ (gatesOk_gate hg hmul)
      (lcsOk_keeps hkeep rfl rfl hl) (by
        intro w hw
        rw [hst.gates]
        refine ⟨hΓ w (agrees_of_keeps hkeep hw), (hw _ ha).trans ?_, (hw _ hb).trans ?_,
          (hw _ hcc).trans ?_⟩ <;> simp [System.gate]) (hk _ _ _)
    exact ⟨a, s', t', hr, h⟩

theorem forgeable_of_forge {circuit : Var → Prog F α} {Q : (Var → F) → α → Prop}
    (h : ∀ one, Forge (fun w => w one = 1) (circuit one) Q) : Forgeable circuit Q := by
  obtain ⟨a, s, t, hs, hst, hQ, hg, hl⟩ := Forge.collect (circuit (.A 1)) (s := start 1) (t := start 1)
    (Q := Q) ⟨rfl, rfl, rfl, rfl⟩ (start_inv 1) (start_inputsOk 1) (start_gatesOk 1) start_lcsOk
    (fun w hw => (hw _ (start_issued 1)).trans (start_w 1)) (h (.A 1))
  refine ⟨a, s, t.w, hs, satisfied_of_ok (collect_prefix hs).1 ?_ ?_, hQ⟩
  · intro i h1 h2
    exact hg i h1 (hst.gates ▸ h2)
  · rw [hst.lcs, hst.inputs]
    exact hl _ fun _ _ => rfl

/-- What can be forged is not enforced. -/
theorem Forgeable.not_enforces {circuit : Var → Prog F α} {Q : (Var → F) → α → Prop}
    (h : Forgeable circuit fun w a => ¬ Q w a) : ¬ Enforces circuit Q := by
  obtain ⟨a, s, w, hs, hw, hQ⟩ := h
  exact fun he => hQ (he true a s w _ hs hw)

end Circuit
end Halo
