import Verif.Lemmas.Traced
import Verif.Spec.Gadget
/-!
# The public inputs that a run with values exposes are the only ones that satisfy it
-/
namespace Halo
namespace Circuit
variable {F : Type} [Field F]

/-- Every public input is exposed by a constraint that consists of a variable with its value. -/
structure System.ExposedOk (s : System F) : Prop where
  inv : s.Inv
  exposed : ∀ p ∈ s.inputs, 1 ≤ p.1 ∧ ∃ x, s.Issued x ∧ s.lcs[p.1 - 1]? = some ⟨[(x, .one)]⟩ ∧
    p.2 = some (s.w x)

omit [Field F] in
theorem ExposedOk.step [Field F] {s s' : System F} (h : s.ExposedOk) (hi : s'.Inv) (hk : s.Keeps s')
    (hin : s'.inputs = s.inputs) (hl : s.lcs <+: s'.lcs) : s'.ExposedOk := by
  refine ⟨hi, fun p hp => ?_⟩
  rw [hin] at hp
  obtain ⟨h1, x, h2, h3, h4⟩ := h.exposed p hp
  obtain ⟨k1, k2⟩ := hk x h2
  refine ⟨h1, x, k1, ?_, by rw [k2]; exact h4⟩
  obtain ⟨l, hl⟩ := hl
  have hlt : p.1 - 1 < s.lcs.length := (List.getElem?_eq_some_iff.1 h3).1
  rw [← hl, List.getElem?_append_left hlt, h3]

theorem exposedOk_fresh {s : System F} (h : s.ExposedOk) (v : F) : (s.fresh v).2.ExposedOk :=
  ExposedOk.step h (h.inv.fresh v) (keeps_fresh v) (fresh_inputs s v).1
    (by rw [(fresh_inputs s v).2])

theorem exposedOk_constrain {s : System F} (h : s.ExposedOk) (lc : LC F) :
    (s.constrain lc).ExposedOk :=
  ExposedOk.step h (h.inv.constrain lc) (fun _ hx => ⟨hx, rfl⟩) rfl (List.prefix_append _ _)

theorem exposedOk_gate {s : System F} (h : s.ExposedOk) (v : F × F × F) : (s.gate v).ExposedOk :=
  ExposedOk.step h (h.inv.gate v) (keeps_gate v) rfl List.prefix_rfl

theorem exposedOk_expose {s : System F} (h : s.ExposedOk) {x : Var} (hx : s.Issued x) :
    (s.expose x (some (s.w x))).ExposedOk := by
  have h' := exposedOk_constrain h ⟨[(x, .one)]⟩
  refine ⟨(h.inv.constrain _).inputs _, fun p hp => ?_⟩
  simp only [System.expose, List.mem_append, List.mem_singleton] at hp
  rcases hp with hp | rfl
  · exact h'.exposed p hp
  · refine ⟨by simp [System.constrain], x, hx, by simp [System.expose, System.constrain], rfl⟩

theorem exposedOk_fresh_expose {s : System F} (h : s.ExposedOk) (v : F) :
    ((s.fresh v).2.expose (s.fresh v).1 (some v)).ExposedOk := by
  obtain ⟨-, h1, h2⟩ := fresh_issued h.inv v
  have := exposedOk_expose (exposedOk_fresh h v) h1
  rwa [h2] at this

theorem exposedOk_collect {α : Type} (p : Prog F α) :
    ∀ {s a s'}, collect true p s = .ok (a, s') → s.ExposedOk → s'.ExposedOk := by
  induction p with
  | pure a =>
    intro s a s' h hs
    simp only [collect, Except.ok.injEq, Prod.mk.injEq] at h
    exact h.2 ▸ hs
  | throw e => intro s a s' h; simp [collect] at h
  | panic => intro s a s' h; simp [collect] at h
  | alloc v k ih =>
    intro s a s' h hs
    cases v with
    | error e => simp [collect] at h
    | ok v => exact ih _ _ h (exposedOk_fresh hs v)
  | allocInput v k ih =>
    intro s a s' h hs
    cases v with
    | error e => simp [collect] at h
    | ok v => exact ih _ _ h (exposedOk_fresh_expose hs v)
  | enforceZero lc k ih => intro s a s' h hs; exact ih h (exposedOk_constrain hs lc)
  | multiply v k ih =>
    intro s a s' h hs
    cases v with
    | error e => simp [collect] at h
    | ok v => exact ih _ _ _ _ h (exposedOk_gate hs v)

theorem exposedOk_circuit {α : Type} {circuit : Var → Prog F α} {a : α} {s : System F}
    (h : circuitSystem true circuit = .ok (a, s)) : s.ExposedOk :=
  exposedOk_collect _ h (exposedOk_fresh_expose ⟨.empty, by simp [System.empty]⟩ 1)

theorem rhs_mem {l : List (ℕ × F)} (hl : (l.map Prod.fst).Nodup) {q : ℕ} {v : F} (h : (q, v) ∈ l) :
    rhs l q = v := by
  unfold rhs
  cases hf : l.find? fun p => p.1 = q with
  | none => exact absurd (List.find?_eq_none.1 hf _ h) (by simp)
  | some p =>
    have h1 := List.find?_some hf
    have h2 := List.mem_of_find?_eq_some hf
    simp only [decide_eq_true_eq] at h1
    have : p = (q, v) := List.inj_on_of_nodup_map hl h2 h h1
    simp [this]

/-- The values satisfy the circuit for its own public inputs only. -/
theorem publicInputs_eq {α : Type} {circuit : Var → Prog F α} {a : α} {s : System F}
    (h : circuitSystem true circuit = .ok (a, s)) {inputs : List F}
    (hlen : s.inputs.length = inputs.length + 1) (hsat : s.Satisfied s.w inputs) :
    s.publicInputs = inputs := by
  have hex := (exposedOk_circuit h).exposed
  have hin := inputsOk_circuit h
  have key : (s.inputs.map fun p => p.2.getD 0) = 1 :: inputs := by
    apply List.ext_getElem
    · simp [hlen]
    intro i h1 h2
    have hi : i < s.inputs.length := by simpa using h1
    have hm : s.inputs[i] ∈ s.inputs := List.getElem_mem hi
    obtain ⟨e1, x, -, e2, e3⟩ := hex _ hm
    have := hsat.2 _ _ e2
    rw [Nat.sub_add_cancel e1, rhs_mem (v := (1 :: inputs)[i])] at this
    · rw [List.getElem_map, e3, ← this]
      simp [LC.eval, Coeff.value]
    · rw [List.map_fst_zip (by simp [hlen])]
      exact hin.sorted.imp fun h => Nat.ne_of_lt h
    · have : ((s.inputs.map fun p => p.1).zip (1 :: inputs))[i]'(by simp [hlen]; omega) =
          (s.inputs[i].1, (1 :: inputs)[i]) := by simp
      rw [← this]
      exact List.getElem_mem _
  rw [System.publicInputs, key, List.tail_cons]

end Circuit
end Halo
