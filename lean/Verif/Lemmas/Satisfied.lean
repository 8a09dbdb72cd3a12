import Verif.Lemmas.SynthWires
import Verif.Lemmas.LinComb
/-!
# `is_satisfied`
-/
namespace Halo
namespace Circuit
variable {F : Type} [Field F]

/-- What is kept by every step is kept by a run. -/
theorem collect_inv {known : Bool} {P : System F → Prop} (hf : ∀ s v, P s → P (s.fresh v).2)
    (hc : ∀ s lc, P s → P (s.constrain lc)) (hg : ∀ s v, P s → P (s.gate v))
    (he : ∀ s v o, P s → P ((s.fresh v).2.expose (s.fresh v).1 o)) {α : Type} (p : Prog F α) :
    ∀ {s a s'}, collect known p s = .ok (a, s') → P s → P s' := by
  induction p with
  | pure a =>
    intro s a s' h hs
    simp only [collect, Except.ok.injEq, Prod.mk.injEq] at h
    exact h.2 ▸ hs
  | throw e => intro s a s' h; simp [collect] at h
  | panic => intro s a s' h; simp [collect] at h
  | alloc v k ih =>
    intro s a s' h hs
    cases known
    · rw [collect_alloc_false] at h
      exact ih _ _ h (hf _ _ hs)
    · cases v with
      | error e => simp [collect] at h
      | ok v => exact ih _ _ h (hf _ _ hs)
  | allocInput v k ih =>
    intro s a s' h hs
    cases known
    · rw [collect_allocInput_false] at h
      exact ih _ _ h (he _ _ _ hs)
    · cases v with
      | error e => simp [collect] at h
      | ok v => exact ih _ _ h (he _ _ _ hs)
  | enforceZero lc k ih => intro s a s' h hs; exact ih h (hc _ _ hs)
  | multiply v k ih =>
    intro s a s' h hs
    cases known
    · rw [collect_multiply_false] at h
      exact ih _ _ _ _ h (hg _ _ hs)
    · cases v with
      | error e => simp [collect] at h
      | ok v => exact ih _ _ _ _ h (hg _ _ hs)

theorem circuitSystem_inv {known : Bool} {P : System F → Prop} (h0 : P System.empty)
    (hf : ∀ s v, P s → P (s.fresh v).2)
    (hc : ∀ s lc, P s → P (s.constrain lc)) (hg : ∀ s v, P s → P (s.gate v))
    (he : ∀ s v o, P s → P ((s.fresh v).2.expose (s.fresh v).1 o)) {α : Type}
    {circuit : Var → Prog F α} {a : α} {s' : System F}
    (h : circuitSystem known circuit = .ok (a, s')) : P s' :=
  collect_inv hf hc hg he _ h (he _ _ _ h0)

/-- The inputs are exposed by increasing numbers of existing constraints. -/
structure System.InputsOk (s : System F) : Prop where
  sorted : (s.inputs.map fun p => p.1).Pairwise (· < ·)
  range : ∀ p ∈ s.inputs, 1 ≤ p.1 ∧ p.1 ≤ s.lcs.length

theorem fresh_inputs (s : System F) (v : F) :
    (s.fresh v).2.inputs = s.inputs ∧ (s.fresh v).2.lcs = s.lcs := by
  unfold System.fresh; cases s.half <;> exact ⟨rfl, rfl⟩

omit [Field F] in
theorem inputsOk_constrain {s : System F} (h : s.InputsOk) (lc : LC F) : (s.constrain lc).InputsOk :=
  ⟨h.sorted, fun p hp => by
    have := h.range p hp
    simp only [System.constrain, List.length_append, List.length_singleton]
    omega⟩

theorem inputsOk_fresh {s : System F} (h : s.InputsOk) (v : F) : (s.fresh v).2.InputsOk := by
  obtain ⟨h1, h2⟩ := fresh_inputs s v
  exact ⟨by rw [h1]; exact h.sorted, by rw [h1, h2]; exact h.range⟩

omit [Field F] in
theorem inputsOk_expose {s : System F} (h : s.InputsOk) (x : Var) (o : Option F) :
    (s.expose x o).InputsOk := by
  refine ⟨?_, ?_⟩
  · simp only [System.expose, System.constrain, List.map_append, List.map_cons, List.map_nil,
      List.length_append, List.length_singleton]
    rw [List.pairwise_append]
    refine ⟨h.sorted, by simp, ?_⟩
    intro a ha b hb
    obtain ⟨p, hp, rfl⟩ := List.mem_map.1 ha
    have := h.range p hp
    simp only [List.mem_singleton] at hb
    omega
  · intro p hp
    simp only [System.expose, System.constrain, List.mem_append, List.mem_singleton,
      List.length_append, List.length_singleton] at hp ⊢
    rcases hp with hp | rfl
    · have := h.range p hp; omega
    · simp

theorem inputsOk_circuit {known : Bool} {α : Type} {circuit : Var → Prog F α} {a : α}
    {s : System F} (h : circuitSystem known circuit = .ok (a, s)) : s.InputsOk :=
  circuitSystem_inv (P := System.InputsOk) ⟨by simp [System.empty], by simp [System.empty]⟩
    (fun _ v h => inputsOk_fresh h v) (fun _ lc h => inputsOk_constrain h lc)
    (fun _ _ h => ⟨h.sorted, h.range⟩)
    (fun _ v o h => inputsOk_expose (inputsOk_fresh h v) _ o) h

theorem inv_circuit {known : Bool} {α : Type} {circuit : Var → Prog F α} {a : α}
    {s : System F} (h : circuitSystem known circuit = .ok (a, s)) : s.Inv :=
  circuitSystem_inv (P := System.Inv) .empty (fun _ v h => h.fresh v)
    (fun _ lc h => h.constrain lc) (fun _ v h => h.gate v)
    (fun _ v _ h => ((h.fresh v).constrain _).inputs _) h

section
variable [DecidableEq F]

theorem checkGates_iff (l : List ((F × F) × F)) :
    checkGates l = .ok () ↔ ∀ p ∈ l, p.1.1 * p.1.2 = p.2 := by
  induction l with
  | nil => simp [checkGates]
  | cons p l ih =>
    obtain ⟨⟨a, b⟩, c⟩ := p
    by_cases h : a * b = c <;> simp [checkGates, h, ih]

theorem checkLinear_iff (w : Wires F) (l : List (LC F × F)) :
    checkLinear w l = .ok () ↔ ∀ p ∈ l, p.1.evaluate w.a w.b w.c = some p.2 := by
  induction l with
  | nil => simp [checkLinear]
  | cons p l ih =>
    obtain ⟨lc, r⟩ := p
    unfold checkLinear
    cases he : lc.evaluate w.a w.b w.c with
    | none => simp [he]
    | some x => by_cases h : x = r <;> simp [h, ih, he]

omit [Field F] [DecidableEq F] in
theorem placeInputs_eq (pairs : List (F × ℕ)) :
    ∀ (L : List (LC F × F)), (pairs.map Prod.snd).Nodup →
      (∀ p ∈ pairs, 1 ≤ p.2 ∧ p.2 ≤ L.length) →
      placeInputs L pairs = some (L.mapIdx fun q x =>
        (x.1, ((pairs.find? fun p => p.2 = q + 1).map Prod.fst).getD x.2)) := by
  induction pairs with
  | nil =>
    intro L _ _
    simp only [placeInputs, Option.some_inj]
    apply List.ext_getElem <;> simp
  | cons p ps ih =>
    intro L hn hr
    obtain ⟨v, i⟩ := p
    obtain ⟨h1, h2⟩ := hr (v, i) (by simp)
    simp only at h1 h2
    have hlt : i - 1 < L.length := by omega
    have hat : at1 L i = some L[i - 1] := by
      have : i ≠ 0 := by omega
      simp [at1, this, hlt]
    simp only [List.map_cons, List.nodup_cons] at hn
    simp only [placeInputs, hat, Option.bind_eq_bind, Option.bind_some]
    rw [ih (L.set (i - 1) (L[i - 1].1, v)) hn.2 (by
      intro p hp; simpa using hr p (by simp [hp]))]
    congr 1
    apply List.ext_getElem
    · simp
    · intro q hq1 hq2
      simp only [List.getElem_mapIdx, List.getElem_set]
      by_cases hqi : i - 1 = q
      · have hqi' : i = q + 1 := by omega
        have hnone : ps.find? (fun p => decide (p.2 = q + 1)) = none := by
          rw [List.find?_eq_none]
          intro p hp
          simp only [decide_eq_true_eq]
          intro hpq
          exact hn.1 (List.mem_map.2 ⟨p, hp, by rw [hpq, hqi']⟩)
        simp [hqi', hnone]
      · have hqi' : i ≠ q + 1 := by omega
        simp [hqi, hqi']

omit [DecidableEq F] in
theorem zip_find (values : List F) (idxs : List ℕ) (q : ℕ) :
    (((values.zip idxs).find? fun p => p.2 = q).map Prod.fst).getD 0 =
      rhs (idxs.zip values) q := by
  unfold rhs
  induction values generalizing idxs with
  | nil => simp
  | cons v vs ih =>
    cases idxs with
    | nil => simp
    | cons i is =>
      by_cases h : i = q
      · simp [h]
      · simp [h]
        simpa using ih is

omit [DecidableEq F] in
theorem assigned_wiresOf {w : Var → F} {n : ℕ} {v : Var} (h0 : 1 ≤ v.index) (hn : v.index ≤ n) :
    assigned (wiresOf w n).a (wiresOf w n).b (wiresOf w n).c v = w v := by
  have h1 : v.index - 1 < n := by omega
  have h2 : v.index - 1 + 1 = v.index := by omega
  cases v <;> simp_all [assigned, wiresOf, col, Var.index]

omit [Field F] [DecidableEq F] in
theorem exists_wiresOf {w : Var → F} {n : ℕ} {v : Var} :
    Exists (wiresOf w n).a (wiresOf w n).b (wiresOf w n).c v ↔ 1 ≤ v.index ∧ v.index ≤ n := by
  cases v <;> simp [Exists, wiresOf, Var.index]

omit [DecidableEq F] in
theorem eval_congr {w w' : Var → F} {lc : LC F} (h : ∀ t ∈ lc.terms, w t.1 = w' t.1) :
    lc.eval w = lc.eval w' := by
  unfold LC.eval
  congr 1
  apply List.map_congr_left
  intro t ht
  rw [h t ht]

omit [DecidableEq F] in
theorem evaluate_wiresOf {w : Var → F} {n : ℕ} {lc : LC F} {x : F} :
    lc.evaluate (wiresOf w n).a (wiresOf w n).b (wiresOf w n).c = some x ↔
      (∀ t ∈ lc.terms, 1 ≤ t.1.index ∧ t.1.index ≤ n) ∧ lc.eval w = x := by
  constructor
  · intro h
    have hr : ∀ t ∈ lc.terms, 1 ≤ t.1.index ∧ t.1.index ≤ n := fun t ht =>
      exists_wiresOf.1 (evaluate_some h t ht)
    rw [evaluate_eq (evaluate_some h), Option.some_inj] at h
    refine ⟨hr, ?_⟩
    rw [← h]
    exact (eval_congr fun t ht => assigned_wiresOf (hr t ht).1 (hr t ht).2).symm
  · rintro ⟨hr, h⟩
    rw [evaluate_eq fun t ht => exists_wiresOf.2 (hr t ht), Option.some_inj, ← h]
    exact eval_congr fun t ht => assigned_wiresOf (hr t ht).1 (hr t ht).2

/-- `is_satisfied` answers `Ok(true)` exactly if the system of the circuit is satisfied. -/
theorem isSatisfied_iff (circuit : Var → Prog F Unit) (inputs : List F) :
    isSatisfied circuit inputs = .ok true ↔
      ∃ s, circuitSystem true circuit = .ok ((), s) ∧ s.inputs.length = inputs.length + 1 ∧
        (∀ lc ∈ s.lcs, ∀ t ∈ lc.terms, 1 ≤ t.1.index ∧ t.1.index ≤ s.gates) ∧
        s.Satisfied s.w inputs := by
  have h0 : SatRel (System.empty : System F) ⟨⟨0, 0, ⟨[], [], []⟩, [], [], []⟩, none, 0, 0⟩ :=
    ⟨.empty, rfl, rfl, rfl, rfl, rfl, rfl, rfl, by simp [System.empty], rfl, rfl⟩
  have hf := sim_sat.synthesize_follows circuit h0
  unfold isSatisfied checkAssignment
  cases hc : circuitSystem true circuit with
  | error e =>
    rw [hc] at hf
    cases hs : Basic.synthesize satBackend ⟨0, 0, ⟨[], [], []⟩, [], [], []⟩ circuit with
    | error e' => cases e' <;> simp
    | ok x => rw [hs] at hf; exact hf.elim
  | ok y =>
    rw [hc] at hf
    obtain ⟨⟨⟩, s⟩ := y
    cases hs : Basic.synthesize satBackend ⟨0, 0, ⟨[], [], []⟩, [], [], []⟩ circuit with
    | error e' => rw [hs] at hf; exact (hf.2 trivial).elim
    | ok x =>
      rw [hs] at hf
      obtain ⟨_, d⟩ := x
      obtain ⟨-, hR⟩ := hf
      have hin := inputsOk_circuit hc
      have hassert : d.backend.n = d.backend.wires.a.length ∧
          d.backend.n = d.backend.wires.b.length ∧ d.backend.n = d.backend.wires.c.length ∧
          d.backend.n = d.backend.mults.length ∧ d.backend.q = d.backend.lcs.length := by
        rw [hR.wires, hR.bn, hR.mults, hR.bq, hR.lcs]
        simp [wiresOf]
      simp only [if_pos hassert, Except.ok.injEq, Prod.mk.injEq, true_and, exists_eq_left']
      have hil : d.backend.inputs.length = s.inputs.length := by rw [hR.inputs]; simp
      by_cases hl : inputs.length + 1 ≠ d.backend.inputs.length
      · rw [if_pos hl]
        constructor
        · simp
        · rintro ⟨h, -⟩; exact (hl (by rw [hil, h])).elim
      · rw [if_neg hl]
        push Not at hl
        have hn : (((1 :: inputs).zip d.backend.inputs).map Prod.snd) = d.backend.inputs := by
          rw [List.map_snd_zip]
          simp [hl]
        have hp := placeInputs_eq ((1 :: inputs).zip d.backend.inputs) d.backend.lcs (by
          rw [hn, hR.inputs]
          exact hin.sorted.imp (fun h => Nat.ne_of_lt h)) (by
          intro p hp
          have : p.2 ∈ d.backend.inputs := (List.of_mem_zip hp).2
          rw [hR.inputs] at this
          obtain ⟨p', hp', he⟩ := List.mem_map.1 this
          rw [← he, hR.lcs]
          simpa using hin.range p' hp')
        simp only [hp]
        have hcg := checkGates_iff ((d.backend.wires.a.zip d.backend.wires.b).zip d.backend.wires.c)
        have hcl := checkLinear_iff d.backend.wires (d.backend.lcs.mapIdx fun q x =>
          (x.1, ((((1 :: inputs).zip d.backend.inputs).find? fun p => p.2 = q + 1).map Prod.fst).getD x.2))
        have hgates : (∀ p ∈ (d.backend.wires.a.zip d.backend.wires.b).zip d.backend.wires.c,
            p.1.1 * p.1.2 = p.2) ↔
            ∀ i, 1 ≤ i → i ≤ s.gates → s.w (.A i) * s.w (.B i) = s.w (.C i) := by
          rw [hR.wires]
          simp only [wiresOf, col, List.zip_map', List.mem_map, List.mem_range]
          constructor
          · intro h i h1 h2
            have h3 : i - 1 + 1 = i := by omega
            have := h _ ⟨i - 1, by omega, rfl⟩
            simpa [h3] using this
          · rintro h _ ⟨i, hi, rfl⟩
            exact h (i + 1) (by omega) (by omega)
        have hlin : (∀ p ∈ (d.backend.lcs.mapIdx fun q x =>
            (x.1, ((((1 :: inputs).zip d.backend.inputs).find? fun p => p.2 = q + 1).map Prod.fst).getD x.2)),
            p.1.evaluate d.backend.wires.a d.backend.wires.b d.backend.wires.c = some p.2) ↔
            (∀ lc ∈ s.lcs, ∀ t ∈ lc.terms, 1 ≤ t.1.index ∧ t.1.index ≤ s.gates) ∧
            ∀ q lc, s.lcs[q]? = some lc →
              lc.eval s.w = rhs ((s.inputs.map fun p => p.1).zip (1 :: inputs)) (q + 1) := by
          rw [hR.wires, hR.lcs, hR.inputs]
          have hev : ∀ (q : ℕ) (lc : LC F) (hq : s.lcs[q]? = some lc),
              (lc.evaluate (wiresOf s.w s.gates).a (wiresOf s.w s.gates).b (wiresOf s.w s.gates).c =
                some ((((1 :: inputs).zip (s.inputs.map fun p => p.1)).find? fun p =>
                  p.2 = q + 1).map Prod.fst |>.getD 0)) ↔
              (∀ t ∈ lc.terms, 1 ≤ t.1.index ∧ t.1.index ≤ s.gates) ∧
              lc.eval s.w = rhs ((s.inputs.map fun p => p.1).zip (1 :: inputs)) (q + 1) := by
            intro q lc hq
            rw [evaluate_wiresOf, zip_find]
          constructor
          · intro h
            have key : ∀ q lc, s.lcs[q]? = some lc → _ := fun q lc hq =>
              (hev q lc hq).1 (by
                have hq' := List.getElem?_eq_some_iff.1 hq
                have := h _ (List.mem_mapIdx.2 ⟨q, by simpa using hq'.1, rfl⟩)
                simp only [List.getElem_map, hq'.2] at this
                exact this)
            refine ⟨?_, fun q lc hq => (key q lc hq).2⟩
            intro lc hlc
            obtain ⟨q, hq, he⟩ := List.getElem_of_mem hlc
            exact (key q lc (by rw [List.getElem?_eq_getElem hq, he])).1
          · rintro ⟨h1, h2⟩ p hp
            obtain ⟨q, hq, rfl⟩ := List.mem_mapIdx.1 hp
            simp only [List.length_map] at hq
            have hq' : s.lcs[q]? = some s.lcs[q] := List.getElem?_eq_getElem hq
            simp only [List.getElem_map]
            exact (hev q _ hq').2 ⟨h1 _ (List.getElem_mem hq), h2 q _ hq'⟩
        rw [hgates] at hcg
        rw [hlin] at hcl
        have hlen : s.inputs.length = inputs.length + 1 := by omega
        constructor
        · intro h
          cases h1 : checkGates ((d.backend.wires.a.zip d.backend.wires.b).zip d.backend.wires.c) with
          | error e => rw [h1] at h; simp [Except.bind_error] at h
          | ok _ =>
            rw [h1] at h
            simp only [Except.bind_ok] at h
            cases h2 : checkLinear d.backend.wires (d.backend.lcs.mapIdx fun q x =>
              (x.1, ((((1 :: inputs).zip d.backend.inputs).find? fun p => p.2 = q + 1).map
                Prod.fst).getD x.2)) with
            | error e => rw [h2] at h; simp [Except.bind_error] at h
            | ok _ => exact ⟨hlen, (hcl.1 h2).1, hcg.1 h1, (hcl.1 h2).2⟩
        · rintro ⟨-, h1, h2, h3⟩
          rw [hcg.2 h2]
          simp only [Except.bind_ok]
          rw [hcl.2 ⟨h1, h3⟩]
          rfl

end
end Circuit
end Halo
