import Verif.Lemmas.Satisfied
import Verif.Spec.Traced
/-!
# The synthesizer hands out distinct variables and keeps their values
-/
namespace Halo
namespace Circuit
variable {F : Type} [Field F]

/-- The variable may have been handed out. -/
def System.Issued (s : System F) (v : Var) : Prop :=
  0 < v.index ∧ v.index ≤ s.gates ∧ (s.half = some v.index → v = .A v.index)

/-- All gates multiply. -/
def System.GatesOk (s : System F) : Prop :=
  ∀ i, 1 ≤ i → i ≤ s.gates → s.w (.A i) * s.w (.B i) = s.w (.C i)

/-- The later system keeps the variables of the earlier one. -/
def System.Keeps (s s' : System F) : Prop := ∀ v, s.Issued v → s'.Issued v ∧ s'.w v = s.w v

omit [Field F] in
theorem System.Keeps.refl (s : System F) : s.Keeps s := fun _ h => ⟨h, rfl⟩

omit [Field F] in
theorem System.Keeps.trans {s s' s'' : System F} (h : s.Keeps s') (h' : s'.Keeps s'') :
    s.Keeps s'' := fun v hv => ⟨(h' v (h v hv).1).1, ((h' v (h v hv).1).2).trans (h v hv).2⟩

theorem keeps_fresh {s : System F} (v : F) : s.Keeps (s.fresh v).2 := by
  intro x ⟨h1, h2, h3⟩
  unfold System.fresh
  cases hh : s.half with
  | some i =>
    refine ⟨⟨h1, h2, by simp⟩, ?_⟩
    have hx : x ≠ .B i := by
      rintro rfl
      exact absurd (h3 (by simp [hh, Var.index])) (by simp)
    have hx' : x ≠ .C i := by
      rintro rfl
      exact absurd (h3 (by simp [hh, Var.index])) (by simp)
    simp [Function.update_of_ne hx, Function.update_of_ne hx']
  | none =>
    refine ⟨⟨h1, by simp only; omega, ?_⟩, ?_⟩
    · simp only [Option.some.injEq]; omega
    · have hx : x ≠ .A (s.gates + 1) := by rintro rfl; simp only [Var.index] at h2; omega
      simp [Function.update_of_ne hx]

theorem fresh_issued {s : System F} (hi : s.Inv) (v : F) :
    ¬ s.Issued (s.fresh v).1 ∧ (s.fresh v).2.Issued (s.fresh v).1 ∧
      (s.fresh v).2.w (s.fresh v).1 = v := by
  unfold System.fresh
  cases hh : s.half with
  | some i =>
    obtain ⟨h1, h2, _⟩ := hi.half i hh
    refine ⟨?_, ⟨h1, h2, by simp⟩, by simp⟩
    rintro ⟨_, _, h⟩
    exact absurd (h (by simp [hh, Var.index])) (by simp)
  | none =>
    refine ⟨?_, ⟨Nat.succ_pos _, le_refl _, by simp [Var.index]⟩, by simp⟩
    rintro ⟨_, h, _⟩
    simp only [Var.index] at h
    omega

theorem gatesOk_fresh {s : System F} (hi : s.Inv) (h : s.GatesOk) (v : F) :
    (s.fresh v).2.GatesOk := by
  unfold System.fresh
  cases hh : s.half with
  | some i =>
    intro j h1 h2
    by_cases hj : j = i
    · subst hj; simp
    · have := h j h1 h2
      simpa [Function.update_apply, hj] using this
  | none =>
    intro j h1 h2
    by_cases hj : j = s.gates + 1
    · subst hj
      have hb := hi.unused (.B (s.gates + 1)) (by simp [Var.index])
      have hc := hi.unused (.C (s.gates + 1)) (by simp [Var.index])
      simp [hb, hc]
    · have := h j h1 (by simp only at h2; omega)
      simpa [Function.update_apply, hj] using this

omit [Field F] in
theorem keeps_gate {s : System F} (v : F × F × F) : s.Keeps (s.gate v) := by
  intro x ⟨h1, h2, h3⟩
  have hne : ∀ y : Var, y.index = s.gates + 1 → x ≠ y := by
    rintro y hy rfl; omega
  refine ⟨⟨h1, by simp only [System.gate]; omega, h3⟩, ?_⟩
  simp [System.gate, Function.update_of_ne (hne (.A (s.gates + 1)) rfl),
    Function.update_of_ne (hne (.B (s.gates + 1)) rfl),
    Function.update_of_ne (hne (.C (s.gates + 1)) rfl)]

theorem gate_issued {s : System F} (hi : s.Inv) (v : F × F × F) {x : Var}
    (hx : x.index = s.gates + 1) : ¬ s.Issued x ∧ (s.gate v).Issued x := by
  refine ⟨fun h => by have := h.2.1; omega, by omega, by simp [System.gate, hx], ?_⟩
  intro h
  have := (hi.half _ h).2.1
  omega

theorem gatesOk_gate {s : System F} (h : s.GatesOk) {v : F × F × F} (hv : v.1 * v.2.1 = v.2.2) :
    (s.gate v).GatesOk := by
  intro j h1 h2
  by_cases hj : j = s.gates + 1
  · subst hj; simp [System.gate, hv]
  · have := h j h1 (by simp only [System.gate] at h2; omega)
    simpa [System.gate, Function.update_apply, hj] using this

omit [Field F] in
theorem Prog.collect_map_ok [Field F] {known : Bool} {α β : Type} (f : α → β) (p : Prog F α) :
    ∀ (s : System F), collect known (p.map f) s =
      (collect known p s).map fun r => (f r.1, r.2) := by
  induction p with
  | pure a => intro s; rfl
  | throw e => intro s; rfl
  | panic => intro s; rfl
  | alloc v k ih =>
    intro s
    cases known
    · simp only [Prog.map, collect_alloc_false, ih]
    · cases v with
      | error e => rfl
      | ok v => simp only [Prog.map, collect_alloc_ok, ih]
  | allocInput v k ih =>
    intro s
    cases known
    · simp only [Prog.map, collect_allocInput_false, ih]
    · cases v with
      | error e => rfl
      | ok v => simp only [Prog.map, collect_allocInput_ok, ih]
  | enforceZero lc k ih => intro s; exact ih _
  | multiply v k ih =>
    intro s
    cases known
    · simp only [Prog.map, collect_multiply_false, ih]
    · cases v with
      | error e => rfl
      | ok v => simp only [Prog.map, collect_multiply_ok, ih]

theorem run_map {β ι : Type} (B : Backend F β ι) {α γ : Type} (f : α → γ) (p : Prog F α) :
    ∀ d, Basic.run B (p.map f) d = (Basic.run B p d).map fun r => (f r.1, r.2) := by
  have hb : ∀ {ε δ : Type} (e : Except Fail ε) (g : ε → Except Fail (α × Driver β))
      (k : α × Driver β → δ), (e >>= fun x => (g x).map k) = (e >>= g).map k := by
    intro ε δ e g k
    cases e <;> rfl
  induction p with
  | pure a => intro d; rfl
  | throw e => intro d; rfl
  | panic => intro d; rfl
  | alloc v k ih => intro d; simp only [Prog.map, Basic.run, ih, hb]
  | allocInput v k ih => intro d; simp only [Prog.map, Basic.run, ih, hb]
  | enforceZero lc k ih => intro d; simp only [Prog.map, Basic.run, ih, hb]
  | multiply v k ih => intro d; simp only [Prog.map, Basic.run, ih, hb]

theorem run_traced {β ι : Type} (B : Backend F β ι) {α : Type} (p : Prog F α) :
    ∀ d, (Basic.run B p.traced d).map (fun r => (r.1.1, r.2)) = Basic.run B p d := by
  have hb : ∀ {ε δ ζ : Type} (e : Except Fail ε) (g : ε → Except Fail ζ)
      (k : ζ → δ), (e >>= g).map k = (e >>= fun x => (g x).map k) := by
    intro ε δ ζ e g k
    cases e <;> rfl
  have hm : ∀ {δ ε ζ : Type} (e : Except Fail δ) (f : δ → ε) (g : ε → ζ),
      (e.map f).map g = e.map fun x => g (f x) := by
    intro δ ε ζ e f g
    cases e <;> rfl
  induction p with
  | pure a => intro d; rfl
  | throw e => intro d; rfl
  | panic => intro d; rfl
  | alloc v k ih => intro d; simp only [Prog.traced, Basic.run, run_map, hb, hm, ih]
  | allocInput v k ih => intro d; simp only [Prog.traced, Basic.run, run_map, hb, hm, ih]
  | enforceZero lc k ih => intro d; simp only [Prog.traced, Basic.run, hb, ih]
  | multiply v k ih => intro d; simp only [Prog.traced, Basic.run, run_map, hb, hm, ih]

/-- What a run has handed out -/
structure TraceOk (s s' : System F) (log : Log F) : Prop where
  inv : s'.Inv
  keeps : s.Keeps s'
  nodup : (log.vars.map Prod.fst).Nodup
  notIssued : ∀ p ∈ log.vars, ¬ s.Issued p.1
  issued : ∀ p ∈ log.vars, s'.Issued p.1 ∧ p.2 = some (s'.w p.1)
  gates : s.GatesOk → (∀ p ∈ log.products, p.1 * p.2.1 = p.2.2) → s'.GatesOk

theorem TraceOk.step {s s1 s' : System F} {x : Var} {v : F} {log : Log F} (hk : s.Keeps s1)
    (h1 : ¬ s.Issued x) (h2 : s1.Issued x) (h3 : s1.w x = v) (hg : s.GatesOk → s1.GatesOk)
    (h : TraceOk s1 s' log) : TraceOk s s' ⟨(x, some v) :: log.vars, log.products⟩ where
  inv := h.inv
  keeps := hk.trans h.keeps
  nodup := by
    simp only [List.map_cons, List.nodup_cons]
    refine ⟨?_, h.nodup⟩
    intro hx
    obtain ⟨p, hp, he⟩ := List.mem_map.1 hx
    exact h.notIssued p hp (he ▸ h2)
  notIssued := by
    intro p hp
    rcases List.mem_cons.1 hp with rfl | hp
    · exact h1
    · exact fun hi => h.notIssued p hp (hk _ hi).1
  issued := by
    intro p hp
    rcases List.mem_cons.1 hp with rfl | hp
    · exact ⟨(h.keeps _ h2).1, by rw [(h.keeps _ h2).2, h3]⟩
    · exact h.issued p hp
  gates := fun hs hp => h.gates (hg hs) hp

theorem collect_traced {α : Type} (p : Prog F α) :
    ∀ {s : System F} {a : α} {log : Log F} {s' : System F}, s.Inv →
      collect true p.traced s = .ok ((a, log), s') → TraceOk s s' log := by
  have hm : ∀ {δ : Type} {x : Except Fail ((α × Log F) × System F)}
      {f : (α × Log F) × System F → δ} {y : δ}, x.map f = .ok y → ∃ z, x = .ok z ∧ f z = y := by
    intro δ x f y h
    cases x with
    | error e => simp [Except.map] at h
    | ok z => exact ⟨z, rfl, by simpa [Except.map] using h⟩
  induction p with
  | pure a =>
    intro s a log s' hi h
    simp only [Prog.traced, collect, Except.ok.injEq, Prod.mk.injEq] at h
    obtain ⟨⟨-, rfl⟩, rfl⟩ := h
    exact ⟨hi, .refl _, by simp, by simp, by simp, fun h _ => h⟩
  | throw e => intro s a log s' hi h; simp [Prog.traced, collect] at h
  | panic => intro s a log s' hi h; simp [Prog.traced, collect] at h
  | alloc v k ih =>
    intro s a log s' hi h
    cases v with
    | error e => simp [Prog.traced, collect] at h
    | ok v =>
      rw [Prog.traced, collect_alloc_ok, Prog.collect_map_ok] at h
      obtain ⟨⟨⟨a1, log1⟩, s1⟩, hc, he⟩ := hm h
      simp only [Prod.mk.injEq] at he
      obtain ⟨⟨-, rfl⟩, rfl⟩ := he
      obtain ⟨h1, h2, h3⟩ := fresh_issued hi v
      exact .step (keeps_fresh v) h1 h2 h3 (fun h => gatesOk_fresh hi h v)
        (ih _ _ (hi.fresh v) hc)
  | allocInput v k ih =>
    intro s a log s' hi h
    cases v with
    | error e => simp [Prog.traced, collect] at h
    | ok v =>
      rw [Prog.traced, collect_allocInput_ok, Prog.collect_map_ok] at h
      obtain ⟨⟨⟨a1, log1⟩, s1⟩, hc, he⟩ := hm h
      simp only [Prod.mk.injEq] at he
      obtain ⟨⟨-, rfl⟩, rfl⟩ := he
      obtain ⟨h1, h2, h3⟩ := fresh_issued hi v
      exact .step (s1 := (s.fresh v).2.expose (s.fresh v).1 (some v)) (keeps_fresh v) h1 h2 h3
        (fun h => gatesOk_fresh hi h v) (ih _ _ (((hi.fresh v).constrain _).inputs _) hc)
  | enforceZero lc k ih =>
    intro s a log s' hi h
    have := ih (hi.constrain lc) h
    exact ⟨this.inv, this.keeps, this.nodup, this.notIssued, this.issued, this.gates⟩
  | multiply v k ih =>
    intro s a log s' hi h
    cases v with
    | error e => simp [Prog.traced, collect] at h
    | ok v =>
      rw [Prog.traced, collect_multiply_ok, Prog.collect_map_ok] at h
      obtain ⟨⟨⟨a1, log1⟩, s1⟩, hc, he⟩ := hm h
      simp only [Prod.mk.injEq] at he
      obtain ⟨⟨-, rfl⟩, rfl⟩ := he
      have h := ih _ _ _ _ (hi.gate v) hc
      have ha := gate_issued hi v (x := .A (s.gates + 1)) rfl
      have hb := gate_issued hi v (x := .B (s.gates + 1)) rfl
      have hcc := gate_issued hi v (x := .C (s.gates + 1)) rfl
      have hfresh : ∀ x, (s.gate v).Issued x → x ∉ log1.vars.map Prod.fst := by
        intro x hx hm
        obtain ⟨p, hp, rfl⟩ := List.mem_map.1 hm
        exact h.notIssued p hp hx
      refine ⟨h.inv, (keeps_gate v).trans h.keeps, ?_, ?_, ?_, ?_⟩
      · simp only [List.map_cons, List.nodup_cons, List.mem_cons]
        refine ⟨?_, ?_, hfresh _ hcc.2, h.nodup⟩
        · rintro (h | h | h)
          · simp at h
          · simp at h
          · exact hfresh _ ha.2 h
        · rintro (h | h)
          · simp at h
          · exact hfresh _ hb.2 h
      · intro p hp
        simp only [List.mem_cons] at hp
        rcases hp with rfl | rfl | rfl | hp
        · exact ha.1
        · exact hb.1
        · exact hcc.1
        · exact fun hi => h.notIssued p hp (keeps_gate v _ hi).1
      · intro p hp
        simp only [List.mem_cons] at hp
        rcases hp with rfl | rfl | rfl | hp
        · refine ⟨(h.keeps _ ha.2).1, ?_⟩
          rw [(h.keeps _ ha.2).2]; simp [System.gate]
        · refine ⟨(h.keeps _ hb.2).1, ?_⟩
          rw [(h.keeps _ hb.2).2]; simp [System.gate]
        · refine ⟨(h.keeps _ hcc.2).1, ?_⟩
          rw [(h.keeps _ hcc.2).2]; simp [System.gate]
        · exact h.issued p hp
      · intro hs hp
        refine h.gates (gatesOk_gate hs (hp v (by simp))) fun p hp' => hp p (by simp [hp'])

/-- The whole synthesis -/
theorem circuitSystem_traced {α : Type} {circuit : Var → Prog F α} {a : α} {log : Log F}
    {s : System F} (h : circuitSystem true (fun one => (circuit one).traced) = .ok ((a, log), s)) :
    s.Inv ∧ (Var.A 1 :: log.vars.map Prod.fst).Nodup ∧ s.w (.A 1) = 1 ∧ s.Issued (.A 1) ∧
      (∀ p ∈ log.vars, s.Issued p.1 ∧ p.2 = some (s.w p.1)) ∧
      ((∀ p ∈ log.products, p.1 * p.2.1 = p.2.2) → s.GatesOk) := by
  have hi0 : (((System.empty : System F).fresh 1).2.expose ((System.empty : System F).fresh 1).1 (some 1)).Inv :=
    ((System.Inv.empty.fresh 1).constrain _).inputs _
  have ht := collect_traced (circuit (.A 1)) hi0 h
  obtain ⟨h1, h2, h3⟩ := fresh_issued (System.Inv.empty (F := F)) 1
  have hone := ht.keeps (.A 1) h2
  refine ⟨ht.inv, ?_, hone.2.trans h3, hone.1, ht.issued, ht.gates ?_⟩
  · rw [List.nodup_cons]
    refine ⟨fun hm => ?_, ht.nodup⟩
    obtain ⟨p, hp, he⟩ := List.mem_map.1 hm
    exact ht.notIssued p hp (he ▸ h2)
  · exact gatesOk_fresh .empty (fun i h1 h2 => by simp only [System.empty] at h2; omega) 1

/-- Tracing does not change a synthesis. -/
theorem synthesize_traced {β ι : Type} (B : Backend F β ι) {α : Type} {circuit : Var → Prog F α}
    (b : β) {a : α} {log : Log F} {d : Driver β}
    (h : Basic.synthesize B b (fun one => (circuit one).traced) = .ok ((a, log), d)) :
    Basic.synthesize B b circuit = .ok (a, d) := by
  unfold Basic.synthesize at h ⊢
  cases he : Basic.allocInput B ⟨b, none, 0, 0⟩ (.ok 1) with
  | error e => simp [he] at h
  | ok r =>
    simp only [he] at h ⊢
    split at h
    · rename_i h1
      rw [if_pos h1, ← run_traced, h]
      rfl
    · cases h

end Circuit
end Halo
