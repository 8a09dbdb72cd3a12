import Verif.Spec.Count
import Verif.Lemmas.Synth
import Mathlib.Data.List.Basic
import Mathlib.Tactic.Ring
/-!
# `constraint_count` follows the specification
-/
namespace Halo
namespace Circuit
variable {F : Type} [Field F]

namespace Counts

@[ext] theorem ext' {a b : Counts} (h1 : a.allocations = b.allocations) (h2 : a.multConstraints = b.multConstraints)
    (h3 : a.totalMults = b.totalMults) (h4 : a.totalLcs = b.totalLcs) : a = b := by
  cases a; cases b; simp_all

theorem add_mk (a b c d a' b' c' d' : ℕ) :
    (⟨a, b, c, d⟩ + ⟨a', b', c', d'⟩ : Counts) = ⟨a + a', b + b', c + c', d + d'⟩ := rfl

theorem add_assoc' (a b c : Counts) : a + b + c = a + (b + c) := by
  cases a; cases b; cases c; simp only [add_mk, Nat.add_assoc]

theorem add_comm' (a b : Counts) : a + b = b + a := by
  cases a; cases b; simp only [add_mk, Nat.add_comm]

theorem add_zero' (a : Counts) : a + 0 = a := by cases a; rfl

theorem zero_add' (a : Counts) : 0 + a = a := by rw [add_comm', add_zero']

end Counts

/-- The counts of the code: those of the namespaces that have been entered, the innermost one first, their totals
when they were entered, and the current ones. -/
def StackOk : List Counts → List Counts → Counts → Counts → Prop
  | [], [], cur, tot => tot = cur
  | c :: cs, r :: rs, cur, tot => tot = c + cur ∧ StackOk cs rs r c
  | _, _, _, _ => False

theorem StackOk.add {cs rs : List Counts} {cur tot : Counts} (h : StackOk cs rs cur tot) (x : Counts) :
    StackOk cs rs (cur + x) (tot + x) := by
  cases cs <;> cases rs <;> simp only [StackOk] at h ⊢
  · rw [h]
  · exact ⟨by rw [h.1, Counts.add_assoc'], h.2⟩

/-- The code and the specification agree. -/
structure CountRel (t : Tally F) (d : Driver CountState) : Prop where
  cur : d.cur = t.system.half
  n : d.n = t.system.gates
  names : d.backend.currentNamespace = (t.entered.map Prod.fst).reverse
  stack : StackOk (t.entered.map Prod.snd) d.backend.countStack.reverse d.backend.currentCounts t.totals
  counts : ∀ key, d.backend.counts key = ((t.left.filter fun e => pathKey e.1 = key).getLast?).map Prod.snd

omit [Field F] in
theorem CountRel.step {t : Tally F} {d : Driver CountState} (h : CountRel t d) {system : System F} {a m : ℕ}
    {cur : Option ℕ} {q n : ℕ} {c : Counts}
    (hc : cur = system.half) (hn : n = system.gates) (x : Counts)
    (ht : ⟨a, m, system.gates, system.lcs.length⟩ = t.totals + x) (hx : c = d.backend.currentCounts + x) :
    CountRel { t with system, allocations := a, multiplications := m }
      ⟨{ d.backend with currentCounts := c }, cur, q, n⟩ where
  cur := hc
  n := hn
  names := h.names
  stack := by
    have := h.stack.add x
    rw [← hx, ← ht] at this
    exact this
  counts := h.counts

theorem count_alloc {t : Tally F} {d : Driver CountState} (h : CountRel t d) (v : Except SynthesisError F) :
    ∃ d', Basic.alloc (countBackend F) d v = .ok (((t.system.fresh 0).1, none), d') ∧
      CountRel { t with system := (t.system.fresh 0).2, allocations := t.allocations + 1 } d' := by
  obtain ⟨b, cur, q, n⟩ := d
  obtain rfl : cur = t.system.half := h.cur
  obtain rfl : n = t.system.gates := h.n
  unfold Basic.alloc System.fresh
  cases hh : t.system.half with
  | none =>
    refine ⟨_, rfl, h.step rfl rfl ⟨1, 0, 1, 0⟩ rfl rfl⟩
  | some i =>
    refine ⟨_, rfl, h.step rfl rfl ⟨1, 0, 0, 0⟩ rfl rfl⟩

omit [Field F] in
theorem count_enforce {t : Tally F} {d : Driver CountState} (h : CountRel t d) (lc : LC F) :
    ∃ d', Basic.enforceZero (countBackend F) d lc = .ok d' ∧
      CountRel { t with system := t.system.constrain lc } d' := by
  have hf : ∀ (l : List (Var × Coeff F)) (b : CountState) (y : ℕ),
      l.foldlM (fun b t => (countBackend F).insertCoeff b t.1 t.2 y) b = (Except.ok b : Except Fail _) := by
    intro l b y
    induction l generalizing b with
    | nil => rfl
    | cons x l ih => rw [List.foldlM_cons]; exact ih b
  unfold Basic.enforceZero
  simp only [hf]
  refine ⟨_, rfl, h.step h.cur h.n ⟨0, 0, 0, 1⟩ ?_ rfl⟩
  simp [Tally.totals, Counts.add_mk, System.constrain]

theorem count_input {t : Tally F} {d : Driver CountState} (h : CountRel t d) (v : Except SynthesisError F) :
    ∃ d', Basic.allocInput (countBackend F) d v = .ok (((t.system.fresh 0).1, v.toOption), d') ∧
      CountRel { t with
        system := (t.system.fresh 0).2.expose (t.system.fresh 0).1 v.toOption
        allocations := t.allocations + 1 } d' := by
  obtain ⟨d1, h1, r1⟩ := count_alloc h v
  obtain ⟨d2, h2, r2⟩ := count_enforce r1 ⟨[((t.system.fresh 0).1, .one)]⟩
  unfold Basic.allocInput
  rw [h1]
  simp only [Except.bind_ok]
  rw [show (LC.zero.addVar (t.system.fresh 0).1 : LC F) = ⟨[((t.system.fresh 0).1, .one)]⟩ from rfl, h2]
  exact ⟨_, rfl, r2.cur, r2.n, r2.names, r2.stack, r2.counts⟩

theorem count_multiply {t : Tally F} {d : Driver CountState} (h : CountRel t d)
    (v : Except SynthesisError (F × F × F)) :
    ∃ d', Basic.multiply (countBackend F) d v = .ok ((.A (t.system.gates + 1), .B (t.system.gates + 1),
        .C (t.system.gates + 1), none), d') ∧
      CountRel { t with system := t.system.gate (0, 0, 0), multiplications := t.multiplications + 1 } d' := by
  obtain ⟨b, cur, q, n⟩ := d
  obtain rfl : cur = t.system.half := h.cur
  obtain rfl : n = t.system.gates := h.n
  unfold Basic.multiply
  exact ⟨_, rfl, h.step rfl rfl ⟨0, 1, 1, 0⟩ rfl rfl⟩

omit [Field F] in
theorem count_push {t : Tally F} {d : Driver CountState} (h : CountRel t d) (name : Name) :
    CountRel { t with entered := (name, t.totals) :: t.entered } { d with backend := d.backend.push name } where
  cur := h.cur
  n := h.n
  names := by simp [CountState.push, h.names]
  stack := by
    simp only [CountState.push, List.reverse_append, List.reverse_cons, List.reverse_nil, List.nil_append,
      List.singleton_append, List.map_cons]
    exact ⟨(Counts.add_zero' _).symm, h.stack⟩
  counts := h.counts

theorem pathKey_foldl (ns : List Name) (acc : List Char) :
    (ns.foldl (fun (name, needsSeparation) ns =>
      ((if needsSeparation then name ++ ['/'] else name) ++ ns, true)) (acc, true)).1 =
      acc ++ (ns.map fun n => '/' :: n).flatten := by
  induction ns generalizing acc with
  | nil => simp
  | cons n ns ih => simp [ih]

theorem pathKey_cons (n : Name) (ns : List Name) :
    pathKey (n :: ns) = n ++ (ns.map fun n => '/' :: n).flatten := by
  induction ns generalizing n with
  | nil => simp [pathKey]
  | cons m ns ih =>
    have : pathKey (n :: m :: ns) = n ++ '/' :: pathKey (m :: ns) := by simp [pathKey, List.intercalate]
    rw [this, ih]
    simp

theorem computePath_eq (ns : List Name) (node : Name) :
    computePath ns node = if '/' ∈ node then none else some (pathKey (ns ++ [node])) := by
  unfold computePath
  have : (node.any fun a => decide (a = '/')) = decide ('/' ∈ node) := by
    rw [Bool.eq_iff_iff]
    simp
  rw [this]
  by_cases h : '/' ∈ node
  · simp [h]
  · simp only [h, decide_false, Bool.false_eq_true, if_false, Option.some.injEq]
    cases hl : ns ++ [node] with
    | nil => simp at hl
    | cons n ns =>
      rw [List.foldl_cons, pathKey_cons]
      exact pathKey_foldl ns n

omit [Field F] in
theorem count_pop {t : Tally F} {d : Driver CountState} (h : CountRel t d) :
    match t.entered with
    | [] => d.backend.pop = none
    | (name, before) :: outer =>
      if '/' ∈ name then d.backend.pop = none
      else ∃ b, d.backend.pop = some b ∧ CountRel { t with
        entered := outer
        left := t.left ++ [((((name, before) :: outer).map Prod.fst).reverse, t.since before)] }
        { d with backend := b } := by
  have hn := h.names
  have hs := h.stack
  cases he : t.entered with
  | nil =>
    rw [he] at hn
    simp [CountState.pop, hn]
  | cons e outer =>
    obtain ⟨name, before⟩ := e
    rw [he, List.map_cons, List.reverse_cons] at hn
    rw [he, List.map_cons] at hs
    simp only
    unfold CountState.pop
    rw [hn, List.getLast?_concat, List.dropLast_concat]
    simp only [Option.bind_eq_bind, Option.bind_some, computePath_eq]
    by_cases hsl : '/' ∈ name
    · simp [hsl]
    · simp only [hsl, if_false, Option.bind_some]
      refine ⟨_, rfl, h.cur, h.n, rfl, ?_, ?_⟩
      · obtain ⟨rs, r, hst⟩ : ∃ rs r, d.backend.countStack = rs ++ [r] := by
          rcases List.eq_nil_or_concat d.backend.countStack with h0 | ⟨rs, r, h0⟩
          · rw [h0] at hs; simp [StackOk] at hs
          · exact ⟨rs, r, by simpa using h0⟩
        rw [hst, List.reverse_append] at hs
        obtain ⟨h1, h2⟩ := hs
        simp only [hst, List.getLast?_concat, Option.getD_some, List.dropLast_concat]
        have := h2.add d.backend.currentCounts
        rw [← h1, Counts.add_comm'] at this
        exact this
      · intro key
        have hcur : t.since before = d.backend.currentCounts := by
          cases hrs : d.backend.countStack.reverse with
          | nil => rw [hrs] at hs; exact hs.elim
          | cons r rs =>
            rw [hrs] at hs
            have h1 := hs.1
            unfold Tally.totals at h1
            unfold Tally.since
            generalize d.backend.currentCounts = c at *
            cases before; cases c
            simp only [Counts.add_mk, Counts.mk.injEq] at h1 ⊢
            omega
        simp only [List.filter_append, List.map_cons, List.reverse_cons]
        by_cases hk : key = pathKey ((outer.map Prod.fst).reverse ++ [name])
        · rw [if_pos hk, List.filter_cons_of_pos (by simp [hk])]
          simp [hcur]
        · rw [if_neg hk, List.filter_cons_of_neg (by simpa using fun h => hk h.symm)]
          simp [h.counts key]

omit [Field F] in
theorem count_popMany (l : List (Name × Counts)) : ∀ {t : Tally F} {d : Driver CountState}, t.entered = l → CountRel t d →
    (if ∀ n ∈ l, '/' ∉ n.1 then ∃ b, d.backend.popMany l.length = some b else d.backend.popMany l.length = none) := by
  induction l with
  | nil =>
    intro t d hl h
    rw [if_pos (by simp)]
    exact ⟨_, rfl⟩
  | cons e l ih =>
    intro t d hl h
    have hp := count_pop h
    rw [hl] at hp
    simp only at hp
    simp only [List.length_cons, CountState.popMany]
    by_cases hs : '/' ∈ e.1
    · rw [if_pos hs] at hp
      rw [if_neg (by simp [hs]), hp]
      rfl
    · rw [if_neg hs] at hp
      obtain ⟨b, h1, h2⟩ := hp
      have := ih rfl h2
      simp only [List.forall_mem_cons, hs, not_false_eq_true, true_and, h1, Option.bind_some]
      exact this

/-- Running the circuit -/
theorem count_run {α : Type} (p : Named F α) : ∀ {t : Tally F} {d : Driver CountState}, CountRel t d →
    match tally p t with
    | .error e => runCount p d = .error e
    | .ok (a, t') => ∃ d', runCount p d = .ok (a, d') ∧ CountRel t' d' := by
  induction p with
  | pure a => intro t d h; exact ⟨d, rfl, h⟩
  | throw e =>
    intro t d h
    have := count_popMany t.entered rfl h
    have hl : d.backend.currentNamespace.length = t.entered.length := by rw [h.names]; simp
    simp only [tally, runCount, hl]
    by_cases hs : ∀ n ∈ t.entered, '/' ∉ n.1
    · rw [if_pos hs] at this ⊢
      obtain ⟨b, hb⟩ := this
      simp only [hb]
    · rw [if_neg hs] at this ⊢
      simp only [this]
  | panic => intro t d h; rfl
  | alloc name v k ih =>
    intro t d h
    obtain ⟨d', h1, h2⟩ := count_alloc h v
    simpa only [tally, runCount, h1, Except.bind_ok] using ih _ _ h2
  | allocInput name v k ih =>
    intro t d h
    obtain ⟨d', h1, h2⟩ := count_input h v
    simpa only [tally, runCount, h1, Except.bind_ok] using ih _ _ h2
  | enforceZero lc k ih =>
    intro t d h
    obtain ⟨d', h1, h2⟩ := count_enforce h lc
    simpa only [tally, runCount, h1, Except.bind_ok] using ih h2
  | multiply name v k ih =>
    intro t d h
    obtain ⟨d', h1, h2⟩ := count_multiply h v
    simpa only [tally, runCount, h1, Except.bind_ok] using ih _ _ _ _ h2
  | push name k ih =>
    intro t d h
    simpa only [tally, runCount] using ih (count_push h name)
  | pop k ih =>
    intro t d h
    have := count_pop h
    simp only [tally, runCount]
    cases he : t.entered with
    | nil => rw [he] at this; simp only at this ⊢; rw [this]
    | cons e outer =>
      rw [he] at this
      simp only at this ⊢
      by_cases hs : '/' ∈ e.1
      · rw [if_pos hs] at this ⊢
        simp only; rw [this]
      · rw [if_neg hs] at this ⊢
        obtain ⟨b, h1, h2⟩ := this
        rw [h1]
        exact ih h2

end Circuit
end Halo
