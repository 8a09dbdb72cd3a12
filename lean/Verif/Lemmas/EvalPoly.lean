import Verif.Lemmas.SynthWires
import Verif.Lemmas.LinComb
import Verif.Lemmas.LawfulField
import Mathlib.Algebra.BigOperators.Intervals
import Mathlib.Tactic.Ring
import Mathlib.Tactic.FieldSimp
/-!
# The two evaluators of the constraint polynomial agree
-/
namespace Halo
namespace Circuit
variable {F : Type} [Field F]

/-- one at a variable, zero elsewhere -/
def ind (v : Var) : Var → F := fun x => if x = v then 1 else 0

/-- all variables of the linear combinations are wires of the first `n` gates -/
def InScope (n : ℕ) (lcs : List (LC F)) : Prop :=
  ∀ lc ∈ lcs, ∀ t ∈ lc.terms, 0 < t.1.index ∧ t.1.index ≤ n

/-- the coefficient of a variable in `s(X, y)` -/
def sCoeff (lcs : List (LC F)) (y : F) (v : Var) : F :=
  (lcs.mapIdx fun q lc => y ^ (q + 1) * lc.eval (ind v)).sum

theorem sCoeff_append (lcs : List (LC F)) (lc : LC F) (y : F) (v : Var) :
    sCoeff (lcs ++ [lc]) y v = sCoeff lcs y v + y ^ (lcs.length + 1) * lc.eval (ind v) := by
  simp [sCoeff, List.mapIdx_append]

theorem eval_ind_eq_zero {lc : LC F} {v : Var} (h : ∀ t ∈ lc.terms, t.1 ≠ v) :
    lc.eval (ind v) = 0 := by
  rw [LC.eval]
  apply List.sum_eq_zero
  intro x hx
  obtain ⟨t, ht, rfl⟩ := List.mem_map.1 hx
  simp [ind, h t ht]

theorem sCoeff_eq_zero {n : ℕ} {lcs : List (LC F)} (h : InScope n lcs) (y : F) {v : Var}
    (hv : n < v.index) : sCoeff lcs y v = 0 := by
  rw [sCoeff]
  apply List.sum_eq_zero
  intro x hx
  obtain ⟨q, hq, rfl⟩ := List.mem_mapIdx.1 hx
  rw [eval_ind_eq_zero, mul_zero]
  rintro t ht rfl
  have := (h _ (List.getElem_mem hq) t ht).2
  omega

theorem addAt1_col {f : ℕ → F} {n i : ℕ} (t : F) (h0 : 0 < i) (hn : i ≤ n) :
    addAt1 (col f n) i t = some (col (Function.update f i (f i + t)) n) := by
  have h := set1_col (f := f) (f i + t) h0 hn
  have hc : 0 < i ∧ i ≤ (col f n).length := ⟨h0, by simpa using hn⟩
  rw [Wires.set1, if_pos hc] at h
  rw [addAt1, at1_col h0 hn, Option.map_some]
  exact h

theorem addAt1_none {l : List F} {i : ℕ} (t : F) (h : ¬ (0 < i ∧ i ≤ l.length)) :
    addAt1 l i t = none := by
  have : at1 l i = none := by
    cases ha : at1 l i with
    | none => rfl
    | some x => exact (h (at1_some ha)).elim
  simp [addAt1, this]

/-- `SxEval` with accumulated coefficients -/
def sxOf (y curY : F) (acc : Var → F) (n : ℕ) : SxEval F :=
  ⟨y, curY, (wiresOf acc n).a, (wiresOf acc n).b, (wiresOf acc n).c⟩

theorem sx_insert1 (y curY : F) (acc : Var → F) (n : ℕ) (var : Var) (c : Coeff F) (Y : F)
    (h0 : 0 < var.index) (hn : var.index ≤ n) :
    sxBackend.insertCoeff (sxOf y curY acc n) var c Y =
      .ok (sxOf y curY (Function.update acc var (acc var + c.value * Y)) n) := by
  have hc : ∀ (k : ℕ → Var) (i : ℕ) (v : F), (∀ j, k j = k i → j = i) →
      (fun j => Function.update acc (k i) v (k j)) = Function.update (fun j => acc (k j)) i v := by
    intro k i v hinj
    funext j
    by_cases hj : j = i
    · subst hj; simp
    · rw [Function.update_of_ne hj, Function.update_of_ne fun h => hj (hinj j h)]
  cases var with
  | A i =>
    have := addAt1_col (f := fun i => acc (.A i)) (c.value * Y) h0 hn
    simp only [Var.index] at this
    simp [sxBackend, sxOf, wiresOf, this, hc .A i _ (fun j h => by simpa using h)]
  | B i =>
    have := addAt1_col (f := fun i => acc (.B i)) (c.value * Y) h0 hn
    simp only [Var.index] at this
    simp [sxBackend, sxOf, wiresOf, this, hc .B i _ (fun j h => by simpa using h)]
  | C i =>
    have := addAt1_col (f := fun i => acc (.C i)) (c.value * Y) h0 hn
    simp only [Var.index] at this
    simp [sxBackend, sxOf, wiresOf, this, hc .C i _ (fun j h => by simpa using h)]

theorem sx_insert1_panic (y curY : F) (acc : Var → F) (n : ℕ) (var : Var) (c : Coeff F) (Y : F)
    (h : ¬ (0 < var.index ∧ var.index ≤ n)) :
    sxBackend.insertCoeff (sxOf y curY acc n) var c Y = .error .panic := by
  cases var with
  | A i =>
    have := addAt1_none (l := col (fun i => acc (.A i)) n) (i := i) (c.value * Y) (by rw [col_length]; exact h)
    simp [sxBackend, sxOf, wiresOf, this]
  | B i =>
    have := addAt1_none (l := col (fun i => acc (.B i)) n) (i := i) (c.value * Y) (by rw [col_length]; exact h)
    simp [sxBackend, sxOf, wiresOf, this]
  | C i =>
    have := addAt1_none (l := col (fun i => acc (.C i)) n) (i := i) (c.value * Y) (by rw [col_length]; exact h)
    simp [sxBackend, sxOf, wiresOf, this]

theorem sx_insert (y curY Y : F) (n : ℕ) (ts : List (Var × Coeff F)) :
    ∀ acc : Var → F, (∀ t ∈ ts, 0 < t.1.index ∧ t.1.index ≤ n) →
      ts.foldlM (fun b t => sxBackend.insertCoeff b t.1 t.2 Y) (sxOf y curY acc n) =
        .ok (sxOf y curY (fun v => acc v + Y * (LC.mk ts).eval (ind v)) n) := by
  induction ts with
  | nil => intro acc _; simp [pure, Except.pure]
  | cons t ts ih =>
    intro acc h
    obtain ⟨h1, h2⟩ := h t (List.mem_cons_self ..)
    rw [List.foldlM_cons, sx_insert1 _ _ _ _ _ _ _ h1 h2]
    simp only [Except.bind_ok]
    rw [ih _ fun t ht => h t (List.mem_cons_of_mem _ ht)]
    congr 2
    funext v
    by_cases hv : v = t.1
    · subst hv; simp [LC.eval, ind]; ring
    · have : ¬ t.1 = v := fun h => hv h.symm
      simp [LC.eval, ind, hv, this]

theorem sx_insert_panic (y curY Y : F) (n : ℕ) (ts : List (Var × Coeff F)) :
    ∀ acc : Var → F, ¬ (∀ t ∈ ts, 0 < t.1.index ∧ t.1.index ≤ n) →
      ts.foldlM (fun b t => sxBackend.insertCoeff b t.1 t.2 Y) (sxOf y curY acc n) =
        .error .panic := by
  induction ts with
  | nil => intro acc h; simp at h
  | cons t ts ih =>
    intro acc h
    rw [List.foldlM_cons]
    by_cases ht : 0 < t.1.index ∧ t.1.index ≤ n
    · rw [sx_insert1 _ _ _ _ _ _ _ ht.1 ht.2]
      simp only [Except.bind_ok]
      exact ih _ fun h' => h (List.forall_mem_cons.2 ⟨ht, h'⟩)
    · rw [sx_insert1_panic _ _ _ _ _ _ _ ht]
      rfl

/-- The relation of `SxEval` to the system -/
structure SxRel (y : F) (s : System F) (d : Driver (SxEval F)) : Prop where
  inv : s.Inv
  cur : d.cur = s.half
  q : d.q = s.lcs.length
  n : d.n = s.gates
  scope : InScope s.gates s.lcs
  back : d.backend = sxOf y (y ^ s.lcs.length) (sCoeff s.lcs y) s.gates

theorem silent_sx : Silent (sxBackend (F := F)) := ⟨fun _ _ => rfl, fun _ _ _ _ => rfl⟩

theorem newGate_sx {n : ℕ} {lcs : List (LC F)} (h : InScope n lcs) (y : F) (b : Bool) :
    sxBackend.newGate (sxOf y (y ^ lcs.length) (sCoeff lcs y) n) b =
      sxOf y (y ^ lcs.length) (sCoeff lcs y) (n + 1) := by
  have := push_wiresOf (w := sCoeff lcs y) (n := n) fun v hv => sCoeff_eq_zero h y hv
  simp only [sxBackend, sxOf, ← this]
  rfl

omit [Field F] in
theorem InScope.mono {n m : ℕ} {lcs : List (LC F)} (h : InScope n lcs) (hnm : n ≤ m) : InScope m lcs :=
  fun lc hlc t ht => ⟨(h lc hlc t ht).1, (h lc hlc t ht).2.trans hnm⟩

omit [Field F] in
theorem InScope.append {n : ℕ} {lcs : List (LC F)} (h : InScope n lcs) {lc : LC F}
    (hl : ∀ t ∈ lc.terms, 0 < t.1.index ∧ t.1.index ≤ n) : InScope n (lcs ++ [lc]) := by
  intro l hl' t ht
  rcases List.mem_append.1 hl' with h' | h'
  · exact h l h' t ht
  · simp only [List.mem_singleton] at h'
    subst h'
    exact hl t ht

theorem sim_sx (y : F) : Sim false (sxBackend (F := F)) (SxRel y) (fun s => s.wellScoped = true) where
  alloc_ok := by simp
  alloc_err := by simp
  alloc_unknown := by
    intro _ s d v h
    have hi := h.inv.fresh 0
    rw [silent_sx.alloc, h.cur]
    unfold System.fresh
    unfold System.fresh at hi
    cases hh : s.half with
    | some i =>
      simp only [hh] at hi
      exact ⟨_, rfl, hi, rfl, h.q, h.n, h.scope, h.back⟩
    | none =>
      simp only [hh] at hi
      rw [h.n]
      refine ⟨_, rfl, hi, rfl, h.q, rfl, h.scope.mono (Nat.le_succ _), ?_⟩
      simp only [h.back]
      exact newGate_sx h.scope y _
  enforce := by
    intro s d lc h
    unfold Basic.enforceZero
    have hb : sxBackend.newLinear d.backend =
      (sxOf y (y ^ (s.lcs.length + 1)) (sCoeff s.lcs y) s.gates, y ^ (s.lcs.length + 1)) := by
      rw [h.back]; simp [sxBackend, sxOf, pow_succ]
    rw [hb]
    by_cases hs : ∀ t ∈ lc.terms, 0 < t.1.index ∧ t.1.index ≤ s.gates
    · left
      simp only [sx_insert _ _ _ _ _ _ hs, Except.bind_ok]
      refine ⟨_, rfl, h.inv.constrain lc, h.cur, by simp [System.constrain, h.q], h.n,
        h.scope.append hs, ?_⟩
      simp only [System.constrain, List.length_append, List.length_singleton]
      congr 1
      funext v
      rw [sCoeff_append]
    · right
      simp only [sx_insert_panic _ _ _ _ _ _ hs, Except.bind_error, true_and]
      intro hg
      apply hs
      simp only [System.constrain, Bool.and_eq_true, List.all_eq_true, decide_eq_true_eq] at hg
      exact hg.2
  newK := by
    intro s d v h _
    exact ⟨_, rfl, h.inv.inputs _, h.cur, h.q, h.n, h.scope, h.back⟩
  mul_ok := by simp
  mul_err := by simp
  mul_unknown := by
    intro _ s d v h
    rw [silent_sx.multiply, h.n]
    refine ⟨_, rfl, h.inv.gate _, h.cur, h.q, rfl, h.scope.mono (Nat.le_succ _), ?_⟩
    simp only [h.back]
    exact newGate_sx h.scope y _
  good_fresh := by
    intro s v h
    unfold System.fresh at h
    cases hh : s.half <;> simpa [hh] using h
  good_constrain := by
    intro s lc h
    simp only [System.constrain, Bool.and_eq_true] at h
    exact h.1
  good_gate := fun h => h
  good_inputs := Iff.rfl

/-! ### The other evaluator -/

/-- `SyEval` for powers of `x` up to `n` -/
def syOf (x : F) (n : ℕ) (poly : List F) : SyEval F :=
  ⟨(wiresOf (monomial n x) n).a, (wiresOf (monomial n x) n).b, (wiresOf (monomial n x) n).c, poly⟩

/-- The relation of `SyEval` to the system -/
structure SyRel (x : F) (n : ℕ) (s : System F) (d : Driver (SyEval F)) : Prop where
  inv : s.Inv
  cur : d.cur = s.half
  q : d.q = s.lcs.length
  gates : d.n = s.gates
  scope : InScope n s.lcs
  back : d.backend = syOf x n (0 :: s.lcs.map fun lc => lc.eval (monomial n x))

theorem sy_insert1 (x : F) (n : ℕ) (done : List F) (acc : F) (var : Var) (c : Coeff F) :
    syBackend.insertCoeff (syOf x n (done ++ [acc])) var c done.length =
      match (wiresOf (monomial n x) n).get var with
      | none => .error .panic
      | some tmp => .ok (syOf x n (done ++ [acc + c.value * tmp])) := by
  have hp : (syOf x n (done ++ [acc])).poly[done.length]? = some acc := by simp [syOf]
  cases var <;> simp only [syBackend, hp] <;> simp [syOf, Wires.get] <;> rfl

omit [Field F] in
theorem wiresOf_get_none {w : Var → F} {n : ℕ} {var : Var}
    (h : ¬ (0 < var.index ∧ var.index ≤ n)) : (wiresOf w n).get var = none := by
  have key : ∀ (l : List F) (i : ℕ), l.length = n → ¬ (0 < i ∧ i ≤ n) → at1 l i = none := by
    intro l i hl hi
    cases ha : at1 l i with
    | none => rfl
    | some x => exact (hi (hl ▸ at1_some ha)).elim
  cases var <;> exact key _ _ (by simp [wiresOf]) h

theorem sy_insert (x : F) (n : ℕ) (done : List F) (ts : List (Var × Coeff F)) :
    ∀ acc : F, (∀ t ∈ ts, 0 < t.1.index ∧ t.1.index ≤ n) →
      ts.foldlM (fun b t => syBackend.insertCoeff b t.1 t.2 done.length) (syOf x n (done ++ [acc])) =
        .ok (syOf x n (done ++ [acc + (LC.mk ts).eval (monomial n x)])) := by
  induction ts with
  | nil => intro acc _; simp [pure, Except.pure]
  | cons t ts ih =>
    intro acc h
    obtain ⟨h1, h2⟩ := h t (List.mem_cons_self ..)
    have hs : syBackend.insertCoeff (syOf x n (done ++ [acc])) t.1 t.2 done.length =
        .ok (syOf x n (done ++ [acc + t.2.value * monomial n x t.1])) := by
      rw [sy_insert1, get_wiresOf h1 h2]
    rw [List.foldlM_cons, hs]
    simp only [Except.bind_ok]
    rw [ih _ fun t ht => h t (List.mem_cons_of_mem _ ht)]
    simp [LC.eval, add_assoc]

theorem sy_insert_panic (x : F) (n : ℕ) (done : List F) (ts : List (Var × Coeff F)) :
    ∀ acc : F, ¬ (∀ t ∈ ts, 0 < t.1.index ∧ t.1.index ≤ n) →
      ts.foldlM (fun b t => syBackend.insertCoeff b t.1 t.2 done.length) (syOf x n (done ++ [acc])) =
        .error .panic := by
  induction ts with
  | nil => intro acc h; simp at h
  | cons t ts ih =>
    intro acc h
    rw [List.foldlM_cons]
    by_cases ht : 0 < t.1.index ∧ t.1.index ≤ n
    · have hs : syBackend.insertCoeff (syOf x n (done ++ [acc])) t.1 t.2 done.length =
          .ok (syOf x n (done ++ [acc + t.2.value * monomial n x t.1])) := by
        rw [sy_insert1, get_wiresOf ht.1 ht.2]
      rw [hs]
      simp only [Except.bind_ok]
      exact ih _ fun h' => h (List.forall_mem_cons.2 ⟨ht, h'⟩)
    · have hs : syBackend.insertCoeff (syOf x n (done ++ [acc])) t.1 t.2 done.length =
          .error .panic := by
        rw [sy_insert1, wiresOf_get_none ht]
      rw [hs]
      rfl

theorem silent_sy : Silent (syBackend (F := F)) := ⟨fun _ _ => rfl, fun _ _ _ _ => rfl⟩

theorem sim_sy (x : F) (n : ℕ) : Sim false (syBackend (F := F)) (SyRel x n)
    (fun s => s.wellScoped = true ∧ s.gates ≤ n) where
  alloc_ok := by simp
  alloc_err := by simp
  alloc_unknown := by
    intro _ s d v h
    have hi := h.inv.fresh 0
    rw [silent_sy.alloc, h.cur]
    unfold System.fresh
    unfold System.fresh at hi
    cases hh : s.half with
    | some i =>
      simp only [hh] at hi
      exact ⟨_, rfl, hi, rfl, h.q, h.gates, h.scope, h.back⟩
    | none =>
      simp only [hh] at hi
      rw [h.gates]
      exact ⟨_, rfl, hi, rfl, h.q, rfl, h.scope, h.back⟩
  enforce := by
    intro s d lc h
    unfold Basic.enforceZero
    have hb : syBackend.newLinear d.backend =
      (syOf x n ((0 :: s.lcs.map fun lc => lc.eval (monomial n x)) ++ [0]),
        (0 :: s.lcs.map fun lc => lc.eval (monomial n x)).length) := by
      rw [h.back]; simp [syBackend, syOf]
    rw [hb]
    by_cases hs : ∀ t ∈ lc.terms, 0 < t.1.index ∧ t.1.index ≤ n
    · left
      simp only [sy_insert _ _ _ _ _ hs, Except.bind_ok]
      refine ⟨_, rfl, h.inv.constrain lc, h.cur, by simp [System.constrain, h.q], h.gates,
        h.scope.append hs, ?_⟩
      simp [System.constrain, LC.eval]
    · right
      simp only [sy_insert_panic _ _ _ _ _ hs, Except.bind_error, true_and]
      intro hg
      apply hs
      simp only [System.constrain, Bool.and_eq_true, List.all_eq_true, decide_eq_true_eq] at hg
      exact fun t ht => ⟨(hg.1.2 t ht).1, (hg.1.2 t ht).2.trans hg.2⟩
  newK := by
    intro s d v h _
    exact ⟨_, rfl, h.inv.inputs _, h.cur, h.q, h.gates, h.scope, h.back⟩
  mul_ok := by simp
  mul_err := by simp
  mul_unknown := by
    intro _ s d v h
    rw [silent_sy.multiply, h.gates]
    exact ⟨_, rfl, h.inv.gate _, h.cur, h.q, rfl, h.scope, h.back⟩
  good_fresh := by
    intro s v h
    unfold System.fresh at h
    cases hh : s.half with
    | some i => simpa [hh] using h
    | none =>
      simp only [hh] at h
      exact ⟨h.1, by omega⟩
  good_constrain := by
    intro s lc h
    simp only [System.constrain, Bool.and_eq_true] at h
    exact ⟨h.1.1, h.2⟩
  good_gate := by
    intro s v h
    simp only [System.gate] at h
    exact ⟨h.1, by omega⟩
  good_inputs := Iff.rfl

/-! ### Openings -/

theorem opening_foldl (v : List F) (x : F) : ∀ acc cur : F,
    (v.foldl (fun (p : F × F) c => (p.1 + p.2 * c, p.2 * x)) (acc, cur)).1 =
      acc + cur * (v.foldl (fun (p : F × F) c => (p.1 + p.2 * c, p.2 * x)) (0, 1)).1 := by
  induction v with
  | nil => intro acc cur; simp
  | cons c v ih =>
    intro acc cur
    simp only [List.foldl_cons]
    rw [ih, ih (0 + 1 * c) (1 * x)]
    ring

@[simp] theorem opening_nil (x : F) : opening [] x = 0 := rfl

theorem opening_cons (c : F) (v : List F) (x : F) : opening (c :: v) x = c + x * opening v x := by
  have h : ∀ v : List F, opening v x =
      (v.foldl (fun (p : F × F) c => (p.1 + p.2 * c, p.2 * x)) (0, 1)).1 := fun v => rfl
  rw [h, h, List.foldl_cons, opening_foldl]
  ring

theorem opening_append (a b : List F) (x : F) :
    opening (a ++ b) x = opening a x + x ^ a.length * opening b x := by
  induction a with
  | nil => simp
  | cons c a ih => simp only [List.cons_append, opening_cons, ih, List.length_cons, pow_succ]; ring

theorem opening_sum (v : List F) (x : F) :
    opening v x = ∑ i ∈ Finset.range v.length, v.getD i 0 * x ^ i := by
  induction v with
  | nil => simp
  | cons c v ih =>
    rw [opening_cons, ih, List.length_cons, Finset.sum_range_succ', Finset.mul_sum]
    rw [add_comm]
    congr 1
    · apply Finset.sum_congr rfl
      intro i _
      simp only [List.getD_cons_succ, pow_succ]
      ring
    · simp

theorem opening_map_mul (v : List F) (k x : F) : opening (v.map (· * k)) x = opening v x * k := by
  induction v with
  | nil => simp
  | cons c v ih => simp only [List.map_cons, opening_cons, ih]; ring

theorem opening_col (f : ℕ → F) (n : ℕ) (x : F) :
    opening (col f n) x = ∑ i ∈ Finset.range n, f (i + 1) * x ^ i := by
  rw [opening_sum, col_length]
  apply Finset.sum_congr rfl
  intro i hi
  simp only [Finset.mem_range] at hi
  simp [col, List.getD, hi]

theorem opening_col_reverse (f : ℕ → F) (n : ℕ) {x : F} (hx : x ≠ 0) :
    opening (col f n).reverse x = x ^ n * ∑ i ∈ Finset.range n, f (i + 1) * (x ^ (i + 1))⁻¹ := by
  have : (col f n).reverse = (List.range n).map fun j => f (n - j) := by
    apply List.ext_getElem
    · simp
    · intro j h1 h2
      simp only [List.length_map, List.length_range] at h2
      simp only [col, List.getElem_reverse, List.getElem_map, List.getElem_range, List.length_map,
        List.length_range]
      congr 1
      omega
  rw [opening_sum, this, List.length_map, List.length_range, ← Finset.sum_range_reflect,
    Finset.mul_sum]
  apply Finset.sum_congr rfl
  intro i hi
  simp only [Finset.mem_range] at hi
  have h1 : n - 1 - i < n := by omega
  have h2 : n - (n - 1 - i) = i + 1 := by omega
  have h3 : n = (n - 1 - i) + (i + 1) := by omega
  have h4 : x ^ n * (x ^ (i + 1))⁻¹ = x ^ (n - 1 - i) := by
    conv_lhs => rw [h3, pow_add]
    field_simp
  simp only [List.getD, List.getElem?_map, List.getElem?_range h1, Option.map_some, Option.getD_some,
    h2]
  rw [← h4]; ring

theorem resize_col {f : ℕ → F} {g : ℕ} (n : ℕ) (h : ∀ i, g < i → f i = 0) :
    resize (col f g) n = col f n := by
  apply List.ext_getElem
  · simp [resize]; omega
  · intro j h1 h2
    simp only [col_length] at h2
    have hv : (col f n)[j]'(by simpa using h2) = f (j + 1) := by simp [col]
    rw [hv]
    simp only [resize]
    by_cases hj : j < g
    · rw [List.getElem_append_left (by simp; omega)]
      simp [col]
    · rw [List.getElem_append_right (by simp; omega)]
      simp [h (j + 1) (by omega)]

/-! ### The evaluations -/

/-- `s(X, y)` shifted by `X^n`, as `compute_sx` returns it -/
def sxVec (n : ℕ) (lcs : List (LC F)) (y : F) : List F :=
  (col (fun i => sCoeff lcs y (.A i)) n).reverse ++ [0] ++ col (fun i => sCoeff lcs y (.B i)) n ++
    col (fun i => sCoeff lcs y (.C i)) n

/-- `s(x, Y)`, as `compute_sy` returns it -/
def syVec (n : ℕ) (lcs : List (LC F)) (x : F) : List F :=
  0 :: lcs.map fun lc => lc.eval (monomial n x)

theorem sxRel_empty (y : F) : SxRel y (System.empty : System F) ⟨SxEval.new y, none, 0, 0⟩ :=
  ⟨.empty, rfl, rfl, rfl, by simp [InScope, System.empty], by
    simp [SxEval.new, sxOf, System.empty, wiresOf, col]⟩

theorem computeSx_ok {α : Type} {n : ℕ} {circuit : Var → Prog F α} {y : F} {sx : List F}
    (h : computeSx n circuit y = .ok sx) : ∃ a s, circuitSystem false circuit = .ok (a, s) ∧
      InScope s.gates s.lcs ∧ sx = sxVec n s.lcs y := by
  unfold computeSx at h
  cases hs : Basic.synthesize sxBackend (SxEval.new y) circuit with
  | error e => rw [hs] at h; simp [Except.bind_error] at h
  | ok r =>
    obtain ⟨a, d⟩ := r
    obtain ⟨s, h1, h2⟩ := (sim_sx y).synthesize_ok (sxRel_empty y) hs
    rw [hs] at h
    simp only [Except.bind_ok, Except.ok.injEq] at h
    refine ⟨a, s, h1, h2.scope, ?_⟩
    rw [← h, h2.back]
    simp only [sxOf, wiresOf, sxVec]
    rw [resize_col, resize_col, resize_col] <;> exact fun i hi => sCoeff_eq_zero h2.scope y hi

theorem computeSx_of {α : Type} (n : ℕ) {circuit : Var → Prog F α} (y : F) {a : α} {s : System F}
    (h : circuitSystem false circuit = .ok (a, s)) (hg : s.wellScoped = true) :
    computeSx n circuit y = .ok (sxVec n s.lcs y) ∧ InScope s.gates s.lcs := by
  obtain ⟨d, h1, h2⟩ := (sim_sx y).synthesize_of_system (sxRel_empty y) h hg
  unfold computeSx
  rw [h1]
  simp only [Except.bind_ok, h2.back]
  simp only [sxOf, wiresOf, sxVec]
  rw [resize_col, resize_col, resize_col]
  · exact ⟨rfl, h2.scope⟩
  all_goals exact fun i hi => sCoeff_eq_zero h2.scope y hi

theorem powers_eq (x : F) (n : ℕ) : ∀ tmp : F,
    powers x n tmp = (col (fun i => tmp * x ^ i) n, tmp * x ^ n) := by
  induction n with
  | zero => intro tmp; simp [powers, col]
  | succ n ih =>
    intro tmp
    simp only [powers, ih, Prod.mk.injEq]
    refine ⟨?_, by ring⟩
    simp only [col, List.range_succ_eq_map, List.map_cons, List.map_map]
    congr 1
    · ring
    · apply List.map_congr_left
      intro i _
      simp only [Function.comp_apply, Nat.succ_eq_add_one]
      ring

variable [LawfulField F]

theorem syEval_new_zero (n : ℕ) : SyEval.new (0 : F) n = none := by
  simp [SyEval.new, LawfulField.invert_zero]

theorem syEval_new {x : F} (hx : x ≠ 0) (n : ℕ) : SyEval.new x n = some (syOf x n [0]) := by
  unfold SyEval.new
  rw [LawfulField.invert_eq x hx]
  simp only [powers_eq, Option.bind_eq_bind, Option.bind_some, one_mul, syOf, wiresOf,
    monomial, Option.some.injEq, SyEval.mk.injEq, inv_pow, and_true, true_and]
  congr 1
  funext i
  ring

omit [LawfulField F] in
theorem syRel_empty (x : F) (n : ℕ) : SyRel x n (System.empty : System F) ⟨syOf x n [0], none, 0, 0⟩ :=
  ⟨.empty, rfl, rfl, rfl, by simp [InScope, System.empty], by simp [System.empty]⟩

theorem computeSy_ok {α : Type} {n : ℕ} {circuit : Var → Prog F α} {x : F} {sy : List F}
    (h : computeSy n circuit x = .ok sy) : ∃ a s, circuitSystem false circuit = .ok (a, s) ∧
      InScope n s.lcs ∧ sy = syVec n s.lcs x ∧ x ≠ 0 := by
  unfold computeSy at h
  by_cases hx : x = 0
  · subst hx; simp [syEval_new_zero] at h
  rw [syEval_new hx] at h
  simp only at h
  cases hs : Basic.synthesize syBackend (syOf x n [0]) circuit with
  | error e => rw [hs] at h; simp [Except.bind_error] at h
  | ok r =>
    obtain ⟨a, d⟩ := r
    obtain ⟨s, h1, h2⟩ := (sim_sy x n).synthesize_ok (syRel_empty x n) hs
    rw [hs] at h
    simp only [Except.bind_ok, Except.ok.injEq] at h
    exact ⟨a, s, h1, h2.scope, by rw [← h, h2.back]; rfl, hx⟩

theorem computeSy_of {α : Type} {n : ℕ} {circuit : Var → Prog F α} {x : F} (hx : x ≠ 0) {a : α}
    {s : System F} (h : circuitSystem false circuit = .ok (a, s)) (hg : s.wellScoped = true)
    (hn : s.gates ≤ n) : computeSy n circuit x = .ok (syVec n s.lcs x) := by
  obtain ⟨d, h1, h2⟩ := (sim_sy x n).synthesize_of_system (syRel_empty x n) h ⟨hg, hn⟩
  unfold computeSy
  rw [syEval_new hx]
  simp only [h1, Except.bind_ok, h2.back]
  rfl

omit [LawfulField F] in
/-- A linear combination in terms of its coefficients -/
theorem eval_eq_sum {n : ℕ} {lc : LC F} (h : ∀ t ∈ lc.terms, 0 < t.1.index ∧ t.1.index ≤ n)
    (w : Var → F) : lc.eval w = ∑ i ∈ Finset.range n,
      (lc.eval (ind (.A (i + 1))) * w (.A (i + 1)) + lc.eval (ind (.B (i + 1))) * w (.B (i + 1)) +
        lc.eval (ind (.C (i + 1))) * w (.C (i + 1))) := by
  obtain ⟨ts⟩ := lc
  induction ts with
  | nil => simp [LC.eval]
  | cons t ts ih =>
    have ih := ih fun t ht => h t (List.mem_cons_of_mem _ ht)
    obtain ⟨h1, h2⟩ := h t (List.mem_cons_self ..)
    simp only [LC.eval_mk, List.map_cons, List.sum_cons] at ih ⊢
    rw [ih]
    have : w t.1 = ∑ i ∈ Finset.range n, (ind (.A (i + 1)) t.1 * w (.A (i + 1)) +
        ind (.B (i + 1)) t.1 * w (.B (i + 1)) + ind (.C (i + 1)) t.1 * w (.C (i + 1))) := by
      obtain ⟨v, c⟩ := t
      have hm : v.index - 1 ∈ Finset.range n := by simp at h1 h2 ⊢; omega
      rw [Finset.sum_eq_single_of_mem _ hm]
      · cases v <;> simp only [Var.index] at h1 <;> simp [ind, Var.index, Nat.sub_add_cancel h1]
      · intro j _ hj
        cases v <;> simp only [Var.index] at h1 hj <;> simp only [ind] <;>
        · rw [if_neg, if_neg, if_neg] <;> (simp; try omega)
    rw [this, Finset.mul_sum, ← Finset.sum_add_distrib]
    apply Finset.sum_congr rfl
    intro i _
    ring

omit [LawfulField F] in
theorem sEval_eq_sum {n : ℕ} {lcs : List (LC F)} (h : InScope n lcs) (y : F) (w : Var → F) :
    (lcs.mapIdx fun q lc => y ^ (q + 1) * lc.eval w).sum = ∑ i ∈ Finset.range n,
      (sCoeff lcs y (.A (i + 1)) * w (.A (i + 1)) + sCoeff lcs y (.B (i + 1)) * w (.B (i + 1)) +
        sCoeff lcs y (.C (i + 1)) * w (.C (i + 1))) := by
  induction lcs using List.reverseRecOn with
  | nil => simp [sCoeff]
  | append_singleton lcs lc ih =>
    have ih := ih fun l hl => h l (List.mem_append_left _ hl)
    simp only [List.mapIdx_append, List.sum_append, sCoeff_append, ih, List.mapIdx_cons,
      List.mapIdx_nil, List.sum_cons, List.sum_nil, zero_add, add_zero]
    rw [eval_eq_sum (fun t ht => h lc (by simp) t ht) w, Finset.mul_sum, ← Finset.sum_add_distrib]
    apply Finset.sum_congr rfl
    intro i _
    ring

omit [LawfulField F] in
theorem opening_sxVec {n : ℕ} {lcs : List (LC F)} (h : InScope n lcs) {x : F} (hx : x ≠ 0) (y : F) :
    opening (sxVec n lcs y) x = x ^ n * sEval n lcs x y := by
  rw [sEval, sEval_eq_sum h, sxVec, opening_append, opening_append, opening_append,
    opening_col_reverse _ _ hx, opening_col, opening_col, opening_cons]
  simp only [List.length_append, List.length_reverse, col_length, List.length_singleton,
    opening_nil, mul_zero, add_zero, monomial, Finset.sum_add_distrib, mul_add]
  simp only [Finset.mul_sum]
  congr 1
  · congr 1
    apply Finset.sum_congr rfl
    intro i _
    ring
  · apply Finset.sum_congr rfl
    intro i _
    ring

omit [LawfulField F] in
theorem opening_syVec (n : ℕ) (lcs : List (LC F)) (x y : F) :
    opening (syVec n lcs x) y = sEval n lcs x y := by
  have : ∀ (l : List (LC F)), y * opening (l.map fun lc => lc.eval (monomial n x)) y =
      (l.mapIdx fun q lc => y ^ (q + 1) * lc.eval (monomial n x)).sum := by
    intro l
    induction l using List.reverseRecOn with
    | nil => simp
    | append_singleton l lc ih =>
      simp only [List.map_append, opening_append, List.mapIdx_append, List.sum_append, mul_add, ih,
        List.map_cons, List.map_nil, opening_cons, opening_nil, List.length_map, List.mapIdx_cons,
        List.mapIdx_nil, List.sum_cons, List.sum_nil, zero_add]
      ring
  rw [syVec, opening_cons, zero_add, this]
  rfl

end Circuit
end Halo
