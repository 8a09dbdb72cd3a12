import Verif.Spec.System
import Verif.Spec.LinExpr
import Mathlib.Tactic.Ring
/-!
# Linear combinations
-/
namespace Halo
namespace Circuit
variable {F : Type} [Field F]

namespace Coeff

@[simp] theorem value_zero : (Coeff.zero : Coeff F).value = 0 := rfl
@[simp] theorem value_one : (Coeff.one : Coeff F).value = 1 := rfl
@[simp] theorem value_negativeOne : (Coeff.negativeOne : Coeff F).value = -1 := rfl
@[simp] theorem value_full (v : F) : (Coeff.full v).value = v := rfl

@[simp] theorem value_mulField (c : Coeff F) (x : F) : (c.mulField x).value = c.value * x := by
  cases c <;> simp [mulField]

@[simp] theorem value_neg (c : Coeff F) : c.neg.value = -c.value := by
  cases c <;> simp [neg]

@[simp] theorem value_mul (c d : Coeff F) : (c.mul d).value = c.value * d.value := by
  cases c <;> cases d <;> simp [mul]

@[simp] theorem multiply_eq (c : Coeff F) (x : F) : c.multiply x = c.value * x := by
  cases c <;> simp [multiply, mul_comm]

@[simp] theorem value_double (c : Coeff F) : c.double.value = 2 * c.value := by
  cases c <;> simp only [double, value] <;> ring

end Coeff

theorem sum_scale {α : Type} (k : F) (f : α → F) (ts : List α) :
    (ts.map fun t => k * f t).sum = k * (ts.map f).sum := by
  induction ts with
  | nil => simp
  | cons t ts ih => simp [ih, mul_add]

namespace LC
variable (w : Var → F)

@[simp] theorem eval_mk (l : List (Var × Coeff F)) :
    (LC.mk l).eval w = (l.map fun t => t.2.value * w t.1).sum := rfl

@[simp] theorem eval_zero : (LC.zero : LC F).eval w = 0 := rfl

@[simp] theorem eval_add (l : LC F) (c : Coeff F) (v : Var) :
    (l.add c v).eval w = l.eval w + c.value * w v := by
  simp [add, eval]

@[simp] theorem eval_sub (l : LC F) (c : Coeff F) (v : Var) :
    (l.sub c v).eval w = l.eval w - c.value * w v := by
  simp [sub, sub_eq_add_neg]

@[simp] theorem eval_addVar (l : LC F) (v : Var) : (l.addVar v).eval w = l.eval w + w v := by
  simp [addVar]

@[simp] theorem eval_subVar (l : LC F) (v : Var) : (l.subVar v).eval w = l.eval w - w v := by
  simp [subVar]

@[simp] theorem eval_ofVar (v : Var) : (LC.ofVar v : LC F).eval w = w v := by
  simp [ofVar]

private theorem eval_foldl (g : LC F → Var × Coeff F → LC F) (h : Var × Coeff F → F)
    (hg : ∀ l t, (g l t).eval w = l.eval w + h t) (ts : List (Var × Coeff F)) :
    ∀ l : LC F, (ts.foldl g l).eval w = l.eval w + (ts.map h).sum := by
  induction ts with
  | nil => simp
  | cons t ts ih =>
    intro l
    rw [List.foldl_cons, ih, hg, List.map_cons, List.sum_cons, add_assoc]

@[simp] theorem eval_addLC (l o : LC F) : (l.addLC o).eval w = l.eval w + o.eval w := by
  rw [addLC, eval_foldl w _ (fun t => t.2.value * w t.1) (by simp)]
  rfl

@[simp] theorem eval_subLC (l o : LC F) : (l.subLC o).eval w = l.eval w - o.eval w := by
  rw [subLC, eval_foldl w _ (fun t => -1 * (t.2.value * w t.1)) (by simp [sub_eq_add_neg]), sum_scale]
  simp only [eval]; ring

@[simp] theorem eval_addScaled (l : LC F) (c : Coeff F) (o : LC F) :
    (l.addScaled c o).eval w = l.eval w + c.value * o.eval w := by
  rw [addScaled, eval_foldl w _ (fun t => c.value * (t.2.value * w t.1))
    (by intro l t; simp; ring)]
  rw [sum_scale]
  simp only [eval]

@[simp] theorem eval_subScaled (l : LC F) (c : Coeff F) (o : LC F) :
    (l.subScaled c o).eval w = l.eval w - c.value * o.eval w := by
  rw [subScaled, eval_foldl w _ (fun t => -c.value * (t.2.value * w t.1))
    (by intro l t; simp; ring)]
  rw [sum_scale]
  simp only [eval]; ring

end LC

theorem LinExpr.eval_build (w : Var → F) (e : LinExpr F) : e.build.eval w = e.denote w := by
  induction e <;> simp [build, denote, *]

/-- The variable of a term can be read. -/
def termValue (a b c : List F) : Var → Option F
  | .A i => at1 a i
  | .B i => at1 b i
  | .C i => at1 c i

theorem at1_eq {a : List F} {i : ℕ} (h : 1 ≤ i ∧ i ≤ a.length) : at1 a i = some (a.getD (i - 1) 0) := by
  have h1 : i ≠ 0 := by omega
  have h2 : i - 1 < a.length := by omega
  simp [at1, h1, h2]

theorem termValue_eq {a b c : List F} {v : Var} (h : Exists a b c v) :
    termValue a b c v = some (assigned a b c v) := by
  cases v <;> exact at1_eq h

omit [Field F] in
theorem termValue_some {a b c : List F} {v : Var} {x : F} (h : termValue a b c v = some x) :
    Exists a b c v := by
  have key : ∀ (l : List F) i, at1 l i = some x → 1 ≤ i ∧ i ≤ l.length := by
    intro l i h
    unfold at1 at h
    split at h
    · simp at h
    · have := (List.getElem?_eq_some_iff.1 h).1
      omega
  cases v <;> exact key _ _ h

theorem evaluate_def (lc : LC F) (a b c : List F) :
    lc.evaluate a b c =
      lc.terms.foldlM (fun acc t => (termValue a b c t.1).bind fun v => some (acc + t.2.multiply v)) 0 := by
  unfold LC.evaluate
  congr 1
  funext acc t
  cases t.1 <;> rfl

theorem evaluate_eq {lc : LC F} {a b c : List F} (h : ∀ t ∈ lc.terms, Exists a b c t.1) :
    lc.evaluate a b c = some (lc.eval (assigned a b c)) := by
  rw [evaluate_def]
  have : ∀ (ts : List (Var × Coeff F)) (acc : F), (∀ t ∈ ts, Exists a b c t.1) →
      ts.foldlM (fun acc t => (termValue a b c t.1).bind fun v => some (acc + t.2.multiply v)) acc =
        some (acc + (ts.map fun t => t.2.value * assigned a b c t.1).sum) := by
    intro ts
    induction ts with
    | nil => intro acc _; simp
    | cons t ts ih =>
      intro acc h
      rw [List.foldlM_cons, termValue_eq (h t (by simp))]
      simp only [Option.bind_eq_bind, Option.bind_some]
      rw [ih _ fun t ht => h t (by simp [ht])]
      simp [add_assoc]
  rw [this lc.terms 0 h, zero_add]
  rfl

theorem evaluate_some {lc : LC F} {a b c : List F} {x : F} (h : lc.evaluate a b c = some x) :
    ∀ t ∈ lc.terms, Exists a b c t.1 := by
  rw [evaluate_def] at h
  have : ∀ (ts : List (Var × Coeff F)) (acc : F),
      ts.foldlM (fun acc t => (termValue a b c t.1).bind fun v => some (acc + t.2.multiply v)) acc =
        some x → ∀ t ∈ ts, Exists a b c t.1 := by
    intro ts
    induction ts with
    | nil => simp
    | cons t ts ih =>
      intro acc h
      rw [List.foldlM_cons] at h
      cases ht : termValue a b c t.1 with
      | none => simp [ht] at h
      | some v =>
        simp only [ht, Option.bind_eq_bind, Option.bind_some] at h
        intro t' ht'
        rcases List.mem_cons.1 ht' with rfl | ht'
        · exact termValue_some ht
        · exact ih _ h t' ht'
  exact this _ _ h

theorem LinExpr.build_vars (e : LinExpr F) : ∀ t ∈ e.build.terms, t.1 ∈ e.vars := by
  have fold : ∀ (g : LC F → Var × Coeff F → LC F)
      (_ : ∀ l t t', t' ∈ (g l t).terms → t' ∈ l.terms ∨ t'.1 = t.1)
      (ts : List (Var × Coeff F)) (l : LC F), ∀ t ∈ (ts.foldl g l).terms,
        t ∈ l.terms ∨ t.1 ∈ ts.map Prod.fst := by
    intro g hg ts
    induction ts with
    | nil => intro l t ht; exact .inl ht
    | cons t0 ts ih =>
      intro l t ht
      rw [List.foldl_cons] at ht
      rcases ih _ t ht with h | h
      · rcases hg _ _ _ h with h | h
        · exact .inl h
        · exact .inr (by simp [h])
      · exact .inr (by simp only [List.map_cons, List.mem_cons]; exact .inr h)
  have two : ∀ (e o : LinExpr F) (g : LC F → Var × Coeff F → LC F)
      (_ : ∀ l t t', t' ∈ (g l t).terms → t' ∈ l.terms ∨ t'.1 = t.1)
      (_ : ∀ t ∈ e.build.terms, t.1 ∈ e.vars) (_ : ∀ t ∈ o.build.terms, t.1 ∈ o.vars),
      ∀ t ∈ (o.build.terms.foldl g e.build).terms, t.1 ∈ e.vars ++ o.vars := by
    intro e o g hg he ho t ht
    rcases fold g hg _ _ t ht with h | h
    · exact List.mem_append.2 (.inl (he t h))
    · obtain ⟨t', ht', h⟩ := List.mem_map.1 h
      exact List.mem_append.2 (.inr (h ▸ ho t' ht'))
  induction e with
  | zero => simp [build, LC.zero]
  | var v => simp [build, LC.ofVar, LC.addVar, LC.add, LC.zero, vars]
  | addTerm e c v ih | subTerm e c v ih | addVar e v ih | subVar e v ih =>
    intro t ht
    simp only [build, LC.sub, LC.subVar, LC.addVar, LC.add, List.mem_append, List.mem_singleton] at ht
    rcases ht with h | rfl
    · exact List.mem_cons_of_mem _ (ih t h)
    · simp [vars]
  | add e o he ho | sub e o he ho | addScaled e c o he ho | subScaled e c o he ho =>
    refine two e o _ ?_ he ho
    intro l t t' h
    simp only [LC.sub, LC.add, List.mem_append, List.mem_singleton] at h
    rcases h with h | rfl
    · exact .inl h
    · exact .inr rfl

end Circuit
end Halo
