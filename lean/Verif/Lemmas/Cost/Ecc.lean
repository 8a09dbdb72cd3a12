import Verif.Lemmas.Cost.Num
/-!
# The size of the gadgets for points
-/
namespace Halo
namespace Circuit
open Sha256 (foldProg index)
variable {F : Type} [Field F] [DecidableEq F] [FieldApi F]

namespace CurvePoint
variable {E : CurveConsts} {one : Var}

/-- The coordinates are allocated. -/
def Allocated (p : CurvePoint F) : Prop := p.x.isConstant = false ∧ p.y.isConstant = false

omit [DecidableEq F] in
theorem costs_witness {p : Except SynthesisError (Proj F)} : Costs (witness E one p) 2 5 11 Allocated := by
  intro a0 m0 l0
  repeat intro _
  exact ⟨rfl, rfl, rfl, rfl, rfl⟩

omit [DecidableEq F] in
theorem costs_conditionalEndo {p : CurvePoint F} {b : Boolean} : Costs (p.conditionalEndo one b) 0 1 2 fun _ => True := by
  cost_leaf

omit [DecidableEq F] in
theorem costs_conditionalNeg {p : CurvePoint F} {b : Boolean} : Costs (p.conditionalNeg one b) 0 1 2 fun _ => True := by
  cost_leaf

omit [DecidableEq F] in
theorem costs_addIncomplete {p q : CurvePoint F} : Costs (p.addIncomplete one q) 2 3 6 Allocated := by
  intro a0 m0 l0
  repeat intro _
  exact ⟨rfl, rfl, rfl, rfl, rfl⟩

theorem costs_pointOf {x y : Option F} : Costs (pointOf E x y) 0 0 0 fun _ => True := by
  unfold pointOf
  split
  · exact Costs.then (costs_orPanic (R := fun _ => True) fun _ _ => trivial) fun _ _ => costs_pure trivial
  · exact costs_pure trivial

theorem costs_addSlope {p q : CurvePoint F} : Costs (addSlope one p q) 0 8 16 fun _ => True := by cost_leaf
omit [DecidableEq F] [FieldApi F] in
theorem costs_addFlag {p q : CurvePoint F} {v : Option Bool} {b : AllocatedBit} :
    Costs (addFlag one p q v b) 0 1 3 fun _ => True := by cost_leaf
omit [DecidableEq F] [FieldApi F] in
theorem costs_addClear {flag : Var} {v w : Option F} {b : Option Bool} :
    Costs (addClear one flag v w b) 0 1 1 fun _ => True := by cost_leaf
omit [DecidableEq F] [FieldApi F] in
theorem costs_addFirst {b : Boolean} {v w u : Option F} {lc : LC F} {x : Var} :
    Costs (addFirst one b v lc w x u) 0 1 2 fun _ => True := by cost_leaf
omit [DecidableEq F] [FieldApi F] in
theorem costs_choose {b : Option Bool} {v w u : Option F} {lc1 lc2 lc3 lc4 : LC F} :
    Costs (choose b v w u lc1 lc2 lc3 lc4) 0 1 3 fun _ => True := by cost_leaf

theorem costs_add {p q : CurvePoint F} : Costs (add E one p q) 2 16 33 Allocated := by
  unfold add
  exact Costs.then costs_pointOf fun _ _ => Costs.then costs_pointOf fun _ _ =>
    Costs.then AllocatedNum.costs_alloc fun _ _ => Costs.then AllocatedNum.costs_alloc fun _ _ =>
    Costs.then AllocatedBit.costs_alloc fun _ _ => Costs.then costs_addSlope fun _ _ =>
    Costs.then costs_addFlag fun _ _ => Costs.then costs_addClear fun _ _ => Costs.then costs_addClear fun _ _ =>
    Costs.then costs_addFirst fun _ _ => Costs.then costs_addFirst fun _ _ => Costs.then costs_choose fun _ _ =>
    Costs.then costs_choose fun _ _ => costs_pure ⟨rfl, rfl⟩

omit [Field F] [DecidableEq F] [FieldApi F] in
theorem costs_unwrapPoint {p : Option (Option (Proj F))} : Costs (unwrapPoint p : Prog F _) 0 0 0 fun _ => True := by
  unfold unwrapPoint
  split
  · exact Costs.then (costs_orPanic (R := fun _ => True) fun _ _ => trivial) fun _ _ => costs_pure trivial
  · exact costs_pure trivial

omit [DecidableEq F] in
theorem costs_sumXy {p q : Option (Proj F)} : Costs (sumXy E p q) 0 0 0 fun _ => True := by
  unfold sumXy
  split
  · exact Costs.then (costs_orPanic (R := fun _ => True) fun _ _ => trivial) fun _ _ => costs_pure trivial
  · exact costs_pure trivial

theorem costs_addConditionallyIncomplete {p q : CurvePoint F} {b : Boolean} :
    Costs (addConditionallyIncomplete E one p q b) 2 6 14 Allocated := by
  unfold addConditionallyIncomplete
  refine Costs.free costs_unwrapPoint fun _ _ => Costs.free costs_unwrapPoint fun _ _ =>
    Costs.free costs_sumXy fun _ _ => ?_
  intro a0 m0 l0
  repeat intro _
  exact ⟨rfl, rfl, rfl, rfl, rfl⟩

omit [DecidableEq F] in
theorem costs_double {p : CurvePoint F} : Costs (p.double one) 2 5 13 Allocated := by
  intro a0 m0 l0
  repeat intro _
  exact ⟨rfl, rfl, rfl, rfl, rfl⟩

omit [DecidableEq F] in
theorem costs_doubleAndAddIncomplete {p q : CurvePoint F} :
    Costs (p.doubleAndAddIncomplete one q) 2 5 12 Allocated := by
  intro a0 m0 l0
  repeat intro _
  exact ⟨rfl, rfl, rfl, rfl, rfl⟩

theorem costs_multiplyStep {p ret : CurvePoint F} {b : AllocatedBit} :
    Costs (multiplyStep E one p ret b) 6 25 57 Allocated := by
  unfold multiplyStep
  exact Costs.then costs_double fun _ _ => Costs.then costs_add fun _ _ =>
    Costs.then AllocatedNum.costs_alloc fun _ _ => Costs.then AllocatedNum.costs_alloc fun _ _ =>
    Costs.then AllocatedBit.costs_alloc fun _ _ => Costs.then costs_choose fun _ _ =>
    Costs.then costs_choose fun _ _ => Costs.then costs_choose fun _ _ => costs_pure ⟨rfl, rfl⟩

omit [Field F] [DecidableEq F] [FieldApi F] in
/-- A loop that is not empty, after which the result is allocated -/
theorem costs_foldProg_last {α σ : Type} {f : σ → α → Prog F σ} {a m l : ℕ} {R : σ → Prop} {xs : List α} {s : σ}
    (h : ∀ s, ∀ x ∈ xs, Costs (f s x) a m l R) (hne : xs ≠ []) :
    Costs (foldProg f xs s) (xs.length * a) (xs.length * m) (xs.length * l) R := by
  cases xs with
  | nil => exact absurd rfl hne
  | cons x xs =>
    unfold foldProg
    refine (Costs.then (h s x (by simp)) fun s hs => costs_foldProg (xs := xs)
      (fun s z hz _ => h s z (by simp [hz])) hs).eq ?_ ?_ ?_
    all_goals simp only [List.length_cons]; ring

theorem costs_multiply {p : CurvePoint F} {bits : List AllocatedBit} (h : bits.length = 256) :
    Costs (multiply E one p bits) 1536 6400 14592 Allocated := by
  refine (costs_foldProg_last (fun _ _ _ => costs_multiplyStep) ?_).eq ?_ ?_ ?_
  · intro h0
    rw [List.reverse_eq_nil_iff] at h0
    rw [h0] at h
    cases h
  all_goals rw [List.length_reverse, h]

omit [DecidableEq F] in
theorem costs_endoStep {p acc : CurvePoint F} {bits : List AllocatedBit} {i : ℕ} :
    Costs (endoStep one p bits acc i) 2 7 16 fun _ => True := by
  unfold endoStep
  exact Costs.then (costs_index (R := fun _ => True) fun _ _ => trivial) fun _ _ =>
    Costs.then (costs_index (R := fun _ => True) fun _ _ => trivial) fun _ _ =>
    Costs.then costs_conditionalNeg fun _ _ => Costs.then costs_doubleAndAddIncomplete fun _ _ => costs_conditionalEndo

omit [DecidableEq F] [FieldApi F] in
theorem costs_clearIfIdentity {v : Num F} {b : Boolean} :
    Costs (clearIfIdentity one v b) 0 1 2 fun v => v.isConstant = false := by
  intro a0 m0 l0
  repeat intro _
  exact ⟨rfl, rfl, rfl, rfl⟩

omit [DecidableEq F] in
theorem costs_multiplyEndo {p : CurvePoint F} {bits : List AllocatedBit} :
    Costs (multiplyEndo one p bits) 130 451 1031 Allocated := by
  unfold multiplyEndo
  split
  · exact costs_panic
  · exact Costs.then costs_double fun _ _ => Costs.then costs_addIncomplete fun _ _ =>
      Costs.then ((costs_foldProg (xs := List.range' 1 63) (fun _ _ _ _ => costs_endoStep) trivial).eq (a' := 126)
        (m' := 441) (l' := 1008) (by simp) (by simp) (by simp)) fun _ _ =>
      Costs.then costs_clearIfIdentity fun _ hx => Costs.then costs_clearIfIdentity fun _ hy => costs_pure ⟨hx, hy⟩

theorem costs_multiplyInvEndo {S : Type} [Field S] [FieldApi S] {p : CurvePoint F} {bits : List AllocatedBit} :
    Costs (multiplyInvEndo E S one p bits) 132 456 1044 Allocated := by
  unfold multiplyInvEndo
  exact Costs.then costs_witness fun _ h => Costs.then costs_multiplyEndo fun _ _ =>
    Costs.then costs_enforce fun _ _ => Costs.then costs_enforce fun _ _ => costs_pure h

end CurvePoint
end Circuit
end Halo
