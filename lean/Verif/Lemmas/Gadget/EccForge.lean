import Verif.Lemmas.Gadget.EccAdd
import Verif.Lemmas.Gadget.UnpackForge
/-!
# Assignments that the curve gadgets should not accept
-/
namespace Halo
namespace Circuit
variable {F : Type} [Field F] {one : Var} {α : Type}

/-- What follows about the program from what is known about the assignment -/
theorem Forge.known {φ : Prop} {Γ : (Var → F) → Prop} {p : Prog F α} {Q : (Var → F) → α → Prop}
    (hΓ : ∀ w, Γ w → φ) (h : φ → Forge Γ p Q) : Forge Γ p Q := by
  by_cases hφ : φ
  · exact h hφ
  · exact Forge.honest fun w hw => (hφ (hΓ w hw)).elim

theorem Forge.ret {Γ : (Var → F) → Prop} {a : α} {Q : (Var → F) → α → Prop} (h : ∀ w, Γ w → Q w a) :
    Forge Γ (Pure.pure a) Q := h

theorem Forge.enforce {Γ : (Var → F) → Prop} {lc : LC F} (h : ∀ w, Γ w → lc.eval w = 0) :
    Forge Γ (.enforce lc) fun _ _ => True := ⟨h, fun _ _ => trivial⟩

/-- Whatever values a gate is given, the wires may carry others. -/
theorem Forge.multiply {Γ : (Var → F) → Prop} (u u' : F × F × F) (h : u'.1 * u'.2.1 = u'.2.2) :
    Forge Γ (.doMultiply (.ok u)) fun w r => w r.1 = u'.1 ∧ w r.2.1 = u'.2.1 ∧ w r.2.2.1 = u'.2.2 :=
  fun _ => ⟨u, u', rfl, h, fun _ _ _ _ hw => hw.2⟩

theorem AllocatedNum.alloc_forge {Γ : (Var → F) → Prop} (v v' : F) :
    Forge Γ (AllocatedNum.alloc (.ok v)) fun w r => w r.var = v' ∧ r.value = some v :=
  fun _ => ⟨v, v', rfl, fun _ _ hw => ⟨hw.2, rfl⟩⟩

namespace CurvePoint

theorem addFlag_forge {Γ : (Var → F) → Prop} {P Q : CurvePoint F} {y1 y2 u1 u2 : F} {b : Bool}
    {f : AllocatedBit} (hv : P.y.value = some u1 ∧ Q.y.value = some u2)
    (h : ∀ w, Γ w → w one = 1 ∧ P.y.wire w = y1 ∧ Q.y.wire w = y2 ∧ w f.var = 0) :
    Forge Γ (addFlag one P Q (some b) f) fun w flag => w flag = 0 := by
  rw [addFlag, hv.1, hv.2]
  refine Forge.seq (Forge.multiply _ (y2 + y1, 0, 0) (by simp)) fun ⟨u, fl, z, _⟩ => ?_
  refine Forge.seq (Forge.enforce fun w hw => ?_) fun _ => ?_
  · obtain ⟨h1, h2, h3, h4⟩ := h w hw.1
    simp only [LC.eval_subVar, LC.eval_addLC, Num.eval_lc h1, h2, h3, hw.2.1, sub_self]
  refine Forge.seq (Forge.enforce fun w hw => ?_) fun _ => ?_
  · simp only [LC.eval_subVar, LC.eval_ofVar, (h w hw.1.1).2.2.2, hw.1.2.2.1, sub_self]
  refine Forge.seq (Forge.enforce fun w hw => ?_) fun _ => ?_
  · simp only [LC.eval_ofVar, hw.1.1.2.2.2]
  exact Forge.ret fun w hw => hw.1.1.1.2.2.1

theorem addClear_forge {Γ : (Var → F) → Prop} {flag : Var} {a b v : F} {c : Bool}
    (h : ∀ w, Γ w → w one = 1 ∧ w flag = 0) :
    Forge Γ (addClear one flag (some a) (some b) (some c)) fun w x4 => w x4 = v := by
  rw [addClear]
  refine Forge.seq (Forge.multiply _ (v, 1, v) (by simp)) fun ⟨u, z, x4, _⟩ => ?_
  refine Forge.seq (Forge.enforce fun w hw => ?_) fun _ => ?_
  · simp [LC.eval_subVar, LC.eval_ofVar, (h w hw.1).1, (h w hw.1).2, hw.2.2.1]
  exact Forge.ret fun w hw => hw.1.2.2.2

theorem addFirst_forge {Γ : (Var → F) → Prop} {p : Boolean} {a b c l0 v : F} {c0 : Bool} {l : LC F} {x4 : Var}
    (hp : p.getValue = some c0)
    (h : ∀ w, Γ w → w one = 1 ∧ p.Means w false ∧ l.eval w = l0 ∧ w x4 = v) :
    Forge Γ (addFirst one p (some a) l (some b) x4 (some c)) fun w r => r.eval w = v := by
  rw [addFirst, hp]
  refine Forge.seq (Forge.multiply _ (0, l0 - v, 0) (by simp)) fun ⟨u, z, x, _⟩ => ?_
  refine Forge.seq (Forge.enforce fun w hw => ?_) fun _ => ?_
  · obtain ⟨h1, h2, h3, h4⟩ := h w hw.1
    simp [LC.eval_subVar, Boolean.eval_lc h1 h2, hw.2.1]
  refine Forge.seq (Forge.enforce fun w hw => ?_) fun _ => ?_
  · obtain ⟨h1, h2, h3, h4⟩ := h w hw.1.1
    simp [LC.eval_subVar, h3, h4, hw.1.2.2.1]
  refine Forge.ret fun w hw => ?_
  obtain ⟨h1, h2, h3, h4⟩ := h w hw.1.1.1
  simp [LC.eval_addVar, LC.eval_ofVar, hw.1.1.2.2.2, h4]

theorem choose_forge {Γ : (Var → F) → Prop} {bit : Bool} {a b c a0 v : F} {bitLc aLc bLc outLc : LC F}
    (h : ∀ w, Γ w → bitLc.eval w = 0 ∧ aLc.eval w = a0 ∧ bLc.eval w = v ∧ outLc.eval w = v) :
    Forge Γ (choose (some bit) (some a) (some b) (some c) bitLc aLc bLc outLc) fun _ _ => True := by
  rw [choose]
  refine Forge.seq (Forge.multiply _ (0, a0 - v, 0) (by simp)) fun ⟨m, n, o, _⟩ => ?_
  refine Forge.seq (Forge.enforce fun w hw => ?_) fun _ => ?_
  · simp [LC.eval_subVar, (h w hw.1).1, hw.2.1]
  refine Forge.seq (Forge.enforce fun w hw => ?_) fun _ => Forge.enforce fun w hw => ?_
  · obtain ⟨h1, h2, h3, h4⟩ := h w hw.1.1
    simp [LC.eval_subVar, LC.eval_subLC, h2, h3, hw.1.2.2.1]
  · obtain ⟨h1, h2, h3, h4⟩ := h w hw.1.1.1
    simp [LC.eval_subVar, LC.eval_subLC, h3, h4, hw.1.1.2.2.2]

section
variable [DecidableEq F] [LawfulField F] {E : CurveConsts}

/-- The output of `add` may be any pair of field elements. -/
theorem add_forge (g : GoodCurve F E) {Γ : (Var → F) → Prop} {P Q : CurvePoint F} {A B : Pt (E.b : F)}
    (hA : A ≠ 0) (hB : B ≠ 0) (h : ∀ w, Γ w → w one = 1 ∧ P.Honest w A ∧ Q.Honest w B) (x y : F) :
    Forge Γ (add E one P Q) fun w R =>
      R.x.wire w = x ∧ R.y.wire w = y ∧ R.isIdentity.Means w false := by
  refine Forge.known (φ := P.x.value = some (coordinates A).1 ∧ P.y.value = some (coordinates A).2 ∧
    P.isIdentity.getValue = some (isIdentityPt A) ∧ Q.x.value = some (coordinates B).1 ∧
    Q.y.value = some (coordinates B).2 ∧ Q.isIdentity.getValue = some (isIdentityPt B)) (fun w hw => ?_) ?_
  · obtain ⟨hx, hy, hf, -, -⟩ := (h w hw).2.1.values
    obtain ⟨kx, ky, kf, -, -⟩ := (h w hw).2.2.values
    exact ⟨hx, hy, hf, kx, ky, kf⟩
  rintro ⟨hx, hy, hf, kx, ky, kf⟩
  simp only [add, hx, hy, kx, ky, hf, kf]
  refine Forge.seq (Forge.honest fun w _ => pointOf_complete g A) fun p => ?_
  by_cases hp : ∃ p0, p = some p0 ∧ Denotes (E.b : F) p0 A
  swap
  · exact Forge.honest fun w hw => (hp hw.2).elim
  obtain ⟨p, rfl, hp⟩ := hp
  refine Forge.seq (Forge.honest fun w _ => pointOf_complete g B) fun q => ?_
  by_cases hq : ∃ p0, q = some p0 ∧ Denotes (E.b : F) p0 B
  swap
  · exact Forge.honest fun w hw => (hq hw.2).elim
  obtain ⟨q, rfl, hq⟩ := hq
  simp only [both_some, Option.map_some, pointValues_eq (denotes_add g hp hq), Option.bind_some,
    orMissing_some]
  have hΓ : ∀ w, Γ w → w one = 1 ∧ P.x.wire w = (coordinates A).1 ∧ P.y.wire w = (coordinates A).2 ∧
      Q.x.wire w = (coordinates B).1 ∧ Q.y.wire w = (coordinates B).2 ∧ P.isIdentity.Means w false ∧
      Q.isIdentity.Means w false := by
    intro w hw
    obtain ⟨h1, hP, hQ⟩ := h w hw
    have e1 := hP.means.flag
    have e2 := hQ.means.flag
    rw [isIdentityPt_false.2 hA] at e1
    rw [isIdentityPt_false.2 hB] at e2
    exact ⟨h1, hP.means.x, hP.means.y, hQ.means.x, hQ.means.y, e1, e2⟩
  refine Forge.seq (AllocatedNum.alloc_forge _ x) fun xo => ?_
  refine Forge.seq (AllocatedNum.alloc_forge _ y) fun yo => ?_
  refine Forge.seq (AllocatedBit.alloc_forge _ _ false) fun f => ?_
  refine Forge.seq (Forge.honest fun w hw =>
    addSlope_complete g (h w hw.1.1.1.1.1).1 (h w hw.1.1.1.1.1).2.1 (h w hw.1.1.1.1.1).2.2) fun _ => ?_
  refine Forge.anti (Γ := fun w => Γ w ∧ w xo.var = x ∧ w yo.var = y ∧ f.Means w false)
    (fun w hw => ⟨hw.1.1.1.1.1.1, hw.1.1.1.2.1, hw.1.1.2.1, hw.1.2⟩) ?_
  refine Forge.seq (addFlag_forge ⟨hy, ky⟩ fun w hw =>
    ⟨(hΓ w hw.1).1, (hΓ w hw.1).2.2.1, (hΓ w hw.1).2.2.2.2.1, hw.2.2.2⟩) fun fl => ?_
  refine Forge.seq (addClear_forge (v := x) fun w hw => ⟨(hΓ w hw.1.1).1, hw.2⟩) fun x4 => ?_
  refine Forge.seq (addClear_forge (v := y) fun w hw => ⟨(hΓ w hw.1.1.1).1, hw.1.2⟩) fun y4 => ?_
  refine Forge.anti (Γ := fun w => Γ w ∧ w xo.var = x ∧ w yo.var = y ∧ f.Means w false ∧ w x4 = x ∧ w y4 = y)
    (fun w hw => ⟨hw.1.1.1.1, hw.1.1.1.2.1, hw.1.1.1.2.2.1, hw.1.1.1.2.2.2, hw.1.2, hw.2⟩) ?_
  refine Forge.seq (addFirst_forge (l0 := (coordinates B).1) (v := x) hf fun w hw => ?_) fun x5 => ?_
  · obtain ⟨h1, h2, h3, h4, h5, h6, h7⟩ := hΓ w hw.1
    exact ⟨h1, h6, by rw [Num.eval_lc h1, h4], hw.2.2.2.2.1⟩
  refine Forge.seq (addFirst_forge (l0 := (coordinates B).2) (v := y) hf fun w hw => ?_) fun y5 => ?_
  · obtain ⟨h1, h2, h3, h4, h5, h6, h7⟩ := hΓ w hw.1.1
    exact ⟨h1, h6, by rw [Num.eval_lc h1, h5], hw.1.2.2.2.2.2⟩
  refine Forge.seq (choose_forge (a0 := (coordinates A).1) (v := x) fun w hw => ?_) fun _ => ?_
  · obtain ⟨h1, h2, h3, h4, h5, h6, h7⟩ := hΓ w hw.1.1.1
    exact ⟨by rw [Boolean.eval_lc h1 h7]; rfl, by rw [Num.eval_lc h1, h2], hw.1.2, by
      rw [AllocatedNum.lc, LC.eval_ofVar]; exact hw.1.1.2.1⟩
  refine Forge.seq (choose_forge (a0 := (coordinates A).2) (v := y) fun w hw => ?_) fun _ => ?_
  · obtain ⟨h1, h2, h3, h4, h5, h6, h7⟩ := hΓ w hw.1.1.1.1
    exact ⟨by rw [Boolean.eval_lc h1 h7]; rfl, by rw [Num.eval_lc h1, h3], hw.1.2, by
      rw [AllocatedNum.lc, LC.eval_ofVar]; exact hw.1.1.1.2.2.1⟩
  exact Forge.ret fun w hw => ⟨by rw [Num.wire_ofAllocated]; exact hw.1.1.1.1.2.1,
    by rw [Num.wire_ofAllocated]; exact hw.1.1.1.1.2.2.1, hw.1.1.1.1.2.2.2.1⟩

/-- The output of `add_incomplete` may be any pair of field elements. -/
theorem addIncomplete_forge {Γ : (Var → F) → Prop} {P Q : CurvePoint F} {A B : Pt (E.b : F)}
    (hA : A ≠ 0) (hB : B ≠ 0) (hAB : A ≠ B) (hAB' : A ≠ -B)
    (h : ∀ w, Γ w → w one = 1 ∧ P.Honest w A ∧ Q.Honest w B) (x y : F) :
    Forge Γ (addIncomplete one P Q) fun w R =>
      R.x.wire w = x ∧ R.y.wire w = y ∧ R.isIdentity.Means w false := by
  refine Forge.known (φ := P.x.value = some (coordinates A).1 ∧ P.y.value = some (coordinates A).2 ∧
    P.isIdentity.getValue = some (isIdentityPt A) ∧ Q.x.value = some (coordinates B).1 ∧
    Q.y.value = some (coordinates B).2 ∧ Q.isIdentity.getValue = some (isIdentityPt B)) (fun w hw => ?_) ?_
  · obtain ⟨hx, hy, hf, -, -⟩ := (h w hw).2.1.values
    obtain ⟨kx, ky, kf, -, -⟩ := (h w hw).2.2.values
    exact ⟨hx, hy, hf, kx, ky, kf⟩
  rintro ⟨hx, hy, hf, kx, ky, kf⟩
  have hne := chord_ne hA hB hAB hAB'
  have hne' : (coordinates B).1 - (coordinates A).1 ≠ 0 := sub_ne_zero.2 hne.symm
  simp only [addIncomplete, hx, hy, hf, kx, ky, isIdentityPt_false.2 hA]
  rw [LawfulField.invert_eq _ hne']
  simp only [orMissing_some, ok_bind]
  have hl := mul_inv_cancel_left₀ hne' ((coordinates B).2 - (coordinates A).2)
  generalize ((coordinates B).1 - (coordinates A).1)⁻¹ * ((coordinates B).2 - (coordinates A).2) = l at *
  refine Forge.seq (AllocatedNum.alloc_forge _ x) fun xo => ?_
  refine Forge.seq (AllocatedNum.alloc_forge _ y) fun yo => ?_
  refine Forge.honest fun w hw => ?_
  obtain ⟨⟨hw, hxo, -⟩, hyo, -⟩ := hw
  obtain ⟨h1, hP, hQ⟩ := h w hw
  have e1 := hP.means.flag
  rw [isIdentityPt_false.2 hA] at e1
  complete_steps [Num.eval_lc h1, hP.means.x, hP.means.y, hQ.means.x, hQ.means.y, Num.wire_ofAllocated, hxo, hyo]
  split_steps
  all_goals first | exact e1 | grind

omit [DecidableEq F] in
/-- The coordinates of the identity may be any pair of field elements. -/
theorem witness_forge {Γ : (Var → F) → Prop} (hΓ : ∀ w, Γ w → w one = 1) (x y : F) :
    Forge Γ (witness E one (.ok Proj.zero)) fun w R =>
      R.x.wire w = x ∧ R.y.wire w = y ∧ R.isIdentity.Means w true := by
  simp only [witness, ok_map, pointValues_eq (denotes_proj_zero (F := F) (b := (E.b : F))), coordinates_zero, isIdentityPt_zero, ok_bind, ok_bind']
  refine Forge.seq (AllocatedNum.alloc_forge _ x) fun xo => ?_
  refine Forge.seq (AllocatedNum.alloc_forge _ y) fun yo => ?_
  refine Forge.seq (AllocatedBit.alloc_forge _ _ true) fun f => ?_
  refine Forge.anti (Γ := fun w => w one = 1 ∧ w xo.var = x ∧ w yo.var = y ∧ w f.var = 1)
    (fun w hw => ⟨hΓ w hw.1.1.1, hw.1.1.2.1, hw.1.2.1, by
      have := hw.2; rw [AllocatedBit.Means] at this; simpa using this⟩) ?_
  refine Forge.seq (Forge.multiply _ (y, y, y * y) rfl) fun ⟨a, b, c, _⟩ => ?_
  refine Forge.seq (Forge.enforce fun w hw => ?_) fun _ => ?_
  · simp only [AllocatedNum.lc, LC.eval_subVar, LC.eval_ofVar, hw.1.2.2.1, hw.2.1, sub_self]
  refine Forge.seq (Forge.enforce fun w hw => ?_) fun _ => ?_
  · simp only [AllocatedNum.lc, LC.eval_subVar, LC.eval_ofVar, hw.1.1.2.2.1, hw.1.2.2.1, sub_self]
  refine Forge.anti (Γ := fun w => (w one = 1 ∧ w xo.var = x ∧ w yo.var = y ∧ w f.var = 1) ∧ w c = y * y)
    (fun w hw => ⟨hw.1.1.1, hw.1.1.2.2.2⟩) ?_
  refine Forge.seq (Forge.multiply _ (x, x, x * x) rfl) fun ⟨d, e, f', _⟩ => ?_
  refine Forge.seq (Forge.enforce fun w hw => ?_) fun _ => ?_
  · simp only [AllocatedNum.lc, LC.eval_subVar, LC.eval_ofVar, hw.1.1.2.1, hw.2.1, sub_self]
  refine Forge.seq (Forge.enforce fun w hw => ?_) fun _ => ?_
  · simp only [AllocatedNum.lc, LC.eval_subVar, LC.eval_ofVar, hw.1.1.1.2.1, hw.1.2.2.1, sub_self]
  refine Forge.anti (Γ := fun w => ((w one = 1 ∧ w xo.var = x ∧ w yo.var = y ∧ w f.var = 1) ∧ w c = y * y) ∧ w f' = x * x)
    (fun w hw => ⟨hw.1.1.1, hw.1.1.2.2.2⟩) ?_
  refine Forge.seq (Forge.multiply _ (x * x, x, x * x * x) rfl) fun ⟨g, h, i, _⟩ => ?_
  refine Forge.seq (Forge.enforce fun w hw => ?_) fun _ => ?_
  · simp only [LC.eval_subVar, LC.eval_ofVar, hw.1.2, hw.2.1, sub_self]
  refine Forge.seq (Forge.enforce fun w hw => ?_) fun _ => ?_
  · simp only [AllocatedNum.lc, LC.eval_subVar, LC.eval_ofVar, hw.1.1.1.1.2.1, hw.1.2.2.1, sub_self]
  refine Forge.anti (Γ := fun w => (w one = 1 ∧ w xo.var = x ∧ w yo.var = y ∧ w f.var = 1) ∧ w c = y * y ∧ w i = x * x * x)
    (fun w hw => ⟨hw.1.1.1.1.1, hw.1.1.1.1.2, hw.1.1.2.2.2⟩) ?_
  refine Forge.seq (Forge.multiply _ (x * x * x + (E.b : F) - y * y, 0, 0) (by simp)) fun ⟨j, k, l, _⟩ => ?_
  refine Forge.seq (Forge.enforce fun w hw => ?_) fun _ => ?_
  · simp [LC.eval_subVar, LC.eval_add, LC.eval_ofVar, hw.1.1.1, hw.1.2.1, hw.1.2.2, hw.2.1, Coeff.value]
  refine Forge.seq (Forge.enforce fun w hw => ?_) fun _ => ?_
  · simp [LC.eval_subVar, LC.eval_add, hw.1.1.1.1, hw.1.1.1.2.2.2, hw.1.2.2.1, Coeff.value]
  refine Forge.seq (Forge.enforce fun w hw => ?_) fun _ => ?_
  · simp only [LC.eval_ofVar, hw.1.1.2.2.2]
  refine Forge.ret fun w hw => ?_
  obtain ⟨-, hx, hy, hf⟩ := hw.1.1.1.1.1
  refine ⟨by rw [Num.wire_ofAllocated]; exact hx, by rw [Num.wire_ofAllocated]; exact hy, ?_⟩
  simp [Boolean.Means, AllocatedBit.Means, hf]

end
end CurvePoint
end Circuit
end Halo
