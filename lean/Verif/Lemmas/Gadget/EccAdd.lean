import Verif.Lemmas.Gadget.EccComplete
/-!
# Completeness of the complete addition, and of multiplication by double-and-add
-/
namespace Halo
namespace Circuit
variable {F : Type} [Field F] [DecidableEq F] {w : Var → F} {one : Var}

namespace CurvePoint
section
variable [LawfulField F] {E : CurveConsts}

theorem fromXy_coordinates (g : GoodCurve F E) (A : Pt (E.b : F)) :
    ∃ p, Proj.fromXy E (coordinates A).1 (coordinates A).2 = some (some p) ∧ Denotes (E.b : F) p A := by
  rcases pt_cases A with rfl | ⟨x, y, h, rfl, e⟩
  · refine ⟨Proj.zero, ?_, denotes_proj_zero⟩
    have : ¬ ((0 : F) ^ 2 = 0 ^ 3 + (E.b : F)) := by
      have := g.no_two_torsion 0
      intro h; exact this (by rw [← h]; ring)
    simp only [coordinates_zero, Proj.fromXy, isOnCurve_some, this, decide_false, Option.map_some]
    simp
  · refine ⟨⟨x, y, 1⟩, ?_, ?_⟩
    · simp [coordinates, Proj.fromXy, isOnCurve_some, e]
    · have := Denotes.some (one_ne_zero) h
      simpa using this

theorem pointOf_complete (g : GoodCurve F E) (A : Pt (E.b : F)) :
    Complete w (pointOf E (some (coordinates A).1) (some (coordinates A).2)) fun r =>
      ∃ p, r = some p ∧ Denotes (E.b : F) p A := by
  obtain ⟨p, hp, hd⟩ := fromXy_coordinates g A
  simp only [pointOf, hp, Option.join, Option.bind_some, id]
  exact ⟨p, rfl, hd⟩

omit [DecidableEq F] [LawfulField F] in
theorem choose_complete {v : Bool} {a b : F} {bitLc aLc bLc outLc : LC F}
    (hv : bitLc.eval w = if v then 1 else 0) (ha : aLc.eval w = a) (hb : bLc.eval w = b)
    (ho : outLc.eval w = if v then a else b) :
    Complete w (choose (some v) (some a) (some b) (some (if v then a else b)) bitLc aLc bLc outLc)
      fun _ => True := by
  simp only [choose]
  complete_steps [hv, ha, hb, ho]
  cases v <;> simp only [ofBool] <;> split_steps <;> simp_all

theorem quotientOr_mul {default d n : F} (h : d = 0 → n = 0) : d * quotientOr default d n = n := by
  by_cases hd : d = 0
  · rw [hd, h hd, zero_mul]
  · rw [quotientOr, LawfulField.invert_eq _ hd]
    exact mul_inv_cancel_left₀ hd _

theorem addSlope_complete (g : GoodCurve F E) (h1 : w one = 1) {P Q : CurvePoint F} {A B : Pt (E.b : F)}
    (hP : P.Honest w A) (hQ : Q.Honest w B) : Complete w (addSlope one P Q) fun _ => True := by
  obtain ⟨hx, hy, hf, hx', hy'⟩ := hP.values
  obtain ⟨kx, ky, kf, kx', ky'⟩ := hQ.values
  simp only [addSlope, hx, hy, kx, ky, both_some, Option.map_some, Option.bind_some]
  have hk := quotientOr_mul (F := F) (default := 0) (d := (coordinates A).2 + (coordinates A).2)
    (n := (coordinates A).1 * (coordinates A).1 + (coordinates A).1 * (coordinates A).1 +
      (coordinates A).1 * (coordinates A).1) (by
    intro h
    by_cases hA : A = 0
    · subst hA; simp [coordinates_zero]
    · exact absurd h (two_y_ne g.two_ne g.no_two_torsion hA))
  generalize quotientOr 0 ((coordinates A).2 + (coordinates A).2) _ = ls at *
  by_cases hd : (coordinates B).1 - (coordinates A).1 = 0
  · have hb : ((coordinates B).1 - (coordinates A).1 == 0) = true := by simp [hd]
    simp only [hb, if_true]
    rw [hd, LawfulField.invert_zero]
    simp only [ofBool, if_true, zero_add, Option.getD_none]
    have hj := quotientOr_mul (F := F) (default := 1) (d := 1)
      (n := (coordinates B).2 - (coordinates A).2) (fun h => absurd h one_ne_zero)
    generalize quotientOr 1 (1 : F) _ = ld at *
    complete_steps [Num.eval_lc h1, hx', hy', kx', ky', Coeff.value, h1, LawfulField.fromU64_eq]
    rw [show BitVec.toNat (3 : BitVec 64) = 3 from rfl]
    split_steps
    all_goals grind
  · have hb : ((coordinates B).1 - (coordinates A).1 == 0) = false := by simp [hd]
    simp only [hb, Bool.false_eq_true, if_false]
    simp only [ofBool, add_zero, Bool.false_eq_true, if_false]
    have hj := quotientOr_mul (F := F) (default := 1) (d := (coordinates B).1 - (coordinates A).1)
      (n := (coordinates B).2 - (coordinates A).2) (fun h => absurd h hd)
    generalize quotientOr 1 ((coordinates B).1 - (coordinates A).1) _ = ld at *
    rw [LawfulField.invert_eq _ hd]
    complete_steps [Num.eval_lc h1, hx', hy', kx', ky', Coeff.value, h1, LawfulField.fromU64_eq,
      Option.getD_some]
    rw [show BitVec.toNat (3 : BitVec 64) = 3 from rfl]
    have hl' := mul_inv_cancel₀ hd
    generalize ((coordinates B).1 - (coordinates A).1)⁻¹ = i at *
    split_steps
    all_goals grind

omit [LawfulField F] in
theorem addFlag_complete (h1 : w one = 1) {P Q : CurvePoint F} {b : F} {A B : Pt b}
    (hP : P.Honest w A) (hQ : Q.Honest w B) {f : AllocatedBit} (hf : f.Honest w (isIdentityPt (A + B))) :
    Complete w (addFlag one P Q (some (isIdentityPt (A + B))) f) fun flag =>
      w flag = if isIdentityPt (A + B) then 1 else 0 := by
  obtain ⟨hx, hy, -, hx', hy'⟩ := hP.values
  obtain ⟨kx, ky, kf, kx', ky'⟩ := hQ.values
  have hf' := hf.1
  simp only [AllocatedBit.Means] at hf'
  simp only [addFlag, hy, ky]
  complete_steps [Num.eval_lc h1, hy', ky', hf', ofBool]
  refine ⟨?_, fun u f z hu hf hz => ⟨hu.symm, hf.symm, hz, hf⟩⟩
  by_cases h : A + B = 0
  · have : B = -A := by rw [← add_eq_zero_iff_neg_eq.1 h]
    subst this
    rw [coordinates_neg]; simp
  · rw [isIdentityPt_false.2 h]; simp

omit [DecidableEq F] [LawfulField F] in
theorem addClear_complete (h1 : w one = 1) {flag : Var} {a : F} {v : Bool} (hf : w flag = if v then 1 else 0) :
    Complete w (addClear one flag (some a) (some (if v then 0 else a)) (some v)) fun x4 =>
      w x4 = if v then 0 else a := by
  simp only [addClear]
  complete_steps [hf, h1]
  cases v <;> simp only [ofBool] <;> split_steps <;> simp_all

omit [DecidableEq F] [LawfulField F] in
theorem addFirst_complete (h1 : w one = 1) {p : Boolean} {a b : F} {l : LC F} {x4 : Var}
    {v : Bool} (hp : p.Honest w v) (hl : l.eval w = a) (hx : w x4 = b) :
    Complete w (addFirst one p (some a) l (some b) x4 (some (if v then a else b))) fun r =>
      r.eval w = if v then a else b := by
  simp only [addFirst, hp.getValue]
  complete_steps [Boolean.eval_lc h1 hp.means, hl, hx]
  cases v <;> simp [ofBool] <;> split_steps <;> simp_all

theorem add_complete (g : GoodCurve F E) (h1 : w one = 1) {P Q : CurvePoint F} {A B : Pt (E.b : F)}
    (hP : P.Honest w A) (hQ : Q.Honest w B) : Complete w (add E one P Q) fun R => R.Honest w (A + B) := by
  obtain ⟨hx, hy, hf, hx', hy'⟩ := hP.values
  obtain ⟨kx, ky, kf, kx', ky'⟩ := hQ.values
  simp only [add, hx, hy, kx, ky, hf, kf]
  refine Complete.bind (pointOf_complete g A) ?_
  rintro _ ⟨p, rfl, hp⟩
  refine Complete.bind (pointOf_complete g B) ?_
  rintro _ ⟨q, rfl, hq⟩
  simp only [both_some, Option.map_some, pointValues_eq (denotes_add g hp hq), Option.bind_some,
    orMissing_some]
  refine Complete.bind (AllocatedNum.alloc_complete _) fun xo ⟨hxo, hxo'⟩ => ?_
  refine Complete.bind (AllocatedNum.alloc_complete _) fun yo ⟨hyo, hyo'⟩ => ?_
  refine Complete.bind (AllocatedBit.alloc_complete _) fun f hf => ?_
  refine Complete.bind (addSlope_complete g h1 hP hQ) fun _ _ => ?_
  refine Complete.bind (addFlag_complete h1 hP hQ hf) fun fl hfl => ?_
  refine Complete.bind (addClear_complete h1 hfl) fun x4 hx4 => ?_
  refine Complete.bind (addClear_complete h1 hfl) fun y4 hy4 => ?_
  refine Complete.bind (addFirst_complete h1 hP.flag ((Num.eval_lc h1 _).trans kx') hx4) fun x5 hx5 => ?_
  refine Complete.bind (addFirst_complete h1 hP.flag ((Num.eval_lc h1 _).trans ky') hy4) fun y5 hy5 => ?_
  have hbit : (Q.isIdentity.lc one (.one : Coeff F)).eval w = if isIdentityPt B then 1 else 0 :=
    Boolean.eval_lc h1 hQ.flag.means .one
  refine Complete.bind (choose_complete hbit ((Num.eval_lc h1 _).trans hx') hx5
    (by rw [AllocatedNum.lc, LC.eval_ofVar, hxo'])) fun _ _ => ?_
  refine Complete.bind (choose_complete hbit ((Num.eval_lc h1 _).trans hy') hy5
    (by rw [AllocatedNum.lc, LC.eval_ofVar, hyo'])) fun _ _ => ?_
  rw [complete_ret]
  have key : (if isIdentityPt B = true then coordinates A else if isIdentityPt A = true then coordinates B
      else if isIdentityPt (A + B) = true then (0, 0) else coordinates (A + B)) = coordinates (A + B) := by
    by_cases hB : B = 0
    · subst hB; simp [isIdentityPt_zero]
    by_cases hA : A = 0
    · subst hA; simp [isIdentityPt_zero, isIdentityPt_false.2 hB]
    by_cases hAB : A + B = 0
    · rw [hAB]; simp [isIdentityPt_false.2 hA, isIdentityPt_false.2 hB, isIdentityPt_zero, coordinates_zero]
    · simp [isIdentityPt_false.2 hA, isIdentityPt_false.2 hB, isIdentityPt_false.2 hAB]
  have kx := congrArg Prod.fst key
  have ky := congrArg Prod.snd key
  rw [apply_ite Prod.fst, apply_ite Prod.fst, apply_ite Prod.fst] at kx
  rw [apply_ite Prod.snd, apply_ite Prod.snd, apply_ite Prod.snd] at ky
  refine ⟨⟨?_, ?_, hf.1⟩, Num.honest_ofAllocated hxo, Num.honest_ofAllocated hyo, hf⟩
  · rw [Num.wire_ofAllocated, hxo']; exact kx
  · rw [Num.wire_ofAllocated, hyo']; exact ky

end
end CurvePoint
end Circuit
end Halo
