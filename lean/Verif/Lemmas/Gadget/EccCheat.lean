import Verif.Lemmas.Gadget.EccAdd
import Verif.Spec.CheatAdd
/-!
# What a lying prover gets away with in an addition
-/
namespace Halo
namespace Circuit
variable {F : Type} [Field F] [DecidableEq F] {w : Var → F} {one : Var}

namespace CurvePoint
variable [LawfulField F] {E : CurveConsts}

omit [DecidableEq F] [LawfulField F] in
theorem addFlag_complete_false (h1 : w one = 1) {P Q : CurvePoint F} {b : F} {A B : Pt b}
    (hP : P.Honest w A) (hQ : Q.Honest w B) {f : AllocatedBit} (hf : f.Honest w false) :
    Complete w (addFlag one P Q (some false) f) fun flag => w flag = if false then 1 else 0 := by
  obtain ⟨hx, hy, -, hx', hy'⟩ := hP.values
  obtain ⟨kx, ky, kf, kx', ky'⟩ := hQ.values
  have hf' := hf.1
  simp only [AllocatedBit.Means] at hf'
  simp only [addFlag, hy, ky]
  complete_steps [Num.eval_lc h1, hy', ky', hf', ofBool]
  refine ⟨by simp, fun u f z hu hf hz => ⟨hu.symm, hf.symm, hz, hf⟩⟩

/-- The prover knows the coordinates of a point, which are these. -/
structure HonestXy (w : Var → F) (R : CurvePoint F) (c : F × F) : Prop where
  x : R.x.Honest w
  y : R.y.Honest w
  xy : (R.x.wire w, R.y.wire w) = c

omit [LawfulField F] [DecidableEq F] in
theorem Honest.xy {b : F} {R : CurvePoint F} {A : Pt b} (h : R.Honest w A) : HonestXy w R (coordinates A) :=
  ⟨h.x, h.y, Prod.ext h.means.x h.means.y⟩

/-- The coordinates that the prover ends up with -/
def claimed {b : F} (A B : Pt b) (t : F × F) : F × F :=
  if isIdentityPt B then coordinates A else if isIdentityPt A then coordinates B else t

theorem addTo_complete (g : GoodCurve F E) (h1 : w one = 1) {P Q : CurvePoint F} {A B : Pt (E.b : F)}
    (hP : P.Honest w A) (hQ : Q.Honest w B) (t : F × F) :
    Complete w (addTo E (some t) one P Q) fun R =>
      HonestXy w R (claimed A B t) ∧ R.isIdentity.Honest w false := by
  obtain ⟨hx, hy, hf, hx', hy'⟩ := hP.values
  obtain ⟨kx, ky, kf, kx', ky'⟩ := hQ.values
  simp only [addTo, hx, hy, kx, ky, hf, kf]
  refine Complete.bind (pointOf_complete g A) ?_
  rintro _ ⟨p, rfl, hp⟩
  refine Complete.bind (pointOf_complete g B) ?_
  rintro _ ⟨q, rfl, hq⟩
  simp only [both_some, Option.map_some, Option.bind_some, orMissing_some]
  refine Complete.bind (AllocatedNum.alloc_complete _) fun xo ⟨hxo, hxo'⟩ => ?_
  refine Complete.bind (AllocatedNum.alloc_complete _) fun yo ⟨hyo, hyo'⟩ => ?_
  refine Complete.bind (AllocatedBit.alloc_complete _) fun f hf => ?_
  refine Complete.bind (addSlope_complete g h1 hP hQ) fun _ _ => ?_
  refine Complete.bind (addFlag_complete_false h1 hP hQ hf) fun fl hfl => ?_
  refine Complete.bind (addClear_complete h1 hfl) fun x4 hx4 => ?_
  refine Complete.bind (addClear_complete h1 hfl) fun y4 hy4 => ?_
  refine Complete.bind (addFirst_complete h1 hP.flag ((Num.eval_lc h1 _).trans kx') hx4) fun x5 hx5 => ?_
  refine Complete.bind (addFirst_complete h1 hP.flag ((Num.eval_lc h1 _).trans ky') hy4) fun y5 hy5 => ?_
  have hbit : (Q.isIdentity.lc one (.one : Coeff F)).eval w = if isIdentityPt B then 1 else 0 :=
    Boolean.eval_lc h1 hQ.flag.means .one
  refine Complete.bind (choose_complete hbit ((Num.eval_lc h1 _).trans hx') hx5
    (by rw [AllocatedNum.lc, LC.eval_ofVar, hxo'])) fun _ _ => ?_
  refine Complete.bind (choose_complete hbit ((Num.eval_lc h1 _).trans hy') hy5
    (by rw [AllocatedNum.lc, LC.eval_ofVar, hyo'])) fun _ _ => ?_
  rw [complete_ret]
  refine ⟨⟨Num.honest_ofAllocated hxo, Num.honest_ofAllocated hyo, Prod.ext ?_ ?_⟩, hf⟩
  · rw [claimed, apply_ite Prod.fst, apply_ite Prod.fst]
    exact (Num.wire_ofAllocated _).trans hxo'
  · rw [claimed, apply_ite Prod.snd, apply_ite Prod.snd]
    exact (Num.wire_ofAllocated _).trans hyo'

/-- If one of the points is not the identity, the prover can claim any other point for the sum. -/
theorem addTo_complete_point (g : GoodCurve F E) (h1 : w one = 1) {P Q : CurvePoint F} {A B T : Pt (E.b : F)}
    (hP : P.Honest w A) (hQ : Q.Honest w B) (hB : B ≠ 0) (hT : T ≠ 0) :
    Complete w (addTo E (some (coordinates T)) one P Q) fun R => ∃ T' : Pt (E.b : F), T' ≠ 0 ∧ R.Honest w T' := by
  refine (addTo_complete g h1 hP hQ _).mono ?_
  rintro R ⟨h, hf⟩
  have : ∃ T' : Pt (E.b : F), T' ≠ 0 ∧ claimed A B (coordinates T) = coordinates T' := by
    rw [claimed, if_neg (by simp [isIdentityPt_false.2 hB])]
    by_cases hA : A = 0
    · exact ⟨B, hB, by rw [if_pos (by rw [hA, isIdentityPt_zero])]⟩
    · exact ⟨T, hT, by rw [if_neg (by simp [isIdentityPt_false.2 hA])]⟩
  obtain ⟨T', hT', e⟩ := this
  rw [e] at h
  have hf' : R.isIdentity.Honest w (isIdentityPt T') := by rw [isIdentityPt_false.2 hT']; exact hf
  exact ⟨T', hT', ⟨congrArg Prod.fst h.xy, congrArg Prod.snd h.xy, hf'.means⟩, h.x, h.y, hf'⟩

/-- If neither point is the identity, the prover can claim any coordinates for the sum. -/
theorem addTo_complete_xy (g : GoodCurve F E) (h1 : w one = 1) {P Q : CurvePoint F} {A B : Pt (E.b : F)}
    (hP : P.Honest w A) (hQ : Q.Honest w B) (hA : A ≠ 0) (hB : B ≠ 0) (t : F × F) :
    Complete w (addTo E (some t) one P Q) fun R => HonestXy w R t := by
  refine (addTo_complete g h1 hP hQ _).mono ?_
  rintro R ⟨h, -⟩
  rwa [claimed, if_neg (by simp [isIdentityPt_false.2 hB]), if_neg (by simp [isIdentityPt_false.2 hA])] at h

end CurvePoint
end Circuit
end Halo
