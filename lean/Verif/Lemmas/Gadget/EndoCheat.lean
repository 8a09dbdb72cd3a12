import Verif.Lemmas.Gadget.EccMul
import Verif.Lemmas.Gadget.TwinEcc
import Verif.Lemmas.Gadget.Closed
import Verif.Lemmas.Gadget.Inputs
/-!
# What a lying prover gets away with in `multiply_endo`

The output of `add_incomplete` is not constrained (C41), so the prover may start the ladder with any
multiple of the point.
-/
namespace Halo
namespace Circuit
open Sha256 (foldProg index)
open HaloCurve FieldApi
variable {F : Type} [Field F] {w : Var → F} {one : Var}

namespace CurvePoint
section
variable [LawfulField F]

/-- `addIncomplete` (`src/gadgets/ecc.rs:248-352`) by a prover that claims other coordinates for the sum -/
def addIncompleteTo (t : F × F) (one : Var) (p q : CurvePoint F) : Prog F (CurvePoint F) := do
  let xpVal := p.x.value
  let ypVal := p.y.value
  let xqVal := q.x.value
  let yqVal := q.y.value
  let lambdaVal : Except SynthesisError F := match xqVal, yqVal, xpVal, ypVal with
    | some xq, some yq, some xp, some yp =>
      match FieldApi.invert (xq - xp) with
      | some inv => .ok (inv * (yq - yp))
      | none => match p.isIdentity.getValue with
        | some true => .ok 0
        | _ => .error .divisionByZero
    | _, _, _, _ => .error .assignmentMissing
  let xrVal : Except SynthesisError F := do
    let xp ← orMissing xpVal
    let xq ← orMissing xqVal
    let lambda ← lambdaVal
    .ok (lambda * lambda - xp - xq)
  let yrVal : Except SynthesisError F := do
    let xp ← orMissing xpVal
    let yp ← orMissing ypVal
    let xr ← xrVal
    let lambda ← lambdaVal
    .ok (lambda * (xp - xr) - yp)
  let xr ← AllocatedNum.alloc (.ok t.1)
  let yr ← AllocatedNum.alloc (.ok t.2)
  let xpLc := p.x.lc one
  let ypLc := p.y.lc one
  let xqLc := q.x.lc one
  let yqLc := q.y.lc one
  let (a, lambda, c, _) ← .doMultiply (do
    let xp ← orMissing xpVal
    let yp ← orMissing ypVal
    let xq ← orMissing xqVal
    let yq ← orMissing yqVal
    .ok (xq - xp, ← lambdaVal, yq - yp))
  .enforce ((xqLc.subLC xpLc).subVar a)
  .enforce ((yqLc.subLC ypLc).subVar c)
  let (d, e, f, _) ← .doMultiply (do
    let xp ← orMissing xpVal
    let xq ← orMissing xqVal
    .ok (← lambdaVal, ← lambdaVal, xp + xq + (← xrVal)))
  .enforce ((LC.ofVar lambda).subVar d)
  .enforce ((LC.ofVar lambda).subVar e)
  let xrLc := ((LC.ofVar f).subLC xpLc).subLC xqLc
  let (g, h, _, _) ← .doMultiply (do
    let xp ← orMissing xpVal
    let yp ← orMissing ypVal
    .ok (xp - (← xrVal), ← lambdaVal, yp + (← yrVal)))
  .enforce ((xpLc.subLC xrLc).subVar g)
  .enforce ((LC.ofVar lambda).subVar h)
  return ⟨.ofAllocated xr, .ofAllocated yr, p.isIdentity⟩

theorem twin_addIncompleteTo {V : Var → Prop} {P P' Q Q' : CurvePoint F} (t : F × F) (h1 : V one)
    (hP : Like V P P') (hQ : Like V Q Q') :
    Circuit.Twin V (addIncompleteTo t one P Q) (addIncomplete one P' Q') (Like V) := by
  have i1 := hP.x.in h1
  have i2 := hP.y.in h1
  have i3 := hQ.x.in h1
  have i4 := hQ.y.in h1
  unfold addIncompleteTo addIncomplete
  twin_steps [hP.x.lc, hP.y.lc, hQ.x.lc, hQ.y.lc]
  exact Twin.ret ⟨.ofAllocated ⟨_, _, _, by assumption⟩, .ofAllocated ⟨_, _, _, by assumption⟩, hP.flag⟩

/-- `multiplyEndo` by a prover that starts the ladder elsewhere -/
def multiplyEndoFrom (t : F × F) (one : Var) (p : CurvePoint F) (other : List AllocatedBit) :
    Prog F (CurvePoint F) := do
  let acc ← double one p
  let acc ← addIncompleteTo t one acc p
  endoLadder one p acc other

theorem twin_multiplyEndoFrom {V : Var → Prop} {P P' : CurvePoint F} (t : F × F) (h1 : V one) (hP : Like V P P')
    {bs bs' : List AllocatedBit} (hb : Bits V bs bs') (hl : bs'.length = 128) :
    Circuit.Twin V (multiplyEndoFrom t one P bs) (multiplyEndo one P' bs') (Like V) := by
  rw [multiplyEndo, if_neg (by simpa using hl)]
  refine (twin_double h1 hP).bind fun A A' hA => ?_
  refine (twin_addIncompleteTo t h1 hA.1 hP).bind fun A A' hA => ?_
  refine Twin.bind (R := Like V) (twin_foldProg (A := fun i j => i = j ∧ i < 64)
    (RescueGadget.forall₂_refl fun i hi => ⟨rfl, by simp [List.mem_range'_1] at hi; omega⟩) ?_ hA) ?_
  · rintro i _ A A' ⟨rfl, hi⟩ hA
    unfold endoStep
    refine (twin_index hb (by omega)).bind fun n n' hn => ?_
    refine (twin_index hb (by omega)).bind fun e e' he => ?_
    refine (twin_conditionalNeg h1 hP (.is hn)).bind fun B B' hB => ?_
    refine (twin_doubleAndAddIncomplete h1 hA hB).bind fun A A' hA => ?_
    exact twin_conditionalEndo h1 hA (.is he)
  · intro A A' hA
    refine (twin_clearIfIdentity h1 hA.x hP.flag).bind fun x x' hx => ?_
    refine (twin_clearIfIdentity h1 hA.y hP.flag).bind fun y y' hy => ?_
    exact Twin.ret ⟨hx.1, hy.1, hP.flag⟩

end

/-- What the wires mean does not depend on values. -/
theorem Like.means {V : Var → Prop} {P P' : CurvePoint F} (h : Like V P P') {b : F} {A : Pt b} (hP : P.Means w A) :
    P'.Means w A := by
  have hn : ∀ {n n' : Num F}, Num.Twin V n n' → n'.wire w = n.wire w := by
    intro n n' h
    cases h with
    | constant => rfl
    | allocated _ h => cases h; rfl
  refine ⟨(hn h.x).trans hP.x, (hn h.y).trans hP.y, ?_⟩
  have := hP.flag
  have h := h.flag
  revert this h
  generalize P.isIdentity = f
  generalize P'.isIdentity = f'
  generalize isIdentityPt A = v
  intro this h
  cases h with
  | constant => exact this
  | is h => cases h; exact this
  | not h => cases h; exact this

/-- The wires carry one point. -/
theorem Means.unique {P : CurvePoint F} {b : F} {A B : Pt b} (hA : P.Means w A) (hB : P.Means w B) : A = B := by
  have hf : isIdentityPt A = isIdentityPt B := by
    have h1 := hA.flag
    have h2 := hB.flag
    revert h1 h2
    generalize isIdentityPt A = u
    generalize isIdentityPt B = v
    cases P.isIdentity <;> cases u <;> cases v <;> simp_all [Boolean.Means, AllocatedBit.Means]
  have hx := hA.x.symm.trans hB.x
  have hy := hA.y.symm.trans hB.y
  cases A <;> cases B <;> simp_all [isIdentityPt, coordinates]

variable [DecidableEq F] [LawfulField F] {E : CurveConsts}

theorem addIncompleteTo_complete (h1 : w one = 1) {P Q : CurvePoint F} {b : F} {A B T : Pt b}
    (hP : P.Honest w A) (hQ : Q.Honest w B) (hA : A ≠ 0) (hB : B ≠ 0) (hAB : A ≠ B) (hAB' : A ≠ -B) (hT : T ≠ 0) :
    Complete w (addIncompleteTo (coordinates T) one P Q) fun R => R.Honest w T := by
  obtain ⟨hx, hy, hf, hx', hy'⟩ := hP.values
  obtain ⟨kx, ky, kf, kx', ky'⟩ := hQ.values
  have hne := chord_ne hA hB hAB hAB'
  have hne' : (coordinates B).1 - (coordinates A).1 ≠ 0 := sub_ne_zero.2 hne.symm
  have hflag : P.isIdentity.Honest w (isIdentityPt T) := by
    rw [isIdentityPt_false.2 hT, ← isIdentityPt_false.2 hA]
    exact hP.flag
  simp only [addIncompleteTo, hx, hy, hf, kx, ky]
  rw [LawfulField.invert_eq _ hne']
  have hl := mul_inv_cancel_left₀ hne' ((coordinates B).2 - (coordinates A).2)
  generalize ((coordinates B).1 - (coordinates A).1)⁻¹ * ((coordinates B).2 - (coordinates A).2) = l at *
  complete_steps [Num.eval_lc h1, hx', hy', kx', ky']
  intro x hx y hy
  split_steps
  all_goals first | exact honest_of rfl hx hy hflag | grind

variable {S : Type} [Field S] [LawfulField S]

/-- A run of the ladder that does not meet an exceptional case -/
def EndoOk (c : BitVec 128) : List ℕ → S → Prop
  | [], s => s ≠ 0
  | i :: l, s => s ≠ 0 ∧ s ≠ 1 ∧ s ≠ -1 ∧ EndoOk c l (endoScalar c s i)

theorem EndoOk.ne_zero {c : BitVec 128} {l : List ℕ} {s : S} (h : EndoOk c l s) : s ≠ 0 := by
  cases l with
  | nil => exact h
  | cons i l => exact h.1

theorem EndoOk.last {c : BitVec 128} {l : List ℕ} : ∀ {s : S}, EndoOk c l s → l.foldl (endoScalar c) s ≠ 0 := by
  induction l with
  | nil => exact fun h => h
  | cons i l ih => exact fun h => ih h.2.2.2

/-- A step of the ladder is a bijection of scalars. -/
theorem endoScalar_surjective (c : BitVec 128) (i : ℕ) (t : S) : ∃ s, endoScalar c s i = t := by
  have h2 : (2 : S) ≠ 0 := by
    have := (two_three_ne (S := S)).1
    rwa [one_add_one_eq_two] at this
  have hβ : (beta : S) ≠ 0 := fun h => by
    have := beta_cube (F := S)
    rw [h] at this
    simp at this
  simp only [endoScalar]
  refine ⟨((if c.getLsbD (i * 2 + 1) then t / beta else t) - if c.getLsbD (i * 2) then -1 else 1) / 2, ?_⟩
  split <;> field_simp <;> ring

/-- All but a few multiples are the result of such a run. -/
theorem exists_endoOk [DecidableEq S] (c : BitVec 128) (l : List ℕ) : ∃ bad : Finset S, bad.card ≤ 3 * l.length + 1 ∧
    ∀ s ∉ bad, ∃ t, EndoOk c l t ∧ l.foldl (endoScalar c) t = s := by
  induction l with
  | nil => exact ⟨{0}, by simp, fun s hs => ⟨s, by simpa [EndoOk] using hs, rfl⟩⟩
  | cons i l ih =>
    obtain ⟨bad, hc, h⟩ := ih
    refine ⟨bad ∪ ({0, 1, -1} : Finset S).image fun t => (i :: l).foldl (endoScalar c) t, ?_, fun s hs => ?_⟩
    · have h1 : (({0, 1, -1} : Finset S).image fun t => (i :: l).foldl (endoScalar c) t).card ≤ 3 :=
        Finset.card_image_le.trans Finset.card_le_three
      have := Finset.card_union_le bad (({0, 1, -1} : Finset S).image fun t => (i :: l).foldl (endoScalar c) t)
      rw [List.length_cons]
      omega
    · rw [Finset.mem_union, not_or] at hs
      obtain ⟨t, ht, rfl⟩ := h s hs.1
      obtain ⟨u, rfl⟩ := endoScalar_surjective c i t
      have hne : ∀ v ∈ ({0, 1, -1} : Finset S), u ≠ v := by
        rintro v hv rfl
        exact hs.2 (Finset.mem_image.2 ⟨u, hv, rfl⟩)
      exact ⟨u, ⟨hne 0 (by simp), hne 1 (by simp), hne (-1) (by simp), ht⟩, rfl⟩

variable [HaloCurve E F S]

theorem endoStep_complete_ok (h1 : w one = 1) {P R : CurvePoint F} {A : Pt (E.b : F)}
    {bits : List AllocatedBit} {c : BitVec 128} {s : S} {i : ℕ} (hP : P.Honest w A) (hA : A ≠ 0)
    (hb : BitsOf (fun b v => b.Honest w v) bits c) (h0 : s ≠ 0) (hp : s ≠ 1) (hm : s ≠ -1)
    (hn : endoScalar c s i ≠ 0) (hi : i < 64) (hR : R.Honest w (LawfulField.val s • A)) :
    Complete w (endoStep one P bits R i) fun R => R.Honest w (LawfulField.val (endoScalar c s i) • A) := by
  have g := HaloCurve.good E F S
  obtain ⟨b0, e0, hb0⟩ := hb.2 (i * 2) (by omega)
  obtain ⟨b1, e1, hb1⟩ := hb.2 (i * 2 + 1) (by omega)
  rw [endoStep, index, index, e0, e1, ← endoScalar_star g, orPanic_bind, orPanic_bind]
  refine Complete.bind (conditionalNeg_complete (c := .is b0) h1 hP hb0) fun B hB => ?_
  have e : ∀ v : Bool, (if v then -A else A) = LawfulField.val (if v then (-1 : S) else 1) • A := by
    intro v
    cases v <;> simp [star_neg, star_one]
  have key : ∀ t : S, s ≠ t → LawfulField.val s • A ≠ LawfulField.val t • A := by
    intro t ht he
    refine ht (sub_eq_zero.1 (star_eq_zero hA (?_ : LawfulField.val _ • A = 0)))
    rw [sub_eq_add_neg, smul_add_scalar, star_neg, he, add_neg_cancel]
  have hd : Complete w (doubleAndAddIncomplete one R B) fun R => R.Honest w
      ((LawfulField.val s • A) + ((LawfulField.val s • A) + if c.getLsbD (i * 2) then -A else A)) := by
    refine doubleAndAddIncomplete_complete h1 hR hB (fun h => h0 (star_eq_zero hA h)) ?_ ?_ ?_ ?_
    · cases c.getLsbD (i * 2) <;> simpa using hA
    · rw [e]
      refine key _ ?_
      split <;> assumption
    · rw [e, ← star_neg]
      refine key _ ?_
      split
      · rwa [neg_neg]
      · exact hm
    · intro h
      refine hn (star_eq_zero hA (?_ : LawfulField.val _ • A = 0))
      rw [← endoScalar_star g, h]
      split <;> simp
  exact Complete.bind hd fun R' hR' => conditionalEndo_complete (c := .is b1) g h1 hR' hb1

theorem endoLoop_complete_ok (h1 : w one = 1) {P : CurvePoint F} {A : Pt (E.b : F)}
    {bits : List AllocatedBit} {c : BitVec 128} (hP : P.Honest w A) (hA : A ≠ 0)
    (hb : BitsOf (fun b v => b.Honest w v) bits c) :
    ∀ {l : List ℕ} {R : CurvePoint F} {s : S}, (∀ i ∈ l, i < 64) → EndoOk c l s → R.Honest w (LawfulField.val s • A) →
      Complete w (foldProg (endoStep one P bits) l R) fun R =>
        R.Honest w (LawfulField.val (l.foldl (endoScalar c) s) • A)
  | [], _, _, _, _, hR => hR
  | i :: l, _, _, hl, hs, hR => by
    refine Complete.bind (endoStep_complete_ok h1 hP hA hb hs.1 hs.2.1 hs.2.2.1 hs.2.2.2.ne_zero
      (hl i (by simp)) hR) fun R' hR' => ?_
    exact endoLoop_complete_ok h1 hP hA hb (fun j hj => hl j (by simp [hj])) hs.2.2.2 hR'

theorem multiplyEndoFrom_complete (h1 : w one = 1) {P : CurvePoint F} {A : Pt (E.b : F)}
    {bits : List AllocatedBit} {c : BitVec 128} (hP : P.Honest w A) (hA : A ≠ 0)
    (hb : BitsOf (fun b v => b.Honest w v) bits c) {s : S} (hs : EndoOk c (List.range' 1 63) s) :
    Complete w (multiplyEndoFrom (coordinates (LawfulField.val s • A)) one P bits) fun R =>
      R.Honest w (LawfulField.val ((List.range' 1 63).foldl (endoScalar c) s) • A) := by
  have g := HaloCurve.good E F S
  obtain ⟨t2, t3⟩ := two_three_ne (S := S)
  rw [multiplyEndoFrom]
  refine Complete.bind (double_complete g h1 hP) fun D hD => ?_
  have e2 : A + A = LawfulField.val (1 + 1 : S) • A := by rw [smul_add_scalar, star_one]
  have e3 : A + A + A = LawfulField.val (1 + 1 + 1 : S) • A := by rw [smul_add_scalar, ← e2, star_one]
  refine Complete.bind (addIncompleteTo_complete h1 hD hP (T := LawfulField.val s • A) ?_ hA ?_ ?_ ?_) fun T hT => ?_
  · rw [e2]; exact fun h => t2 (star_eq_zero hA h)
  · exact fun h => hA (by simpa using h)
  · rw [Ne, eq_neg_iff_add_eq_zero, e3]; exact fun h => t3 (star_eq_zero hA h)
  · exact fun h => hs.ne_zero (star_eq_zero hA h)
  rw [endoLadder]
  refine Complete.bind (endoLoop_complete_ok h1 hP hA hb (fun i hi => by simp [List.mem_range'_1] at hi; omega) hs hT)
    fun R hR => ?_
  refine Complete.bind (clearIfIdentity_complete h1 hR.x hP.flag) fun x ⟨hx, hx'⟩ => ?_
  refine Complete.bind (clearIfIdentity_complete h1 hR.y hP.flag) fun y ⟨hy, hy'⟩ => ?_
  rw [complete_ret]
  rw [isIdentityPt_false.2 hA] at hx' hy'
  have hc : isIdentityPt (LawfulField.val ((List.range' 1 63).foldl (endoScalar c) s) • A) = isIdentityPt A := by
    rw [isIdentityPt_false.2 hA, isIdentityPt_false]
    exact fun h => hs.last (star_eq_zero hA h)
  exact ⟨⟨hx'.trans hR.means.x, hy'.trans hR.means.y, hc ▸ hP.means.flag⟩, hx, hy, hc ▸ hP.flag⟩

/-- Every point is a multiple of every other point but the identity. -/
theorem star_bijective {A : Pt (E.b : F)} (hA : A ≠ 0) : Function.Bijective fun s : S => LawfulField.val s • A := by
  have hc := (HaloCurve.is (E := E) (F := F) (S := S)).card rfl
  have : Finite (Pt (E.b : F)) := Nat.finite_of_card_ne_zero (by
    rw [hc]
    have := (LawfulField.modulus_bound (F := S)).1
    omega)
  refine Function.Injective.bijective_of_nat_card_le (fun s t h => ?_) (by rw [hc, LawfulField.card_eq])
  refine sub_eq_zero.1 (star_eq_zero hA (?_ : LawfulField.val _ • A = 0))
  rw [sub_eq_add_neg, smul_add_scalar, star_neg, show LawfulField.val s • A = _ from h, add_neg_cancel]

end CurvePoint
end Circuit
end Halo
