import Verif.Lemmas.Gadget.TwinNum
import Verif.Lemmas.Gadget.EccAdd
import Verif.Spec.CheatAdd
/-!
# The curve gadgets ask for the same constraints, whatever values they know

The gadgets panic on coordinates that are not on the curve, so coordinates that the constraint
system without values knows have to be good.
-/
set_option linter.unusedSectionVars false
namespace Halo
namespace Circuit
open Sha256 (foldProg index)
variable {F : Type} [Field F] {α β : Type} {V : Var → Prop} {one : Var}

/-- Straight-line code; the equations are for the combinations. -/
macro "twin_steps" "[" ts:Lean.Parser.Tactic.simpLemma,* "]" : tactic => `(tactic| repeat (first
  | (refine twin_numAlloc fun _ _ => ?_)
  | (refine twin_bitAlloc fun _ _ _ => ?_)
  | (refine twin_multiply fun _ _ _ _ _ _ _ => ?_)
  | (refine twin_alloc fun _ _ _ => ?_)
  | (refine twin_enforce (by first | rfl | (simp only [$ts,*]; done) | (simp only [AllocatedNum.lc, $ts,*]; done)) (by lc_in) ?_)
  | (refine twin_enforce' (by first | rfl | (simp only [$ts,*]; done) | (simp only [AllocatedNum.lc, $ts,*]; done)) (by lc_in) ?_)))

theorem twin_check {b b' : AllocatedBit} (h : AllocatedBit.Twin V b b') :
    Twin V (AllocatedBit.check b : Prog F Unit) (AllocatedBit.check b') fun _ _ => True := by
  have := h.mem
  unfold AllocatedBit.check
  twin_steps [h.var]
  trivial

theorem Num.value_ofAllocated (v : Option F) (x : Var) : (Num.ofAllocated ⟨v, x⟩).value = v := by
  cases v <;> simp [Num.ofAllocated, Num.value]

namespace CurvePoint

/-- The same point, up to values -/
structure Like (V : Var → Prop) (P P' : CurvePoint F) : Prop where
  x : Num.Twin V P.x P'.x
  y : Num.Twin V P.y P'.y
  flag : Boolean.Twin V P.isIdentity P'.isIdentity

variable {P P' Q Q' : CurvePoint F} {c c' : Boolean}

theorem twin_choose {bit bit' : Option Bool} {a a' b b' o o' : Option F} {l1 l2 l3 l4 l1' l2' l3' l4' : LC F}
    (e1 : l1' = l1) (e2 : l2' = l2) (e3 : l3' = l3) (e4 : l4' = l4) (h1 : l1.In V) (h2 : l2.In V)
    (h3 : l3.In V) (h4 : l4.In V) :
    Twin V (choose bit a b o l1 l2 l3 l4) (choose bit' a' b' o' l1' l2' l3' l4') fun _ _ => True := by
  subst e1 e2 e3 e4
  unfold choose
  twin_steps []
  trivial

section
variable [FieldApi F]

theorem twin_conditionalEndo (h1 : V one) (hP : Like V P P') (hc : Boolean.Twin V c c') :
    Twin V (conditionalEndo one P c) (conditionalEndo one P' c') (Like V) := by
  have i1 := hP.x.in h1
  have i2 := hc.in (F := F) (k := .full (FieldApi.beta - 1)) h1
  unfold conditionalEndo
  twin_steps [hP.x.lc, hc.lc]
  exact Twin.ret ⟨.ofAllocated ⟨_, _, _, by assumption⟩, hP.y, hP.flag⟩

theorem twin_conditionalNeg (h1 : V one) (hP : Like V P P') (hc : Boolean.Twin V c c') :
    Twin V (conditionalNeg one P c) (conditionalNeg one P' c') (Like V) := by
  have i1 := hP.y.in h1
  have i2 := hc.in (F := F) (k := .full (FieldApi.fromU64 2)) h1
  unfold conditionalNeg
  twin_steps [hP.y.lc, hc.lc]
  exact Twin.ret ⟨hP.x, .ofAllocated ⟨_, _, _, by assumption⟩, hP.flag⟩

theorem twin_addIncomplete (h1 : V one) (hP : Like V P P') (hQ : Like V Q Q') :
    Twin V (addIncomplete one P Q) (addIncomplete one P' Q') (Like V) := by
  have i1 := hP.x.in h1
  have i2 := hP.y.in h1
  have i3 := hQ.x.in h1
  have i4 := hQ.y.in h1
  unfold addIncomplete
  twin_steps [hP.x.lc, hP.y.lc, hQ.x.lc, hQ.y.lc]
  exact Twin.ret ⟨.ofAllocated ⟨_, _, _, by assumption⟩, .ofAllocated ⟨_, _, _, by assumption⟩, hP.flag⟩

theorem twin_double (h1 : V one) (hP : Like V P P') :
    Twin V (double one P) (double one P') fun R R' => Like V R R' ∧
      ∀ x y, R'.x.value = some x → R'.y.value = some y → ∃ xp yp l, P'.x.value = some xp ∧
        P'.y.value = some yp ∧ l = (match FieldApi.invert (yp + yp) with
          | some inv => inv * (xp * xp + xp * xp + xp * xp)
          | none => 0) ∧ x = l * l - xp - xp ∧ y = l * (xp - x) - yp := by
  have i1 := hP.x.in h1
  have i2 := hP.y.in h1
  have i3 := hP.flag.in (F := F) (k := .one) h1
  unfold double
  twin_steps [hP.x.lc, hP.y.lc, hP.flag.lc]
  refine Twin.ret ⟨⟨.ofAllocated ⟨_, _, _, by assumption⟩, .ofAllocated ⟨_, _, _, by assumption⟩, hP.flag⟩, ?_⟩
  intro x y hx hy
  simp only [Num.value_ofAllocated] at hx hy
  cases hxp : P'.x.value with
  | none => simp [hxp, orMissing, Except.toOption] at hx; cases hx
  | some xp =>
    cases hyp : P'.y.value with
    | none => simp [hxp, hyp, orMissing] at hx; cases hx
    | some yp =>
      refine ⟨xp, yp, _, rfl, rfl, rfl, ?_⟩
      simp only [hxp, hyp, orMissing] at hx hy
      cases hi : FieldApi.invert (yp + yp) with
      | none =>
        simp only [hi] at hx hy ⊢
        cases hx
        cases hy
        exact ⟨rfl, rfl⟩
      | some i =>
        simp only [hi] at hx hy ⊢
        cases hx
        cases hy
        exact ⟨rfl, rfl⟩

theorem twin_doubleAndAddIncomplete (h1 : V one) (hP : Like V P P') (hQ : Like V Q Q') :
    Twin V (doubleAndAddIncomplete one P Q) (doubleAndAddIncomplete one P' Q') (Like V) := by
  have i1 := hP.x.in h1
  have i2 := hP.y.in h1
  have i3 := hQ.x.in h1
  have i4 := hQ.y.in h1
  unfold doubleAndAddIncomplete
  twin_steps [hP.x.lc, hP.y.lc, hQ.x.lc, hQ.y.lc]
  exact Twin.ret ⟨.ofAllocated ⟨_, _, _, by assumption⟩, .ofAllocated ⟨_, _, _, by assumption⟩, hP.flag⟩

theorem twin_addSlope [DecidableEq F] (h1 : V one) (hP : Like V P P') (hQ : Like V Q Q') :
    Twin V (addSlope one P Q) (addSlope one P' Q') fun _ _ => True := by
  have i1 := hP.x.in h1
  have i2 := hP.y.in h1
  have i3 := hQ.x.in h1
  have i4 := hQ.y.in h1
  unfold addSlope
  twin_steps [hP.x.lc, hP.y.lc, hQ.x.lc, hQ.y.lc]
  trivial

theorem twin_addFlag (h1 : V one) (hP : Like V P P') (hQ : Like V Q Q') {v v' : Option Bool}
    {b b' : AllocatedBit} (hb : AllocatedBit.Twin V b b') :
    Twin V (addFlag one P Q v b) (addFlag one P' Q' v' b') fun x x' => x = x' ∧ V x := by
  have i2 := hP.y.in h1
  have i4 := hQ.y.in h1
  have i5 := hb.mem
  unfold addFlag
  twin_steps [hP.y.lc, hQ.y.lc, hb.var]
  exact Twin.ret ⟨rfl, by assumption⟩

theorem twin_addClear (h1 : V one) {flag : Var} (hf : V flag) {v3 v4 v3' v4' : Option F} {b b' : Option Bool} :
    Twin V (addClear one flag v3 v4 b) (addClear one flag v3' v4' b') fun x x' => x = x' ∧ V x := by
  unfold addClear
  twin_steps []
  exact Twin.ret ⟨rfl, by assumption⟩

theorem twin_addFirst (h1 : V one) (hc : Boolean.Twin V c c') {v2 v4 v5 v2' v4' v5' : Option F} {l l' : LC F}
    (hl : l' = l) (hl' : l.In V) {x : Var} (hx : V x) :
    Twin V (addFirst one c v2 l v4 x v5) (addFirst one c' v2' l' v4' x v5') fun a a' => a' = a ∧ a.In V := by
  have i1 := hc.in (F := F) (k := .one) h1
  unfold addFirst
  twin_steps [hc.lc, hl]
  exact Twin.ret ⟨rfl, by lc_in⟩

theorem twin_clearIfIdentity (h1 : V one) {n n' : Num F} (hn : Num.Twin V n n') (hc : Boolean.Twin V c c') :
    Twin V (clearIfIdentity one n c) (clearIfIdentity one n' c') fun m m' => Num.Twin V m m' ∧ m'.value = none := by
  have i1 := hn.in h1
  have i2 := hc.negate.in (F := F) (k := .one) h1
  unfold clearIfIdentity
  twin_steps [hn.lc, hc.negate.lc]
  exact Twin.ret ⟨.ofAllocated ⟨_, _, _, by assumption⟩, rfl⟩

/-- Lists of the same bits, up to values -/
abbrev Bits (V : Var → Prop) : List AllocatedBit → List AllocatedBit → Prop :=
  List.Forall₂ (AllocatedBit.Twin V)

theorem twin_multiplyEndo (h1 : V one) (hP : Like V P P') {bs bs' : List AllocatedBit} (hb : Bits V bs bs')
    (hl : bs'.length = 128) :
    Twin V (multiplyEndo one P bs) (multiplyEndo one P' bs') fun R R' => Like V R R' ∧ R'.x.value = none := by
  unfold multiplyEndo
  refine twin_guard (by simpa using hl) ?_
  refine (twin_double h1 hP).bind fun A A' hA => ?_
  refine (twin_addIncomplete h1 hA.1 hP).bind fun A A' hA => ?_
  refine Twin.bind (R := Like V) (twin_foldProg (A := fun i j => i = j ∧ i < 64)
    (RescueGadget.forall₂_refl fun i hi => ⟨rfl, by simp [List.mem_range'_1] at hi; omega⟩) ?_ hA) ?_
  · rintro i _ A A' ⟨rfl, hi⟩ hA
    unfold endoStep
    refine (twin_index hb (by omega)).bind fun n n' hn => ?_
    refine (twin_index hb (by omega)).bind fun e e' he => ?_
    refine (twin_conditionalNeg h1 hP (.is hn)).bind fun B B' hB => ?_
    refine (twin_doubleAndAddIncomplete h1 hA hB).bind fun A A' hA => ?_
    exact twin_conditionalEndo h1 hA (.is he)
  · intro A A' hA
    refine (twin_clearIfIdentity h1 hA.x hP.flag).bind fun x x' hx => ?_
    refine (twin_clearIfIdentity h1 hA.y hP.flag).bind fun y y' hy => ?_
    exact Twin.ret ⟨⟨hx.1, hy.1, hP.flag⟩, hx.2⟩

end

/-! ### Gadgets that look at the values -/

variable [DecidableEq F] [LawfulField F] {E : CurveConsts}

/-- Coordinates that are known are those of a point. -/
def Good (E : CurveConsts) (P : CurvePoint F) : Prop :=
  ∀ x y, P.x.value = some x → P.y.value = some y → ∃ A : Pt (E.b : F), coordinates A = (x, y)

/-- The same point, up to values that are good -/
structure Twin (V : Var → Prop) (E : CurveConsts) (P P' : CurvePoint F) : Prop where
  like : Like V P P'
  good : Good E P'

theorem good_of_none {P : CurvePoint F} (h : P.x.value = none) : Good E P := fun x y hx _ => by
  rw [h] at hx; cases hx

theorem twin_pointOf (g : GoodCurve F E) (hP : Good E P') {x y : Option F} :
    Circuit.Twin V (pointOf E x y) (pointOf E P'.x.value P'.y.value) fun _ b =>
      ∀ p, b = some p → ∃ A : Pt (E.b : F), P'.x.value = some (coordinates A).1 ∧
        P'.y.value = some (coordinates A).2 ∧ Denotes (E.b : F) p A := by
  have key : ∃ b, pointOf E P'.x.value P'.y.value = (Pure.pure b : Prog F _) ∧
      ∀ p, b = some p → ∃ A : Pt (E.b : F), P'.x.value = some (coordinates A).1 ∧
        P'.y.value = some (coordinates A).2 ∧ Denotes (E.b : F) p A := by
    cases hx : P'.x.value with
    | none => exact ⟨none, rfl, nofun⟩
    | some x =>
      cases hy : P'.y.value with
      | none => exact ⟨none, rfl, nofun⟩
      | some y =>
        obtain ⟨A, hA⟩ := hP x y hx hy
        obtain ⟨p, hp, hd⟩ := fromXy_coordinates g A
        rw [hA] at hp
        refine ⟨some p, by simp only [pointOf, hp, Option.join, Option.bind_some, id]; rfl, ?_⟩
        rintro _ ⟨⟩
        exact ⟨A, by rw [hA], by rw [hA], hd⟩
  obtain ⟨b, e, hb⟩ := key
  rw [e]
  unfold pointOf
  split
  · rename_i x y
    cases (Proj.fromXy E x y).join with
    | none => exact ⟨none, hb⟩
    | some p => exact hb
  · exact hb

theorem twin_double_good (g : GoodCurve F E) (h1 : V one) (hP : Twin V E P P') :
    Circuit.Twin V (double one P) (double one P') (Twin V E) := by
  refine Twin.mono ?_ (twin_double (F := F) h1 hP.like)
  refine fun R R' h => ⟨h.1, fun x y hx hy => ?_⟩
  obtain ⟨xp, yp, l, ex, ey, hl, rfl, rfl⟩ := h.2 x y hx hy
  obtain ⟨A, hA⟩ := hP.good xp yp ex ey
  by_cases h0 : A = 0
  · subst h0
    rw [coordinates_zero] at hA
    obtain ⟨rfl, rfl⟩ : 0 = xp ∧ 0 = yp := by simpa using hA
    rw [add_zero, LawfulField.invert_zero] at hl
    subst hl
    exact ⟨0, by simp [coordinates_zero]⟩
  · have hyy := two_y_ne g.two_ne g.no_two_torsion h0
    rw [hA] at hyy
    rw [LawfulField.invert_eq _ hyy] at hl
    refine ⟨A + A, ?_⟩
    have := (add_tangent (l := l) g.two_ne g.no_two_torsion h0 (by
      rw [hA, hl]; rw [mul_inv_cancel_left₀ hyy]; ring)).2
    rw [this, hA]

theorem twin_addTo (g : GoodCurve F E) (h1 : V one) (hP : Twin V E P P') (hQ : Twin V E Q Q')
    (claim : Option (F × F)) :
    Circuit.Twin V (addTo E claim one P Q) (add E one P' Q') (Twin V E) := by
  have i1 := hP.like.x.in h1
  have i2 := hP.like.y.in h1
  have i3 := hQ.like.x.in h1
  have i4 := hQ.like.y.in h1
  have i5 := hQ.like.flag.in (F := F) (k := .one) h1
  unfold add addTo
  refine (twin_pointOf g hP.good).bind fun p p' hp => ?_
  refine (twin_pointOf g hQ.good).bind fun q q' hq => ?_
  refine twin_numAlloc fun xo hxo => twin_numAlloc fun yo hyo => twin_bitAlloc fun f o hf => ?_
  refine (twin_addSlope h1 hP.like hQ.like).bind fun _ _ _ => ?_
  refine (twin_addFlag h1 hP.like hQ.like ⟨_, _, _, hf⟩).bind ?_
  rintro fl _ ⟨rfl, hfl⟩
  refine (twin_addClear h1 hfl).bind ?_
  rintro x4 _ ⟨rfl, hx4⟩
  refine (twin_addClear h1 hfl).bind ?_
  rintro y4 _ ⟨rfl, hy4⟩
  refine (twin_addFirst h1 hP.like.flag hQ.like.x.lc i3 hx4).bind fun x5 x5' hx5 => ?_
  refine (twin_addFirst h1 hP.like.flag hQ.like.y.lc i4 hy4).bind fun y5 y5' hy5 => ?_
  refine (twin_choose hQ.like.flag.lc hP.like.x.lc hx5.1 rfl i5 i1 hx5.2 (LC.in_ofVar hxo)).bind fun _ _ _ => ?_
  refine (twin_choose hQ.like.flag.lc hP.like.y.lc hy5.1 rfl i5 i2 hy5.2 (LC.in_ofVar hyo)).bind fun _ _ _ => ?_
  refine Twin.ret ⟨⟨.ofAllocated ⟨_, _, _, hxo⟩, .ofAllocated ⟨_, _, _, hyo⟩, .is ⟨_, _, _, hf⟩⟩, ?_⟩
  intro x y hx hy
  simp only [Num.value_ofAllocated, orMissing_toOption] at hx hy
  have gP := hP.good
  have gQ := hQ.good
  unfold Good at gP gQ
  generalize P'.x.value = x1 at *
  generalize P'.y.value = y1 at *
  generalize Q'.x.value = x2 at *
  generalize Q'.y.value = y2 at *
  generalize P'.isIdentity.getValue = b1 at *
  generalize Q'.isIdentity.getValue = b2 at *
  cases x1 with
  | none => cases hx
  | some x1 =>
  cases y1 with
  | none => cases hy
  | some y1 =>
  cases x2 with
  | none => cases hx
  | some x2 =>
  cases y2 with
  | none => cases hy
  | some y2 =>
  cases p' with
  | none => simp [both] at hx
  | some p =>
  cases q' with
  | none => simp [both] at hx
  | some q =>
  cases b1 with
  | none => simp [both] at hx
  | some b1 =>
  cases b2 with
  | none => simp [both] at hx
  | some b2 =>
    obtain ⟨A, ex, ey, hA⟩ := hp p rfl
    obtain ⟨B, fx, fy, hB⟩ := hq q rfl
    simp only [Option.some.injEq] at ex ey fx fy
    subst ex ey fx fy
    simp only [both, Option.bind_some, Option.map_some, pointValues_eq (denotes_add g hA hB),
      Option.some.injEq] at hx hy
    subst hx hy
    cases b2 with
    | true => exact ⟨A, rfl⟩
    | false =>
      cases b1 with
      | true => exact ⟨B, rfl⟩
      | false =>
        simp only [Bool.false_eq_true, if_false]
        by_cases h : isIdentityPt (A + B) = true
        · exact ⟨0, by simp [h, coordinates_zero]⟩
        · exact ⟨A + B, by simp [h]⟩

theorem twin_add (g : GoodCurve F E) (h1 : V one) (hP : Twin V E P P') (hQ : Twin V E Q Q') :
    Circuit.Twin V (add E one P Q) (add E one P' Q') (Twin V E) := twin_addTo g h1 hP hQ none

theorem good_identity : Good E (identity : CurvePoint F) := by
  rintro x y ⟨⟩ ⟨⟩
  exact ⟨0, rfl⟩

theorem twin_identity : Twin V E (identity : CurvePoint F) identity :=
  ⟨⟨.const 0, .const 0, .constant _⟩, good_identity⟩

theorem twin_const {x y : F} {A : Pt (E.b : F)} (h : coordinates A = (x, y)) :
    Twin V E (const x y) (const x y) :=
  ⟨⟨.const _, .const _, .constant _⟩, by rintro x y ⟨⟩ ⟨⟩; exact ⟨A, h⟩⟩

theorem twin_multiplyStep (g : GoodCurve F E) (h1 : V one) (hP : Twin V E P P') (hQ : Twin V E Q Q')
    {b b' : AllocatedBit} (hb : AllocatedBit.Twin V b b') :
    Circuit.Twin V (multiplyStep E one P Q b) (multiplyStep E one P' Q' b') (Twin V E) := by
  unfold multiplyStep
  refine (twin_double_good g h1 hQ).bind fun D D' hD => ?_
  refine (twin_add g h1 hD hP).bind fun S S' hS => ?_
  refine twin_numAlloc fun xo hxo => twin_numAlloc fun yo hyo => twin_bitAlloc fun f o hf => ?_
  have i0 := LC.in_ofVar (F := F) hb.mem
  have i1 := hS.like.x.in h1
  have i2 := hS.like.y.in h1
  have i3 := hS.like.flag.in (F := F) (k := .one) h1
  have j1 := hD.like.x.in h1
  have j2 := hD.like.y.in h1
  have j3 := hD.like.flag.in (F := F) (k := .one) h1
  refine (twin_choose (by rw [hb.var]) hS.like.x.lc hD.like.x.lc rfl i0 i1 j1 (LC.in_ofVar hxo)).bind fun _ _ _ => ?_
  refine (twin_choose (by rw [hb.var]) hS.like.y.lc hD.like.y.lc rfl i0 i2 j2 (LC.in_ofVar hyo)).bind fun _ _ _ => ?_
  refine (twin_choose (by rw [hb.var]) hS.like.flag.lc hD.like.flag.lc rfl i0 i3 j3 (LC.in_ofVar hf)).bind
    fun _ _ _ => ?_
  refine Twin.ret ⟨⟨.ofAllocated ⟨_, _, _, hxo⟩, .ofAllocated ⟨_, _, _, hyo⟩, .is ⟨_, _, _, hf⟩⟩, ?_⟩
  intro x y hx hy
  simp only [Num.value_ofAllocated, orMissing_toOption] at hx hy
  cases hv : b'.value with
  | none => rw [hv] at hx; cases hx
  | some v =>
    rw [hv] at hx hy
    cases v with
    | true => exact hS.good x y hx hy
    | false => exact hD.good x y hx hy

theorem twin_multiply' (g : GoodCurve F E) (h1 : V one) (hP : Twin V E P P') {bs bs' : List AllocatedBit}
    (hb : Bits V bs bs') : Circuit.Twin V (multiply E one P bs) (multiply E one P' bs') (Twin V E) :=
  twin_foldProg (List.rel_reverse hb) (fun _ _ _ _ hb hQ => twin_multiplyStep g h1 hP hQ hb) twin_identity

theorem witness_value {v : Except SynthesisError (Proj F)} (h : ∀ p, v = .ok p → ∃ A, Denotes (E.b : F) p A)
    {x y : Var} {f : Boolean} : Good E ⟨.ofAllocated ⟨((v.map pointValues).map (·.1)).toOption, x⟩,
      .ofAllocated ⟨((v.map pointValues).map (·.2.1)).toOption, y⟩, f⟩ := by
  intro x y hx hy
  simp only [Num.value_ofAllocated] at hx hy
  cases v with
  | error e => cases hx
  | ok p =>
    obtain ⟨A, hA⟩ := h p rfl
    simp only [Except.map, Except.toOption, pointValues_eq hA, Option.some.injEq] at hx hy
    exact ⟨A, by rw [← hx, ← hy]⟩

theorem twin_witness (h1 : V one) {v v' : Except SynthesisError (Proj F)}
    (h : ∀ p, v' = .ok p → ∃ A, Denotes (E.b : F) p A) :
    Circuit.Twin V (witness E one v) (witness E one v') fun R R' => Twin V E R R' ∧
      R'.isIdentity.getValue = none := by
  unfold witness
  twin_steps []
  refine Twin.ret ⟨⟨⟨.ofAllocated ⟨_, _, _, by assumption⟩, .ofAllocated ⟨_, _, _, by assumption⟩,
    .is ⟨_, _, _, by assumption⟩⟩, witness_value h⟩, rfl⟩

theorem twin_multiplyInvEndo {S : Type} [Field S] [FieldApi S] (h1 : V one) (hP : Like V P P')
    (hn : P'.isIdentity.getValue = none) {bs bs' : List AllocatedBit} (hb : Bits V bs bs')
    (hl : bs'.length = 128) :
    Circuit.Twin V (multiplyInvEndo E S one P bs) (multiplyInvEndo E S one P' bs') (Twin V E) := by
  have hg : P'.getPoint E = none := by
    unfold getPoint
    rw [hn]
    cases P'.x.value <;> cases P'.y.value <;> rfl
  unfold multiplyInvEndo
  rw [hg]
  refine (twin_witness h1 (by rintro p ⟨⟩)).bind fun R R' hR => ?_
  refine (twin_multiplyEndo h1 hR.1.like hb hl).bind fun O O' hO => ?_
  have i1 := hP.x.in h1
  have i2 := hP.y.in h1
  have i3 := hO.1.x.in h1
  have i4 := hO.1.y.in h1
  twin_steps [hP.x.lc, hP.y.lc, hO.1.x.lc, hO.1.y.lc]
  exact Twin.ret hR.1

theorem twin_unwrapPoint {v v' : Option (Option (Proj F))} {b : Option (Proj F)}
    (h : unwrapPoint v' = (Pure.pure b : Prog F _)) :
    Circuit.Twin V (unwrapPoint v : Prog F _) (unwrapPoint v') fun _ y => y = b := by
  rw [h]
  cases v with
  | none => exact rfl
  | some p =>
    cases p with
    | none => exact ⟨none, rfl⟩
    | some p => exact rfl

theorem twin_sumXy {v w v' w' : Option (Proj F)} {b : Option (F × F)}
    (h : sumXy E v' w' = (Pure.pure b : Prog F _)) :
    Circuit.Twin V (sumXy E v w : Prog F _) (sumXy E v' w') fun _ y => y = b := by
  rw [h]
  unfold sumXy
  split
  · rename_i p q
    cases (Proj.add E p q).getXy with
    | none => exact ⟨none, rfl⟩
    | some p => exact rfl
  · exact rfl

theorem twin_addConditionallyIncomplete (h1 : V one) (hP : Like V P P') (hQ : Like V Q Q')
    (hc : Boolean.Twin V c c') {p q : Option (Proj F)} {r : Option (F × F)}
    (ep : unwrapPoint (P'.getPoint E) = (Pure.pure p : Prog F _))
    (eq : unwrapPoint (Q'.getPoint E) = (Pure.pure q : Prog F _))
    (er : sumXy E p q = (Pure.pure r : Prog F _)) (hr : r = none ∨ c'.getValue = none) :
    Circuit.Twin V (addConditionallyIncomplete E one P Q c) (addConditionallyIncomplete E one P' Q' c')
      fun R R' => Like V R R' ∧ R'.x.value = none := by
  have i1 := hP.x.in h1
  have i2 := hP.y.in h1
  have i3 := hQ.x.in h1
  have i4 := hQ.y.in h1
  have i5 := hc.in (F := F) (k := .one) h1
  unfold addConditionallyIncomplete
  refine (twin_unwrapPoint ep).bind ?_
  rintro a _ rfl
  refine (twin_unwrapPoint eq).bind ?_
  rintro b _ rfl
  refine (twin_sumXy er).bind ?_
  rintro d r' rfl
  twin_steps [hP.x.lc, hP.y.lc, hQ.x.lc, hQ.y.lc]
  refine (twin_choose hc.lc rfl hP.x.lc rfl i5 (by lc_in) i1 (by lc_in)).bind fun _ _ _ => ?_
  refine (twin_choose hc.lc (by rw [hP.y.lc]) hP.y.lc rfl i5 (by lc_in) i2 (by lc_in)).bind fun _ _ _ => ?_
  refine Twin.ret ⟨⟨.ofAllocated ⟨_, _, _, by assumption⟩, .ofAllocated ⟨_, _, _, by assumption⟩,
    .constant _⟩, ?_⟩
  rw [Num.value_ofAllocated, orMissing_toOption]
  rcases hr with rfl | hr
  · rfl
  · rw [hr]
    cases r' <;> rfl

/-- A point whose coordinates are not known -/
theorem getPoint_of_none (h : P.x.value = none) : P.getPoint E = none := by
  unfold getPoint
  rw [h]

theorem getPoint_const (g : GoodCurve F E) {x y : F} {A : Pt (E.b : F)} (h : coordinates A = (x, y)) :
    ∃ p, unwrapPoint ((const x y).getPoint E) = (Pure.pure (some p) : Prog F _) ∧ Denotes (E.b : F) p A := by
  obtain ⟨p, hp, hd⟩ := fromXy_coordinates g A
  rw [h] at hp
  exact ⟨p, by simp [getPoint, const, Num.const, Num.value, Boolean.getValue, hp, unwrapPoint, orPanic]; rfl, hd⟩

end CurvePoint
end Circuit
end Halo
