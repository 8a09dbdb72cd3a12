import Verif.Lemmas.Gadget.EccAdd
import Verif.Lemmas.Gadget.Logic
import Verif.Lemmas.Gadget.Bits
import Verif.Lemmas.Eisenstein
/-!
# Conditional addition and multiplication by a scalar
-/
namespace Halo
namespace Circuit
variable {F : Type} [Field F] [DecidableEq F] {w : Var → F} {one : Var}

open Sha256 (foldProg index)

namespace CurvePoint
section
variable [LawfulField F] {E : CurveConsts}

omit [DecidableEq F] [LawfulField F] in
theorem ofBool_eq (v : Bool) : (ofBool v : F) = if v then 1 else 0 := rfl

omit [DecidableEq F] [LawfulField F] in
/-- The three selections at the end of `add_conditionally` and of a step of `multiply` -/
theorem select_complete (h1 : w one = 1) {b : F} {P Q : CurvePoint F} {A B : Pt b} (hP : P.Honest w A)
    (hQ : Q.Honest w B) {v : Bool} {bitLc : LC F} (hb : bitLc.eval w = if v then 1 else 0)
    {xo yo : AllocatedNum F} {fo : AllocatedBit}
    (hx : w xo.var = if v then (coordinates A).1 else (coordinates B).1)
    (hy : w yo.var = if v then (coordinates A).2 else (coordinates B).2)
    (hx' : xo.value = some (if v then (coordinates A).1 else (coordinates B).1))
    (hy' : yo.value = some (if v then (coordinates A).2 else (coordinates B).2))
    (hf : fo.Honest w (if v then isIdentityPt A else isIdentityPt B)) :
    Complete w (do
      choose (some v) P.x.value Q.x.value (some (if v then (coordinates A).1 else (coordinates B).1)) bitLc
        (P.x.lc one) (Q.x.lc one) xo.lc
      choose (some v) P.y.value Q.y.value (some (if v then (coordinates A).2 else (coordinates B).2)) bitLc
        (P.y.lc one) (Q.y.lc one) yo.lc
      choose (some v) (P.isIdentity.getValue.map ofBool) (Q.isIdentity.getValue.map ofBool)
        (some (ofBool (if v then isIdentityPt A else isIdentityPt B))) bitLc
        (P.isIdentity.lc one .one) (Q.isIdentity.lc one .one) (LC.ofVar fo.var)
      return (⟨.ofAllocated xo, .ofAllocated yo, .is fo⟩ : CurvePoint F)) fun R =>
        R.Honest w (if v then A else B) := by
  obtain ⟨vx, vy, vf, wx, wy⟩ := hP.values
  obtain ⟨ux, uy, uf, zx, zy⟩ := hQ.values
  rw [vx, vy, vf, ux, uy, uf, Option.map_some, Option.map_some]
  refine Complete.bind (choose_complete hb ((Num.eval_lc h1 _).trans wx) ((Num.eval_lc h1 _).trans zx)
    (by rw [AllocatedNum.lc, LC.eval_ofVar, hx])) fun _ _ => ?_
  refine Complete.bind (choose_complete hb ((Num.eval_lc h1 _).trans wy) ((Num.eval_lc h1 _).trans zy)
    (by rw [AllocatedNum.lc, LC.eval_ofVar, hy])) fun _ _ => ?_
  rw [show (ofBool (if v then isIdentityPt A else isIdentityPt B) : F) =
    if v then ofBool (isIdentityPt A) else ofBool (isIdentityPt B) by cases v <;> rfl]
  refine Complete.bind (choose_complete hb ((Boolean.eval_lc h1 hP.flag.means .one).trans rfl)
    ((Boolean.eval_lc h1 hQ.flag.means .one).trans rfl) ?_) fun _ _ => ?_
  · rw [LC.eval_ofVar, hf.1]; cases v <;> rfl
  rw [complete_ret]
  have e1 : (if v then (coordinates A).1 else (coordinates B).1) = (coordinates (if v then A else B)).1 := by
    cases v <;> rfl
  have e2 : (if v then (coordinates A).2 else (coordinates B).2) = (coordinates (if v then A else B)).2 := by
    cases v <;> rfl
  have e3 : (if v then isIdentityPt A else isIdentityPt B) = isIdentityPt (if v then A else B) := by
    cases v <;> rfl
  rw [e1] at hx hx'
  rw [e2] at hy hy'
  rw [e3] at hf
  exact ⟨⟨by rw [Num.wire_ofAllocated, hx], by rw [Num.wire_ofAllocated, hy], hf.1⟩,
    Num.honest_ofAllocated (by rw [AllocatedNum.Honest, hx, hx']),
    Num.honest_ofAllocated (by rw [AllocatedNum.Honest, hy, hy']), hf⟩

theorem addConditionally_complete (g : GoodCurve F E) (h1 : w one = 1) {P Q : CurvePoint F}
    {A B : Pt (E.b : F)} {c : Boolean} {v : Bool} (hP : P.Honest w A) (hQ : Q.Honest w B)
    (hc : c.Honest w v) :
    Complete w (addConditionally E one P Q c) fun R => R.Honest w (if v then A + B else A) := by
  simp only [addConditionally]
  refine Complete.bind (add_complete g h1 hP hQ) fun R hR => ?_
  obtain ⟨vx, vy, vf, -, -⟩ := hP.values
  obtain ⟨ux, uy, uf, -, -⟩ := hR.values
  have e : conditionalOut c.getValue R P =
    (some (if v then (coordinates (A + B)).1 else (coordinates A).1),
      some (if v then (coordinates (A + B)).2 else (coordinates A).2),
      some (if v then isIdentityPt (A + B) else isIdentityPt A)) := by
    rw [hc.getValue]
    cases v <;> simp only [conditionalOut, vx, vy, vf, ux, uy, uf] <;> rfl
  rw [e]
  simp only [orMissing_some]
  refine Complete.bind (AllocatedNum.alloc_complete _) fun xo ⟨hxo, hxo'⟩ => ?_
  refine Complete.bind (AllocatedNum.alloc_complete _) fun yo ⟨hyo, hyo'⟩ => ?_
  refine Complete.bind (AllocatedBit.alloc_complete _) fun f hf => ?_
  rw [hc.getValue]
  exact select_complete h1 hR hP (Boolean.eval_lc h1 hc.means .one) hxo' hyo'
    (by rw [AllocatedNum.Honest] at hxo; rw [hxo, hxo']) (by rw [AllocatedNum.Honest] at hyo; rw [hyo, hyo'])
    hf

theorem multiplyStep_complete (g : GoodCurve F E) (h1 : w one = 1) {P R : CurvePoint F}
    {A B : Pt (E.b : F)} {c : AllocatedBit} {v : Bool} (hP : P.Honest w A) (hR : R.Honest w B)
    (hc : c.Honest w v) :
    Complete w (multiplyStep E one P R c) fun R => R.Honest w (if v then B + B + A else B + B) := by
  simp only [multiplyStep]
  refine Complete.bind (double_complete g h1 hR) fun D hD => ?_
  refine Complete.bind (add_complete g h1 hD hP) fun S hS => ?_
  obtain ⟨vx, vy, vf, -, -⟩ := hD.values
  obtain ⟨ux, uy, uf, -, -⟩ := hS.values
  have hx : (c.value.bind fun b => if b then S.x.value else D.x.value) =
      some (if v then (coordinates (B + B + A)).1 else (coordinates (B + B)).1) := by
    rw [hc.2, vx, ux]; cases v <;> rfl
  have hy : (c.value.bind fun b => if b then S.y.value else D.y.value) =
      some (if v then (coordinates (B + B + A)).2 else (coordinates (B + B)).2) := by
    rw [hc.2, vy, uy]; cases v <;> rfl
  have hf : (c.value.bind fun b => if b then S.isIdentity.getValue else D.isIdentity.getValue) =
      some (if v then isIdentityPt (B + B + A) else isIdentityPt (B + B)) := by
    rw [hc.2, vf, uf]; cases v <;> rfl
  rw [hx, hy, hf]
  simp only [orMissing_some]
  refine Complete.bind (AllocatedNum.alloc_complete _) fun xo ⟨hxo, hxo'⟩ => ?_
  refine Complete.bind (AllocatedNum.alloc_complete _) fun yo ⟨hyo, hyo'⟩ => ?_
  refine Complete.bind (AllocatedBit.alloc_complete _) fun f hf => ?_
  rw [AllocatedNum.Honest] at hxo hyo
  rw [hxo, hyo, hf.2, hxo', hyo', hc.2, Option.map_some]
  exact select_complete h1 hS hD (by rw [LC.eval_ofVar]; exact hc.1) hxo' hyo'
    (by rw [hxo, hxo']) (by rw [hyo, hyo']) hf

theorem bitsValue_foldl (vs : List Bool) :
    vs.reverse.foldl (fun m v => 2 * m + v.toNat) 0 = bitsValue vs := by
  induction vs with
  | nil => rfl
  | cons v vs ih => rw [List.reverse_cons, List.foldl_append, ih, bitsValue]; simp; omega

theorem multiply_complete (g : GoodCurve F E) (h1 : w one = 1) {P : CurvePoint F}
    {A : Pt (E.b : F)} (hP : P.Honest w A) {bits : List AllocatedBit} {vs : List Bool}
    (hb : List.Forall₂ (fun b v => b.Honest w v) bits vs) :
    Complete w (multiply E one P bits) fun R => R.Honest w (bitsValue vs • A) := by
  rw [multiply, ← bitsValue_foldl]
  have hb : List.Forall₂ (fun b v => b.Honest w v) bits.reverse vs.reverse := List.rel_reverse hb
  generalize bits.reverse = bits, vs.reverse = vs at hb
  have h0 : (identity : CurvePoint F).Honest w ((0 : ℕ) • A) := by rw [zero_nsmul]; exact identity_honest
  generalize (identity : CurvePoint F) = R, 0 = m at h0
  induction hb generalizing R m with
  | nil => exact (complete_ret _ _).2 h0
  | @cons c v bits vs hc _ ih =>
    refine Complete.bind (multiplyStep_complete g h1 hP h0 hc) fun R' hR' => ?_
    refine ih R' _ ?_
    have : (if v then m • A + m • A + A else m • A + m • A) = (2 * m + v.toNat) • A := by
      cases v <;> simp [add_nsmul, two_mul]
    rwa [this] at hR'

omit [DecidableEq F] [LawfulField F] in
theorem clearIfIdentity_complete (h1 : w one = 1) {v : Num F} {f : Boolean} {b : Bool} (hv : v.Honest w)
    (hf : f.Honest w b) : Complete w (clearIfIdentity one v f) fun r =>
      r.Honest w ∧ r.wire w = if b then 0 else v.wire w := by
  rw [Num.Honest] at hv
  simp only [clearIfIdentity, hv, hf.getValue]
  complete_steps [Num.eval_lc h1, Boolean.eval_lc h1 (Boolean.honest_negate hf).means, assignedBy]
  cases b <;> simp only [Bool.false_eq_true, if_false, mul_one, Bool.not_false, if_true, mul_zero,
    Bool.not_true, true_and, Option.isSome_some, Coeff.value]
  · intro x y z hx hy hz
    exact ⟨hx, hy, Num.honest_ofAllocated (by rw [AllocatedNum.Honest, hz]), by rw [Num.wire_ofAllocated, hz]⟩
  · intro x y z hx hy hz
    exact ⟨hx, hy, Num.honest_ofAllocated (by rw [AllocatedNum.Honest, hz]), by rw [Num.wire_ofAllocated, hz]⟩

omit [DecidableEq F] [LawfulField F] in
theorem clearIfIdentity_sound (h1 : w one = 1) {v : Num F} {f : Boolean} {b : Bool}
    (hf : f.Means w b) : Sound w (clearIfIdentity one v f) fun r =>
      r.wire w = if b then 0 else v.wire w := by
  simp only [clearIfIdentity]
  sound_steps [Num.eval_lc h1, Boolean.eval_lc h1 (Boolean.means_negate hf)]
  intro x y z _ m e1 e2
  rw [Num.wire_ofAllocated]
  cases b <;> simp at e2 ⊢ <;> grind

end

section
variable [LawfulField F] {E : CurveConsts} {S : Type} [Field S] [LawfulField S] [HaloCurve E F S]
open HaloCurve FieldApi

/-- the point times a scalar -/
local notation s " ⋆ " A => LawfulField.val s • A

omit [LawfulField F] [HaloCurve E F S] in
theorem star_one (A : Pt (E.b : F)) : ((1 : S) ⋆ A) = A := smul_one_scalar A

theorem star_eq_zero {s : S} {A : Pt (E.b : F)} (hA : A ≠ 0) (h : (s ⋆ A) = 0) : s = 0 := by
  let := HaloCurve.module (E := E) (F := F) (S := S)
  exact (smul_eq_zero.1 (show s • A = 0 from h)).resolve_right hA

theorem star_neg (s : S) (A : Pt (E.b : F)) : ((-s) ⋆ A) = -(s ⋆ A) := by
  let := HaloCurve.module (E := E) (F := F) (S := S)
  exact neg_smul s A

/-- one step of the ladder on scalars -/
def endoScalar (c : BitVec 128) (s : S) (i : ℕ) : S :=
  let s := s + (s + if c.getLsbD (i * 2) then -1 else 1)
  if c.getLsbD (i * 2 + 1) then s * beta else s

theorem shift_and_one (c : BitVec 128) (i : ℕ) : ((c >>> i) &&& 1#128 == 1#128) = c.getLsbD i := by
  have e : (c >>> i) &&& 1#128 = BitVec.ofNat 128 (c.getLsbD i).toNat := by
    apply BitVec.eq_of_toNat_eq
    rw [BitVec.toNat_and, BitVec.toNat_ushiftRight, BitVec.toNat_ofNat, BitVec.toNat_ofNat,
      show 1 % 2 ^ 128 = 1 from rfl, Nat.and_one_is_mod, BitVec.getLsbD, Nat.toNat_testBit,
      Nat.shiftRight_eq_div_pow]
    omega
  rw [e]
  cases c.getLsbD i <;> rfl

theorem expandChallenge_eq (c : BitVec 128) :
    (Util.expandChallenge c : S) = (List.range' 1 63).foldl (endoScalar c) (1 + 1 + 1) := by
  simp only [Util.expandChallenge, shift_and_one]
  congr 1
  funext s i
  simp only [endoScalar]
  cases c.getLsbD (i * 2) <;> simp [sub_eq_add_neg, add_assoc]

theorem moderate_endoScalar {n : ℕ} {s : S} (h : Moderate n s) (c : BitVec 128) (i : ℕ) :
    Moderate (n + 1) (CurvePoint.endoScalar c s i) := by
  simp only [CurvePoint.endoScalar]
  have := h.step (c.getLsbD (i * 2))
  split
  · exact this.endo
  · exact this

theorem moderate_foldl (c : BitVec 128) : ∀ (m k : ℕ) {n : ℕ} {s : S}, Moderate n s →
    Moderate (n + m) ((List.range' k m).foldl (endoScalar c) s)
  | 0, _, _, _, h => h
  | m + 1, k, n, _, h => by
    have := moderate_foldl c m (k + 1) (moderate_endoScalar h c k)
    rwa [show n + 1 + m = n + (m + 1) by omega] at this

/-- The scalar of a challenge is never zero. -/
theorem expandChallenge_ne_zero (c : BitVec 128) : (Util.expandChallenge c : S) ≠ 0 := by
  rw [expandChallenge_eq]
  exact (moderate_foldl c 63 1 Moderate.three).ne_zero (by omega)

/-- What a step of the ladder needs from the points -/
theorem ladder_ne {n : ℕ} {s : S} (h : Moderate n s) (hn : n < 80) {A : Pt (E.b : F)} (hA : A ≠ 0)
    (v : Bool) :
    (s ⋆ A) ≠ 0 ∧ (if v then -A else A) ≠ 0 ∧ (s ⋆ A) ≠ (if v then -A else A) ∧
      (s ⋆ A) ≠ -(if v then -A else A) ∧ (s ⋆ A) + ((s ⋆ A) + if v then -A else A) ≠ 0 := by
  have key : ∀ u : Bool, (s ⋆ A) ≠ -(if u then -A else A) := by
    intro u he
    refine h.ne_one hn u (star_eq_zero hA (?_ : (_ ⋆ A) = 0))
    rw [smul_add_scalar, he]
    cases u <;> simp [star_neg, star_one]
  refine ⟨fun he => h.ne_zero hn.le (star_eq_zero hA he), by cases v <;> simpa using hA, ?_, key v, ?_⟩
  · have := key !v
    cases v <;> simpa using this
  · intro he
    refine (h.step v).ne_zero (by omega) (star_eq_zero hA (?_ : (_ ⋆ A) = 0))
    rw [smul_add_scalar, smul_add_scalar, ← he]
    cases v <;> simp [star_neg, star_one]

/-- The point after a step -/
theorem endoScalar_star (g : GoodCurve F E) (c : BitVec 128) (s : S) (i : ℕ) (A : Pt (E.b : F)) :
    (if c.getLsbD (i * 2 + 1) then endoHom g beta_cube
        ((s ⋆ A) + ((s ⋆ A) + if c.getLsbD (i * 2) then -A else A))
      else (s ⋆ A) + ((s ⋆ A) + if c.getLsbD (i * 2) then -A else A)) = (endoScalar c s i ⋆ A) := by
  have e : (s ⋆ A) + ((s ⋆ A) + if c.getLsbD (i * 2) then -A else A) =
      ((s + (s + if c.getLsbD (i * 2) then -1 else 1)) ⋆ A) := by
    rw [smul_add_scalar, smul_add_scalar]
    cases c.getLsbD (i * 2) <;> simp [star_neg, star_one]
  rw [e, endoScalar]
  split
  · rw [endo_eq (S := S), smul_mul_scalar, nsmul_left_comm]
  · rfl

omit [DecidableEq F] [Field F] [LawfulField F] in
theorem orPanic_bind {α β : Type} (a : α) (f : α → Prog F β) : (orPanic (some a) >>= f) = f a := rfl

/-- The bits of a challenge -/
def BitsOf (M : AllocatedBit → Bool → Prop) (bits : List AllocatedBit) (c : BitVec 128) : Prop :=
  bits.length = 128 ∧ ∀ i, i < 128 → ∃ b, bits[i]? = some b ∧ M b (c.getLsbD i)

theorem endoStep_complete (g : GoodCurve F E) (h1 : w one = 1) {P R : CurvePoint F} {A : Pt (E.b : F)}
    {bits : List AllocatedBit} {c : BitVec 128} {s : S} {n i : ℕ} (hP : P.Honest w A)
    (hb : BitsOf (fun b v => b.Honest w v) bits c) (hs : Moderate n s) (hn : n < 80) (hi : i < 64)
    (hR : R.Honest w (s ⋆ A)) :
    Complete w (endoStep one P bits R i) fun R => R.Honest w (endoScalar c s i ⋆ A) := by
  obtain ⟨b0, e0, h0⟩ := hb.2 (i * 2) (by omega)
  obtain ⟨b1, e1, hb1⟩ := hb.2 (i * 2 + 1) (by omega)
  rw [endoStep, index, index, e0, e1, ← endoScalar_star g, orPanic_bind, orPanic_bind]
  refine Complete.bind (conditionalNeg_complete (c := .is b0) h1 hP h0) fun B hB => ?_
  have hd : Complete w (doubleAndAddIncomplete one R B) fun R =>
      R.Honest w ((s ⋆ A) + ((s ⋆ A) + if c.getLsbD (i * 2) then -A else A)) := by
    by_cases hA : A = 0
    · subst hA
      simp only [nsmul_zero, neg_zero, ite_self, add_zero] at *
      exact doubleAndAddIncomplete_complete_zero h1 hR hB
    · obtain ⟨n1, n2, n3, n4, n5⟩ := ladder_ne hs hn hA (c.getLsbD (i * 2))
      exact doubleAndAddIncomplete_complete h1 hR hB n1 n2 n3 n4 n5
  exact Complete.bind hd fun R' hR' => conditionalEndo_complete (c := .is b1) g h1 hR' hb1

theorem endoStep_sound (g : GoodCurve F E) (h1 : w one = 1) {P R : CurvePoint F} {A : Pt (E.b : F)}
    {bits : List AllocatedBit} {c : BitVec 128} {s : S} {n i : ℕ} (hP : P.Means w A) (hA : A ≠ 0)
    (hb : BitsOf (fun b v => b.Means w v) bits c) (hs : Moderate n s) (hn : n < 80) (hi : i < 64)
    (hR : R.Means w (s ⋆ A)) :
    Sound w (endoStep one P bits R i) fun R => R.Means w (endoScalar c s i ⋆ A) := by
  obtain ⟨b0, e0, h0⟩ := hb.2 (i * 2) (by omega)
  obtain ⟨b1, e1, hb1⟩ := hb.2 (i * 2 + 1) (by omega)
  rw [endoStep, index, index, e0, e1, ← endoScalar_star g, orPanic_bind, orPanic_bind]
  refine Sound.bind (conditionalNeg_sound (c := .is b0) h1 hP h0) fun B hB => ?_
  obtain ⟨n1, n2, n3, n4, n5⟩ := ladder_ne hs hn hA (c.getLsbD (i * 2))
  exact Sound.bind (doubleAndAddIncomplete_sound g h1 hR hB n1 n2 n3) fun R' hR' =>
    conditionalEndo_sound (c := .is b1) g h1 hR' hb1

omit [HaloCurve E F S] in
/-- The loop of the ladder -/
theorem endoLoop (L : Logic F) {M : CurvePoint F → Pt (E.b : F) → Prop} {P : CurvePoint F} {A : Pt (E.b : F)}
    {bits : List AllocatedBit} {c : BitVec 128}
    (hstep : ∀ {R : CurvePoint F} {s : S} {n i : ℕ}, Moderate n s → n < 80 → i < 64 → M R (s ⋆ A) →
      L.holds (endoStep one P bits R i) fun R => M R (endoScalar c s i ⋆ A)) :
    ∀ (m k : ℕ) {R : CurvePoint F} {s : S}, k + m ≤ 64 → Moderate k s → M R (s ⋆ A) →
      L.holds (foldProg (endoStep one P bits) (List.range' k m) R)
        fun R => M R ((List.range' k m).foldl (endoScalar c) s ⋆ A)
  | 0, _, _, _, _, _, h => L.ret h
  | m + 1, k, _, _, hk, hs, h => L.bind (hstep hs (by omega) (by omega) h) fun _ hR' =>
      endoLoop L hstep m (k + 1) (by omega) (moderate_endoScalar hs c k) hR'

/-- the ladder after the multiplication by 3 -/
def endoLadder (one : Var) (p acc : CurvePoint F) (bits : List AllocatedBit) : Prog F (CurvePoint F) := do
  let acc ← foldProg (endoStep one p bits) (List.range' 1 63) acc
  let x ← clearIfIdentity one acc.x p.isIdentity
  let y ← clearIfIdentity one acc.y p.isIdentity
  return ⟨x, y, p.isIdentity⟩

theorem two_three_ne : (1 + 1 : S) ≠ 0 ∧ (1 + 1 + 1 : S) ≠ 0 := by
  have hm := (LawfulField.modulus_bound (F := S)).1
  have h2 := eis_ne_zero (S := S) (a := 2) (b := 0) (by decide) (by
    rw [show eisNorm 2 0 = 4 by decide]; zify at hm; linarith)
  have h3 := eis_ne_zero (S := S) (a := 3) (b := 0) (by decide) (by
    rw [show eisNorm 3 0 = 9 by decide]; zify at hm; linarith)
  push_cast at h2 h3
  exact ⟨fun h => h2 (by linear_combination h), fun h => h3 (by linear_combination h)⟩

theorem multiplyEndo_complete (h1 : w one = 1) {P : CurvePoint F} {A : Pt (E.b : F)}
    {bits : List AllocatedBit} {c : BitVec 128} (hP : P.Honest w A)
    (hb : BitsOf (fun b v => b.Honest w v) bits c) :
    Complete w (multiplyEndo one P bits) fun R => R.Honest w ((Util.expandChallenge c : S) ⋆ A) := by
  have g := HaloCurve.good E F S
  obtain ⟨t2, t3⟩ := two_three_ne (S := S)
  rw [multiplyEndo, if_neg (by simp [hb.1])]
  refine Complete.bind (double_complete g h1 hP) fun D hD => ?_
  have e2 : A + A = ((1 + 1 : S) ⋆ A) := by rw [smul_add_scalar, star_one]
  have e3 : A + A + A = ((1 + 1 + 1 : S) ⋆ A) := by rw [smul_add_scalar, ← e2, star_one]
  have ht : Complete w (addIncomplete one D P) fun R => R.Honest w (A + A + A) := by
    by_cases hA : A = 0
    · subst hA
      simp only [add_zero] at hD ⊢
      exact addIncomplete_complete_zero h1 hD hP
    · refine addIncomplete_complete h1 hD hP ?_ hA ?_ ?_
      · rw [e2]; exact fun h => t2 (star_eq_zero hA h)
      · exact fun h => hA (by simpa using h)
      · rw [Ne, eq_neg_iff_add_eq_zero, e3]; exact fun h => t3 (star_eq_zero hA h)
  refine Complete.bind ht fun T hT => ?_
  rw [e3] at hT
  refine Complete.bind (endoLoop (Logic.complete w) (M := fun R A => R.Honest w A)
    (fun hs hn hi hR => endoStep_complete g h1 hP hb hs hn hi hR) 63 1 (by omega)
    (Moderate.mono Moderate.three (by omega)) hT) fun R hR => ?_
  rw [← expandChallenge_eq] at hR
  refine Complete.bind (clearIfIdentity_complete h1 hR.x hP.flag) fun x ⟨hx, hx'⟩ => ?_
  refine Complete.bind (clearIfIdentity_complete h1 hR.y hP.flag) fun y ⟨hy, hy'⟩ => ?_
  rw [complete_ret]
  by_cases hA : A = 0
  · subst hA
    simp only [nsmul_zero, isIdentityPt_zero, if_true] at *
    exact ⟨⟨hx'.trans rfl, hy'.trans rfl, hP.means.flag⟩, hx, hy, hP.flag⟩
  · rw [isIdentityPt_false.2 hA] at hx' hy'
    have hc : isIdentityPt ((Util.expandChallenge c : S) ⋆ A) = isIdentityPt A := by
      rw [isIdentityPt_false.2 hA, isIdentityPt_false]
      exact fun h => expandChallenge_ne_zero c (star_eq_zero hA h)
    exact ⟨⟨hx'.trans hR.means.x, hy'.trans hR.means.y, hc ▸ hP.means.flag⟩, hx, hy, hc ▸ hP.flag⟩

theorem endoLadder_sound (h1 : w one = 1) {P T : CurvePoint F} {A : Pt (E.b : F)}
    {bits : List AllocatedBit} {c : BitVec 128} (hP : P.Means w A) (hT : A ≠ 0 → T.Means w (A + A + A))
    (hb : BitsOf (fun b v => b.Means w v) bits c) :
    Sound w (endoLadder one P T bits) fun R => R.Means w ((Util.expandChallenge c : S) ⋆ A) := by
  have g := HaloCurve.good E F S
  have e3 : A + A + A = ((1 + 1 + 1 : S) ⋆ A) := by rw [smul_add_scalar, smul_add_scalar, star_one]
  rw [endoLadder]
  by_cases hA : A = 0
  · subst hA
    refine Sound.bind (Sound.anyway _ (Q := fun _ => True) fun _ => trivial) fun R _ => ?_
    refine Sound.bind (clearIfIdentity_sound h1 hP.flag) fun x hx => ?_
    refine Sound.bind (clearIfIdentity_sound h1 hP.flag) fun y hy => ?_
    rw [sound_ret, nsmul_zero]
    exact ⟨hx.trans rfl, hy.trans rfl, hP.flag⟩
  have hT := hT hA
  rw [e3] at hT
  refine Sound.bind (endoLoop (Logic.sound w) (M := fun R A => R.Means w A)
    (fun hs hn hi hR => endoStep_sound g h1 hP hA hb hs hn hi hR) 63 1 (by omega)
    (Moderate.mono Moderate.three (by omega)) hT) fun R hR => ?_
  rw [← expandChallenge_eq] at hR
  refine Sound.bind (clearIfIdentity_sound h1 hP.flag) fun x hx => ?_
  refine Sound.bind (clearIfIdentity_sound h1 hP.flag) fun y hy => ?_
  rw [sound_ret]
  rw [isIdentityPt_false.2 hA] at hx hy
  have hc : isIdentityPt ((Util.expandChallenge c : S) ⋆ A) = isIdentityPt A := by
    rw [isIdentityPt_false.2 hA, isIdentityPt_false]
    exact fun h => expandChallenge_ne_zero c (star_eq_zero hA h)
  exact ⟨hx.trans hR.x, hy.trans hR.y, hc ▸ hP.flag⟩

omit [DecidableEq F] [LawfulField F] [LawfulField S] in
theorem scalarOf_eq {bits : List AllocatedBit} {vs : List Bool}
    (hb : List.Forall₂ (fun b v => b.Honest w v) bits vs) : (scalarOf bits : S) = (bitsValue vs : S) := by
  have hb : List.Forall₂ (fun b v => b.Honest w v) bits.reverse vs.reverse := List.rel_reverse hb
  rw [scalarOf, ← bitsValue_foldl]
  generalize bits.reverse = bits, vs.reverse = vs at hb
  suffices ∀ (s : S) (m : ℕ), s = m → bits.foldl (fun cur b =>
      let cur := cur + cur
      match b.value with
      | some true => cur + 1
      | _ => cur) s = ((vs.foldl (fun m v => 2 * m + v.toNat) m : ℕ) : S) from this 0 0 (by simp)
  induction hb with
  | nil => exact fun s m h => h
  | @cons b v bits vs hb _ ih =>
    intro s m h
    refine ih _ _ ?_
    dsimp only
    rw [hb.2, h]
    cases v <;> simp [two_mul]

/-- The bits as a number -/
theorem bitsOf_forall₂ {M : AllocatedBit → Bool → Prop} {bits : List AllocatedBit} {vs : List Bool}
    (hb : List.Forall₂ M bits vs) (hl : vs.length = 128) : BitsOf M bits (BitVec.ofNat 128 (bitsValue vs)) := by
  refine ⟨hb.length_eq.trans hl, fun i hi => ?_⟩
  have h1 : i < bits.length := by rw [hb.length_eq, hl]; exact hi
  refine ⟨bits[i], List.getElem?_eq_getElem h1, ?_⟩
  have := hb.get h1 (by rw [hl]; exact hi)
  rw [BitVec.getLsbD_ofNat, testBit_bitsValue]
  simpa [hi, List.getD, List.getElem?_eq_getElem (show i < vs.length by omega)] using this

theorem lower128_natCast {m : ℕ} (h : m < 2 ^ 128) : lower128 (m : S) = BitVec.ofNat 128 m := by
  apply BitVec.eq_of_toNat_eq
  have hm := (LawfulField.modulus_bound (F := S)).1
  rw [LawfulField.lower128_val, LawfulField.val_of_lt (by omega), BitVec.toNat_ofNat]

theorem getPoint_honest (g : GoodCurve F E) {P : CurvePoint F} {A : Pt (E.b : F)} (hP : P.Honest w A) :
    ∃ o p, P.getPoint E = some o ∧ o.getD Proj.zero = p ∧ Denotes (E.b : F) p A ∧ (A ≠ 0 → o = some p) := by
  obtain ⟨hx, hy, hf, -, -⟩ := hP.values
  obtain ⟨p, hp, hd⟩ := fromXy_coordinates g A
  simp only [getPoint, hx, hy, hf, hp]
  by_cases hA : A = 0
  · subst hA
    exact ⟨none, _, rfl, rfl, denotes_proj_zero, fun h => (h rfl).elim⟩
  · rw [isIdentityPt_false.2 hA]
    exact ⟨some p, p, rfl, rfl, hd, fun _ => rfl⟩

theorem multiplyInvEndo_complete (h1 : w one = 1) {P : CurvePoint F} {A : Pt (E.b : F)}
    {bits : List AllocatedBit} {vs : List Bool} (hP : P.Honest w A)
    (hb : List.Forall₂ (fun b v => b.Honest w v) bits vs) (hl : vs.length = 128) :
    Complete w (multiplyInvEndo E S one P bits) fun R =>
      R.Honest w ((Util.expandChallenge (BitVec.ofNat 128 (bitsValue vs)) : S)⁻¹ ⋆ A) := by
  have g := HaloCurve.good E F S
  obtain ⟨o, p, ho, hp, hd, -⟩ := getPoint_honest g hP
  have hlt : bitsValue vs < 2 ^ 128 := hl ▸ bitsValue_lt vs
  have hc := expandChallenge_ne_zero (S := S) (BitVec.ofNat 128 (bitsValue vs))
  simp only [multiplyInvEndo, ho, orMissing_some, ok_bind, hp, scalarOf_eq hb, Util.getChallengeScalar,
    lower128_natCast hlt, LawfulField.invert_eq _ hc, Option.getD_some]
  refine Complete.bind (witness_complete h1 (denotes_mul g hd _)) fun R hR => ?_
  refine Complete.bind (multiplyEndo_complete (S := S) h1 hR (bitsOf_forall₂ hb hl)) fun O hO => ?_
  rw [← smul_mul_scalar, mul_inv_cancel₀ hc, star_one] at hO
  complete_steps [Num.eval_lc h1, hP.means.x, hP.means.y, hO.means.x, hO.means.y]
  exact ⟨trivial, trivial, hR⟩

/-- `inv_helper` with a multiplication that works for the honest prover -/
theorem invHelper_complete (h1 : w one = 1) {P : CurvePoint F} {A : Pt (E.b : F)}
    {bits : List AllocatedBit} {vs : List Bool} (hP : P.Honest w A)
    (hb : List.Forall₂ (fun b v => b.Honest w v) bits vs) (hs : (bitsValue vs : S) ≠ 0)
    {mulFunc : CurvePoint F → Prog F (CurvePoint F)}
    (hmul : ∀ R, R.Honest w ((bitsValue vs : S)⁻¹ ⋆ A) →
      Complete w (mulFunc R) fun O => O.Honest w (bitsValue vs • ((bitsValue vs : S)⁻¹ ⋆ A))) :
    Complete w (invHelper E S one P bits mulFunc) fun R => R.Honest w ((bitsValue vs : S)⁻¹ ⋆ A) := by
  have g := HaloCurve.good E F S
  obtain ⟨hx, hy, hf, -, -⟩ := hP.values
  simp only [invHelper, hx, hy, scalarOf_eq hb, LawfulField.invert_eq _ hs]
  refine Complete.bind (pointOf_complete g A) ?_
  rintro _ ⟨p, rfl, hp⟩
  simp only [orMissing_some, ok_map, pointValues_eq (denotes_mul g hp _)]
  refine Complete.bind (AllocatedNum.alloc_complete _) fun xo ⟨hxo, hxo'⟩ => ?_
  refine Complete.bind (AllocatedNum.alloc_complete _) fun yo ⟨hyo, hyo'⟩ => ?_
  refine Complete.bind (AllocatedBit.alloc_complete _) fun f hf => ?_
  have hR : CurvePoint.Honest w ⟨.ofAllocated xo, .ofAllocated yo, .is f⟩ ((bitsValue vs : S)⁻¹ ⋆ A) :=
    ⟨⟨by rw [Num.wire_ofAllocated, hxo'], by rw [Num.wire_ofAllocated, hyo'], hf.1⟩,
      Num.honest_ofAllocated hxo, Num.honest_ofAllocated hyo, hf⟩
  refine Complete.bind (hmul _ hR) fun O hO => ?_
  have e : bitsValue vs • ((bitsValue vs : S)⁻¹ ⋆ A) = A := by
    rw [← nsmul_mod (S := S), ← LawfulField.val_natCast, ← smul_mul_scalar, mul_inv_cancel₀ hs, star_one]
  rw [e] at hO
  complete_steps [Num.eval_lc h1, hP.means.x, hP.means.y, hO.means.x, hO.means.y,
    Boolean.eval_lc h1 hP.means.flag, Boolean.eval_lc h1 hO.means.flag]
  exact ⟨trivial, trivial, trivial, hR⟩

theorem multiplyInv_complete (h1 : w one = 1) {P : CurvePoint F} {A : Pt (E.b : F)}
    {bits : List AllocatedBit} {vs : List Bool} (hP : P.Honest w A)
    (hb : List.Forall₂ (fun b v => b.Honest w v) bits vs) (hs : (bitsValue vs : S) ≠ 0) :
    Complete w (multiplyInv E S one P bits) fun R => R.Honest w ((bitsValue vs : S)⁻¹ ⋆ A) :=
  invHelper_complete h1 hP hb hs fun _ hR => multiply_complete (HaloCurve.good E F S) h1 hR hb

theorem addConditionallyIncomplete_complete (g : GoodCurve F E) (h1 : w one = 1) {P Q : CurvePoint F}
    {A B : Pt (E.b : F)} {c : Boolean} {v : Bool} (hP : P.Honest w A) (hQ : Q.Honest w B)
    (hc : c.Honest w v) (hA : A ≠ 0) (hB : B ≠ 0) (hAB : A ≠ B) (hAB' : A ≠ -B) :
    Complete w (addConditionallyIncomplete E one P Q c) fun R => R.Honest w (if v then A + B else A) := by
  obtain ⟨o, p, ho, -, hp, hop⟩ := getPoint_honest g hP
  obtain ⟨o', q, ho', -, hq, hoq⟩ := getPoint_honest g hQ
  rw [hop hA] at ho
  rw [hoq hB] at ho'
  obtain ⟨hx, hy, hf, hx', hy'⟩ := hP.values
  obtain ⟨kx, ky, kf, kx', ky'⟩ := hQ.values
  have hne := chord_ne hA hB hAB hAB'
  have hne' : (coordinates B).1 - (coordinates A).1 ≠ 0 := sub_ne_zero.2 hne.symm
  simp only [addConditionallyIncomplete, ho, ho', unwrapPoint]
  have hl := mul_inv_cancel_left₀ hne' ((coordinates B).2 - (coordinates A).2)
  have hsum : (Proj.add E p q).getXy = some (coordinates (A + B)) := by
    rw [getXy_spec (denotes_add g hp hq)]
    have : A + B ≠ 0 := fun h => hAB' (eq_neg_iff_add_eq_zero.2 h)
    rcases pt_cases (A + B) with h | ⟨x, y, h, e, -⟩
    · exact (this h).elim
    · rw [e]; rfl
  refine Complete.bind (P := fun r => r = some p) (show _ from rfl) ?_
  rintro _ rfl
  refine Complete.bind (P := fun r => r = some q) (show _ from rfl) ?_
  rintro _ rfl
  refine Complete.bind (P := fun r => r = some (coordinates (A + B))) (by
    simp only [sumXy, hsum]; rfl) ?_
  rintro _ rfl
  simp only [hc.getValue, hx, hy, kx, ky, both_some, Option.map_some]
  rw [LawfulField.invert_eq _ hne']
  simp only [Option.map_some]
  generalize ((coordinates B).1 - (coordinates A).1)⁻¹ * ((coordinates B).2 - (coordinates A).2) = l at *
  obtain ⟨h0, hs⟩ := add_chord hA hB hne hl
  have hs1 := congrArg Prod.fst hs
  have hs2 := congrArg Prod.snd hs
  dsimp only at hs1 hs2
  simp only [choose, orDivision]
  cases v
  · simp only [Bool.false_eq_true, if_false, Option.map_some]
    complete_steps [Num.eval_lc h1, hx', hy', kx', ky', Boolean.eval_lc h1 hc.means, ofBool]
    intro x hx y hy
    split_steps
    all_goals first
      | exact honest_of rfl hx hy (isIdentityPt_false.2 hA).symm
      | (try simp only [Bool.false_eq_true, if_false, Coeff.value] at *); grind
  · simp only [if_true, Option.map_some]
    complete_steps [Num.eval_lc h1, hx', hy', kx', ky', Boolean.eval_lc h1 hc.means, ofBool]
    intro x hx y hy
    split_steps
    all_goals first
      | exact honest_of rfl hx hy (isIdentityPt_false.2 h0).symm
      | (try simp only [if_true, Coeff.value] at *); grind

end

end CurvePoint
end Circuit
end Halo
