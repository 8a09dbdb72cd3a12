import Verif.Lemmas.Gadget.EccMul
import Verif.Lemmas.Gadget.Must
import Verif.Spec.Gadget.Fast
/-!
# `multiply_fast` and `multiply_inv_fast`
-/
namespace Halo
namespace Circuit
variable {F : Type} [Field F] [DecidableEq F] {w : Var → F} {one : Var}

open Sha256 (foldProg index)

namespace CurvePoint

/-- one step of `multiply_fast` on multiples -/
def fastMultiple (m : ℕ) (v : Bool) : ℕ := if v then 2 * m + 1 else 2 * m - 1

theorem foldl_fastMultiple : ∀ (l : List Bool) {m : ℕ}, 1 ≤ m →
    l.foldl fastMultiple m = (m - 1) * 2 ^ l.length + 2 * bitsValue l.reverse + 1
  | [], m, h => by simp [bitsValue]; omega
  | v :: l, m, h => by
    have hm : 1 ≤ fastMultiple m v := by cases v <;> simp [fastMultiple] <;> omega
    rw [List.foldl_cons, foldl_fastMultiple l hm, List.reverse_cons, bitsValue_append, List.length_reverse,
      List.length_cons]
    have e : fastMultiple m v - 1 = 2 * (m - 1) + 2 * v.toNat := by
      cases v <;> simp [fastMultiple] <;> omega
    rw [e]
    simp only [bitsValue]
    ring

section
variable [LawfulField F] {E : CurveConsts}

theorem nsmul_eq_zero_iff (S : Type) [Field S] [LawfulField S] [HaloCurve E F S] {A : Pt (E.b : F)} (hA : A ≠ 0) {m : ℕ} :
    m • A = 0 ↔ modulus S ∣ m := by
  rw [← (HaloCurve.is (E := E) (F := F) (S := S)).addOrderOf_eq rfl hA, addOrderOf_dvd_iff_nsmul_eq_zero]

theorem nsmul_ne_zero_of_lt (S : Type) [Field S] [LawfulField S] [HaloCurve E F S] {A : Pt (E.b : F)} (hA : A ≠ 0) {m : ℕ}
    (h0 : 0 < m) (h : m < 2 ^ 254) : m • A ≠ 0 := by
  rw [Ne, nsmul_eq_zero_iff S hA]
  intro he
  have := Nat.le_of_dvd h0 he
  have := (LawfulField.modulus_bound (F := S)).1
  omega

/-- The multiples that `double_and_add_incomplete` and `add_incomplete` can add the point to and subtract it from -/
structure RegularMultiple (r m : ℕ) : Prop where
  ne : ¬ r ∣ m
  pred : ¬ r ∣ m - 1
  succ : ¬ r ∣ m + 1

theorem nsmul_ne_one (S : Type) [Field S] [LawfulField S] [HaloCurve E F S] {A : Pt (E.b : F)} (hA : A ≠ 0) {m : ℕ}
    (h0 : 1 < m) (v : Bool) : m • A ≠ (if v then -A else A) ↔ ¬ modulus S ∣ if v then m + 1 else m - 1 := by
  cases v
  · simp only [Bool.false_eq_true, if_false]
    rw [← nsmul_eq_zero_iff S hA, not_iff_not]
    have : (m - 1 + 1) • A = m • A := by rw [show m - 1 + 1 = m by omega]
    rw [add_smul, one_smul] at this
    rw [← this]
    simp
  · simp only [if_true]
    rw [← nsmul_eq_zero_iff S hA, not_iff_not, add_smul, one_smul, eq_neg_iff_add_eq_zero]

omit [LawfulField F] in
theorem fastMultiple_smul {A : Pt (E.b : F)} {m : ℕ} (h0 : 1 < m) (v : Bool) :
    m • A + (m • A + if (!v) = true then -A else A) = fastMultiple m v • A := by
  cases v
  · simp only [Bool.not_false, if_true, fastMultiple, Bool.false_eq_true, if_false]
    have : (2 * m - 1 + 1) • A = 2 • m • A := by
      rw [show 2 * m - 1 + 1 = 2 * m by omega, mul_comm, mul_comm, mul_smul]
    rw [add_smul, one_smul] at this
    rw [← add_assoc, ← two_nsmul, ← this]
    abel
  · simp only [Bool.not_true, Bool.false_eq_true, if_false, fastMultiple, if_true]
    rw [add_smul, mul_smul, one_smul, two_nsmul, add_assoc]

theorem fastStep_complete (S : Type) [Field S] [LawfulField S] [HaloCurve E F S] (h1 : w one = 1) {P Q : CurvePoint F} {A : Pt (E.b : F)} (hP : P.Honest w A)
    (hA : A ≠ 0) {m : ℕ} (h0 : 1 < m) (hm : RegularMultiple (modulus S) m) (hQ : Q.Honest w (m • A))
    {b : AllocatedBit} {v : Bool} (hb : b.Honest w v) (h : ¬ modulus S ∣ fastMultiple m v) :
    Complete w (fastStep one P Q b) fun R => R.Honest w (fastMultiple m v • A) := by
  rw [fastStep]
  refine Complete.bind (conditionalNeg_complete h1 hP (Boolean.honest_negate (show (Boolean.is b).Honest w v from hb)))
    fun T hT => ?_
  have key : ∀ v : Bool, m • A ≠ if v then -A else A := fun v => (nsmul_ne_one S hA h0 v).2 (by
    cases v
    · exact hm.pred
    · exact hm.succ)
  have e := fastMultiple_smul (A := A) h0 v
  rw [← e]
  refine doubleAndAddIncomplete_complete h1 hQ hT ((nsmul_eq_zero_iff S hA).not.2 hm.ne) ?_
    (key _) ?_ ?_
  · cases v <;> simpa using hA
  · have := key v
    cases v <;> simpa using this
  · rw [e]
    exact (nsmul_eq_zero_iff S hA).not.2 h

/-- If `add_incomplete` succeeds, the points have different first coordinates. -/
theorem addIncomplete_must {P Q : CurvePoint F} {b : F} {A B : Pt b}
    (hP : P.Honest w A) (hQ : Q.Honest w B) (hA : A ≠ 0) :
    Must w (addIncomplete one P Q) fun _ => A ≠ B ∧ A ≠ -B := by
  obtain ⟨hx, hy, hf, -, -⟩ := hP.values
  obtain ⟨kx, ky, -, -, -⟩ := hQ.values
  by_cases h : A ≠ B ∧ A ≠ -B
  · exact Must.anyway _ fun _ => h
  have e : (coordinates B).1 - (coordinates A).1 = 0 := by
    have : A = B ∨ A = -B := by tauto
    rcases this with rfl | rfl
    · simp
    · rw [coordinates_neg]; simp
  simp only [addIncomplete, hx, hy, hf, kx, ky, e, LawfulField.invert_zero, isIdentityPt_false.2 hA]
  rintro u ⟨⟩

theorem doubleAndAddIncomplete_must {P Q : CurvePoint F} {b : F} {A B : Pt b}
    (hP : P.Honest w A) (hQ : Q.Honest w B) (hA : A ≠ 0) (hB : B ≠ 0) :
    Must w (doubleAndAddIncomplete one P Q) fun _ => A ≠ B ∧ A ≠ -B ∧ A + (A + B) ≠ 0 := by
  obtain ⟨hx, hy, hf, -, -⟩ := hP.values
  obtain ⟨kx, ky, kf, -, -⟩ := hQ.values
  by_cases h : A ≠ B ∧ A ≠ -B ∧ A + (A + B) ≠ 0
  · exact Must.anyway _ fun _ => h
  simp only [doubleAndAddIncomplete, hx, hy, hf, kx, ky, bothIdentity, kf, isIdentityPt_false.2 hA, isIdentityPt_false.2 hB]
  by_cases h' : A ≠ B ∧ A ≠ -B
  · have hS : A + (A + B) = 0 := by tauto
    have hne := chord_ne hA hB h'.1 h'.2
    have hne' : (coordinates B).1 - (coordinates A).1 ≠ 0 := sub_ne_zero.2 hne.symm
    have hl := mul_inv_cancel_left₀ hne' ((coordinates B).2 - (coordinates A).2)
    simp only [LawfulField.invert_eq _ hne', orMissing_some, Except.bind_ok]
    generalize ((coordinates B).1 - (coordinates A).1)⁻¹ * ((coordinates B).2 - (coordinates A).2) = l at *
    obtain ⟨h0, hs⟩ := add_chord hA hB hne hl
    have e : (coordinates A).1 - (l * l - (coordinates A).1 - (coordinates B).1) = 0 := by
      have h1 : (coordinates (A + B)).1 = (coordinates A).1 := by
        rw [← neg_eq_of_add_eq_zero_right hS, coordinates_neg]
      rw [hs] at h1
      rw [sub_eq_zero]; exact h1.symm
    simp only [e, LawfulField.invert_zero, Except.bind_error]
    rintro u ⟨⟩
  · have e : (coordinates B).1 - (coordinates A).1 = 0 := by
      have : A = B ∨ A = -B := by tauto
      rcases this with rfl | rfl
      · simp
      · rw [coordinates_neg]; simp
    simp only [e, LawfulField.invert_zero]
    rintro u ⟨⟩

theorem fastStep_must (S : Type) [Field S] [LawfulField S] [HaloCurve E F S] (h1 : w one = 1) {P Q : CurvePoint F} {A : Pt (E.b : F)} (hP : P.Honest w A)
    (hA : A ≠ 0) {m : ℕ} (h0 : 1 < m) (hm : ¬ modulus S ∣ m) (hQ : Q.Honest w (m • A))
    {b : AllocatedBit} {v : Bool} (hb : b.Honest w v) :
    Must w (fastStep one P Q b) fun _ => RegularMultiple (modulus S) m ∧ ¬ modulus S ∣ fastMultiple m v := by
  rw [fastStep]
  refine Must.bind (must_of_complete
    (conditionalNeg_complete h1 hP (Boolean.honest_negate (show (Boolean.is b).Honest w v from hb)))) fun T hT => ?_
  have e := fastMultiple_smul (A := A) h0 v
  refine Must.mono (doubleAndAddIncomplete_must hQ hT ((nsmul_eq_zero_iff S hA).not.2 hm) ?_) fun R hR => ?_
  · cases v <;> simpa using hA
  obtain ⟨k1, k2, k3⟩ := hR
  rw [e] at k3
  have key : ∀ v : Bool, m • A ≠ if v then -A else A := by
    intro u
    cases v <;> cases u <;> simp_all
  exact ⟨⟨hm, (nsmul_ne_one S hA h0 false).1 (key false), (nsmul_ne_one S hA h0 true).1 (key true)⟩,
    (nsmul_eq_zero_iff S hA).not.1 k3⟩

/-- The multiples that `multiply_fast` computes from a multiple and further bits are regular. -/
def FastOk (r : ℕ) : ℕ → List Bool → Prop
  | m, [] => RegularMultiple r m
  | m, v :: l => RegularMultiple r m ∧ FastOk r (fastMultiple m v) l

theorem FastOk.first {r m : ℕ} {l : List Bool} (h : FastOk r m l) : RegularMultiple r m := by
  cases l
  · exact h
  · exact h.1

theorem FastOk.last {r : ℕ} : ∀ {l : List Bool} {m : ℕ}, FastOk r m l → RegularMultiple r (l.foldl fastMultiple m)
  | [], _, h => h
  | _ :: l, _, h => FastOk.last (l := l) h.2

theorem fastOk_iff {r : ℕ} : ∀ {l : List Bool} {m : ℕ}, FastOk r m l ↔
    ∀ k ≤ l.length, RegularMultiple r ((l.take k).foldl fastMultiple m)
  | [], m => by simp [FastOk]
  | v :: l, m => by
    rw [FastOk, fastOk_iff]
    constructor
    · rintro ⟨h1, h2⟩ k hk
      cases k with
      | zero => exact h1
      | succ k => exact h2 k (by simpa using hk)
    · exact fun h => ⟨h 0 (by simp), fun k hk => h (k + 1) (by simpa using hk)⟩

theorem one_lt_fastMultiple {m : ℕ} (h : 1 < m) (v : Bool) : 1 < fastMultiple m v := by
  cases v <;> simp [fastMultiple] <;> omega

theorem fastLoop_complete (S : Type) [Field S] [LawfulField S] [HaloCurve E F S] (h1 : w one = 1) {P : CurvePoint F} {A : Pt (E.b : F)} (hP : P.Honest w A)
    (hA : A ≠ 0) {bits : List AllocatedBit} {vs : List Bool}
    (hb : List.Forall₂ (fun b v => b.Honest w v) bits vs) : ∀ {m : ℕ} {Q : CurvePoint F}, 1 < m →
    FastOk (modulus S) m vs → Q.Honest w (m • A) →
    Complete w (foldProg (fastStep one P) bits Q) fun R => R.Honest w (vs.foldl fastMultiple m • A) := by
  induction hb with
  | nil => exact fun _ _ h => h
  | @cons b v bits vs hb _ ih =>
    intro m Q h0 h hQ
    refine Complete.bind (fastStep_complete S h1 hP hA h0 h.1 hQ hb h.2.first.ne) fun R hR => ?_
    exact ih (one_lt_fastMultiple h0 v) h.2 hR

omit [DecidableEq F] [LawfulField F] in
theorem honest_neg {b : F} [DecidableEq F] {P : CurvePoint F} {A : Pt b} (hP : P.Honest w A) :
    CurvePoint.Honest w ⟨P.x, P.y.neg, P.isIdentity⟩ (-A) := by
  obtain ⟨hx, hy, hf, hx', hy'⟩ := hP.values
  have e1 := coordinates_neg A
  have e2 := isIdentityPt_neg A
  refine ⟨⟨?_, ?_, ?_⟩, hP.x, ?_, ?_⟩
  · rw [e1]; exact hx'
  · rw [e1, Num.wire_neg]; exact congrArg _ hy'
  · rw [e2]; exact hP.means.flag
  · have := hP.y
    rw [Num.Honest] at this ⊢
    rw [Num.wire_neg]
    cases h : P.y <;> simp_all [Num.neg, Num.value, Num.wire]
  · rw [e2]; exact hP.flag

/-- If the loop succeeds, then all multiples are regular, perhaps except for the last. -/
theorem fastLoop_must (S : Type) [Field S] [LawfulField S] [HaloCurve E F S] (h1 : w one = 1) {P : CurvePoint F} {A : Pt (E.b : F)} (hP : P.Honest w A)
    (hA : A ≠ 0) {bits : List AllocatedBit} {vs : List Bool}
    (hb : List.Forall₂ (fun b v => b.Honest w v) bits vs) : ∀ {m : ℕ} {Q : CurvePoint F}, 1 < m → ¬ modulus S ∣ m →
    Q.Honest w (m • A) →
    Must w (foldProg (fastStep one P) bits Q) fun R => R.Honest w (vs.foldl fastMultiple m • A) ∧
      1 < vs.foldl fastMultiple m ∧ ¬ modulus S ∣ vs.foldl fastMultiple m ∧
      (RegularMultiple (modulus S) (vs.foldl fastMultiple m) → FastOk (modulus S) m vs) := by
  induction hb with
  | nil => exact fun h0 hm hQ => ⟨hQ, h0, hm, id⟩
  | @cons b v bits vs hb _ ih =>
    intro m Q h0 hm hQ
    by_cases hr : RegularMultiple (modulus S) m ∧ ¬ modulus S ∣ fastMultiple m v
    · refine Must.bind (must_of_complete (fastStep_complete S h1 hP hA h0 hr.1 hQ hb hr.2)) fun R hR => ?_
      exact Must.mono (ih (one_lt_fastMultiple h0 v) hr.2 hR) fun _ h => ⟨h.1, h.2.1, h.2.2.1, fun k => ⟨hr.1, h.2.2.2 k⟩⟩
    · exact Must.bind (fastStep_must S h1 hP hA h0 hm hQ hb) fun R hR => (hr hR).elim

theorem fastLoop_complete_zero (h1 : w one = 1) {P : CurvePoint F} (hP : P.Honest w (0 : Pt (E.b : F)))
    {bits : List AllocatedBit} {vs : List Bool}
    (hb : List.Forall₂ (fun b v => b.Honest w v) bits vs) : ∀ {Q : CurvePoint F},
    Q.Honest w (0 : Pt (E.b : F)) →
    Complete w (foldProg (fastStep one P) bits Q) fun R => R.Honest w (0 : Pt (E.b : F)) := by
  induction hb with
  | nil => exact fun h => h
  | @cons b v bits vs hb _ ih =>
    intro Q hQ
    refine Complete.bind (?_ : Complete w (fastStep one P Q b) _) fun R hR => ih hR
    rw [fastStep]
    refine Complete.bind (conditionalNeg_complete h1 hP
      (Boolean.honest_negate (show (Boolean.is b).Honest w v from hb))) fun T hT => ?_
    rw [show (if (!v) = true then -(0 : Pt (E.b : F)) else 0) = 0 by cases v <;> simp] at hT
    exact doubleAndAddIncomplete_complete_zero h1 hQ hT

omit [LawfulField F] in
/-- The end of `multiply_fast`: the choice between the two points, and the identity -/
theorem fastFinish_complete (h1 : w one = 1) {P Q R : CurvePoint F} {A B C : Pt (E.b : F)}
    (hP : P.Honest w A) (hQ : Q.Honest w B) (hR : R.Honest w C) {k0 : AllocatedBit} {v : Bool}
    (hk : k0.Honest w v) {O : Pt (E.b : F)} (h0 : A = 0 → O = 0)
    (hO : A ≠ 0 → O = if v then B else C) (hO' : A ≠ 0 → O ≠ 0) :
    Complete w (do
      let pick (xp xr : Option F) : Option F :=
        both (fun x k => if k then x.1 else x.2) (both Prod.mk xp xr) k0.value
      let clear (xs : Option F) : Option F :=
        both (fun xs b => if b then 0 else xs) xs P.isIdentity.getValue
      let xsVal := pick Q.x.value R.x.value
      let ysVal := pick Q.y.value R.y.value
      let xOutVal := clear xsVal
      let yOutVal := clear ysVal
      let xOut ← AllocatedNum.alloc (orMissing xOutVal)
      let yOut ← AllocatedNum.alloc (orMissing yOutVal)
      let xsLc ← fastPick Q.x.value R.x.value xsVal k0 (Q.x.lc one) (R.x.lc one)
      let ysLc ← fastPick Q.y.value R.y.value ysVal k0 (Q.y.lc one) (R.y.lc one)
      fastClear one xsVal xOutVal P.isIdentity xsLc xOut
      fastClear one ysVal yOutVal P.isIdentity ysLc yOut
      return (⟨.ofAllocated xOut, .ofAllocated yOut, P.isIdentity⟩ : CurvePoint F)) fun R => R.Honest w O := by
  obtain ⟨-, -, hf, -, -⟩ := hP.values
  obtain ⟨hx, hy, -, hx', hy'⟩ := hQ.values
  obtain ⟨kx, ky, -, kx', ky'⟩ := hR.values
  have hf' := Boolean.eval_lc (w := w) h1 (Boolean.honest_negate hP.flag).means
  obtain ⟨m, hv⟩ := hk
  simp only [AllocatedBit.Means] at m
  simp only [fastPick, fastClear, hf, hx, hy, kx, ky, hv, both_some, ofBool]
  complete_steps [Num.eval_lc h1, hx', hy', kx', ky', hf', m, h1, Coeff.value]
  by_cases hA : A = 0
  · obtain rfl := h0 hA
    subst hA
    simp only [isIdentityPt_zero]
    intro x hx y hy
    cases v <;> split_steps <;> first
      | exact honest_of rfl hx hy hP.flag
      | simp_all
  · have hO' := hO' hA
    have hO := hO hA
    subst hO
    have hf := hP.flag
    rw [isIdentityPt_false.2 hA] at hf ⊢
    intro x hx y hy
    cases v <;> split_steps <;> first
      | exact honest_of rfl hx hy (by rw [isIdentityPt_false.2 hO']; exact hf)
      | simp_all

/-- The bits of a number from the second on, without the last, after the first steps -/
theorem fast_value {v0 : Bool} {mid : List Bool} :
    mid.reverse.foldl fastMultiple 3 - (if v0 then 0 else 1) = bitsValue (v0 :: (mid ++ [true])) := by
  rw [foldl_fastMultiple _ (by norm_num), List.reverse_reverse, List.length_reverse, bitsValue, bitsValue_append]
  simp only [bitsValue]
  cases v0 <;> simp <;> ring

theorem regular_iff {r : ℕ} (hr : Odd r) {v0 : Bool} {mid : List Bool} :
    Regular r (v0 :: (mid ++ [true])) ↔ FastOk r 3 mid.reverse := by
  have key : ∀ a : ℕ, (¬ r ∣ a ∧ ¬ r ∣ a + 1 ∧ ¬ r ∣ 2 * a + 1) ↔ RegularMultiple r (2 * a + 1) := by
    intro a
    have hc : Nat.Coprime r 2 := hr.coprime_two_right
    constructor
    · rintro ⟨h1, h2, h3⟩
      exact ⟨h3, fun h => h1 (hc.dvd_of_dvd_mul_left (by simpa using h)),
        fun h => h2 (hc.dvd_of_dvd_mul_left (show r ∣ 2 * (a + 1) from (show 2 * a + 1 + 1 = 2 * (a + 1) by ring) ▸ h))⟩
    · rintro ⟨h1, h2, h3⟩
      refine ⟨fun h => h2 (by simpa using h.mul_left 2), fun h => h3 ?_, h1⟩
      rw [show 2 * a + 1 + 1 = 2 * (a + 1) by ring]
      exact h.mul_left 2
  have e : ∀ k ≤ mid.length, (mid.reverse.take k).foldl fastMultiple 3 =
      2 * bitsValue ((v0 :: (mid ++ [true])).drop (mid.length - k + 1)) + 1 := by
    intro k hk
    rw [foldl_fastMultiple _ (by norm_num), List.drop_succ_cons, List.drop_append_of_le_length (by omega),
      bitsValue_append, List.take_reverse, List.reverse_reverse, List.length_reverse, List.length_drop]
    rw [show mid.length - (mid.length - k) = k by omega]
    simp only [bitsValue, Bool.toNat_true]
    ring
  rw [fastOk_iff, Regular]
  simp only [key, List.length_cons, List.length_append, List.length_nil, List.length_reverse]
  constructor
  · intro h k hk
    rw [e k hk]
    exact h _ (by omega) (by omega)
  · intro h i h0 hi
    have := h (mid.length + 1 - i) (by omega)
    rw [e _ (by omega), show mid.length - (mid.length + 1 - i) + 1 = i by omega] at this
    exact this

theorem modulus_odd (S : Type) [Field S] [LawfulField S] : Odd (modulus S) := by
  refine (LawfulField.prime (F := S)).odd_of_ne_two ?_
  have := (LawfulField.modulus_bound (F := S)).1
  omega

omit [DecidableEq F] [LawfulField F] in
theorem split_bits {bits : List AllocatedBit} {vs : List Bool}
    (hb : List.Forall₂ (fun b v => b.Honest w v) bits vs) (h2 : 2 ≤ vs.length) (htop : vs.getLast? = some true) :
    ∃ v0 mid b0 bm bl, vs = v0 :: (mid ++ [true]) ∧ bits = b0 :: (bm ++ [bl]) ∧ b0.Honest w v0 ∧
      List.Forall₂ (fun b v => b.Honest w v) bm.reverse mid.reverse ∧ bl.Honest w true := by
  obtain ⟨v0, mid, rfl⟩ : ∃ v0 mid, vs = v0 :: (mid ++ [true]) := by
    cases vs with
    | nil => simp at h2
    | cons v0 vs =>
      rcases List.eq_nil_or_concat vs with rfl | ⟨mid, l, rfl⟩
      · simp at h2
      · refine ⟨v0, mid, ?_⟩
        rw [List.concat_eq_append, ← List.cons_append, List.getLast?_append] at htop
        simpa using htop
  cases hb with
  | @cons b0 _ bs _ h0 hb =>
    have hs := List.forall₂_take mid.length hb
    have hd := List.forall₂_drop mid.length hb
    rw [List.take_left] at hs
    rw [List.drop_left] at hd
    obtain ⟨bl, hl, e⟩ : ∃ bl, bl.Honest w true ∧ bs.drop mid.length = [bl] := by
      generalize bs.drop mid.length = l at hd
      cases hd with
      | cons h t => cases t; exact ⟨_, h, rfl⟩
    exact ⟨v0, mid, b0, _, bl, rfl, by rw [← e, List.take_append_drop], h0, List.rel_reverse hs, hl⟩

theorem multiplyFast_complete (S : Type) [Field S] [LawfulField S] [HaloCurve E F S] (h1 : w one = 1)
    {P : CurvePoint F} {A : Pt (E.b : F)} (hP : P.Honest w A) {bits : List AllocatedBit} {vs : List Bool}
    (hb : List.Forall₂ (fun b v => b.Honest w v) bits vs) (h2 : 2 ≤ vs.length)
    (htop : vs.getLast? = some true) (hr : A ≠ 0 → Regular (modulus S) vs) :
    Complete w (multiplyFast one P bits) fun R => R.Honest w (bitsValue vs • A) := by
  have g := HaloCurve.good E F S
  obtain ⟨v0, mid, b0, bm, bl, rfl, rfl, h0, hm', hl⟩ := split_bits hb h2 htop
  have e : ((b0 :: (bm ++ [bl])).drop 1).reverse.drop 1 = bm.reverse := by simp
  simp only [multiplyFast, e]
  refine Complete.bind (P := fun r => r = b0) (show _ from rfl) ?_
  rintro _ rfl
  refine Complete.bind (P := fun r => r = bl) ?_ ?_
  · rw [← List.cons_append, List.getLast?_append]
    exact rfl
  rintro _ rfl
  rw [if_neg (by rw [hl.2]; simp)]
  refine Complete.bind (double_complete g h1 hP) fun D hD => ?_
  by_cases hA : A = 0
  · subst hA
    rw [add_zero] at hD
    refine Complete.bind (addIncomplete_complete_zero h1 hD hP) fun T hT => ?_
    refine Complete.bind (fastLoop_complete_zero h1 hP hm' hT) fun Q hQ => ?_
    have hn := honest_neg hP
    rw [neg_zero] at hn
    refine Complete.bind (addIncomplete_complete_zero h1 hQ hn) fun R hR => ?_
    exact fastFinish_complete h1 hP hQ hR h0 (fun _ => by simp) (fun h => (h rfl).elim) fun h => (h rfl).elim
  · have hok := (regular_iff (modulus_odd S)).1 (hr hA)
    have hlast := hok.last
    set m := mid.reverse.foldl fastMultiple 3 with hmdef
    have hmv : m = 2 * 2 ^ mid.length + 2 * bitsValue mid + 1 := by
      rw [hmdef, foldl_fastMultiple _ (by norm_num), List.reverse_reverse, List.length_reverse]
    have hpos : 0 < 2 ^ mid.length := by positivity
    have e2 : A + A = 2 • A := (two_nsmul A).symm
    have e3 : A + A + A = 3 • A := by rw [e2, ← succ_nsmul]
    refine Complete.bind (addIncomplete_complete h1 hD hP ?_ hA ?_ ?_) fun T hT => ?_
    · rw [e2]; exact nsmul_ne_zero_of_lt S hA (by norm_num) (by norm_num)
    · intro h; exact hA (by simpa using h)
    · intro h
      rw [eq_neg_iff_add_eq_zero, e3] at h
      exact nsmul_ne_zero_of_lt S hA (by norm_num) (by norm_num) h
    rw [e3] at hT
    refine Complete.bind (fastLoop_complete S h1 hP hA hm' (by norm_num) hok hT) fun Q hQ => ?_
    rw [← hmdef] at hQ
    have k1 : m • A ≠ -A := (nsmul_ne_one S hA (m := m) (by omega) true).2 hlast.succ
    have k2 : m • A ≠ A := (nsmul_ne_one S hA (m := m) (by omega) false).2 hlast.pred
    refine Complete.bind (addIncomplete_complete h1 hQ (honest_neg hP)
      ((nsmul_eq_zero_iff S hA).not.2 hlast.ne) (by simpa using hA) k1 (by
        rw [neg_neg]; exact k2)) fun R hR => ?_
    have ev := fast_value (v0 := v0) (mid := mid)
    rw [← hmdef] at ev
    refine fastFinish_complete h1 hP hQ hR h0 (fun h => (hA h).elim) (fun _ => ?_) fun _ => ?_
    · rw [← ev]
      cases v0
      · simp only [Bool.false_eq_true, if_false]
        have : (m - 1 + 1) • A = m • A := by rw [show m - 1 + 1 = m by omega]
        rw [add_smul, one_smul] at this
        rw [← this]; abel
      · simp
    · rw [← ev, Ne, nsmul_eq_zero_iff S hA]
      cases v0
      · exact hlast.pred
      · exact hlast.ne

/-- If `multiply_fast` succeeds for a point other than the identity, then no addition was exceptional. -/
theorem multiplyFast_must (S : Type) [Field S] [LawfulField S] [HaloCurve E F S] (h1 : w one = 1)
    {P : CurvePoint F} {A : Pt (E.b : F)} (hP : P.Honest w A) (hA : A ≠ 0) {bits : List AllocatedBit} {vs : List Bool}
    (hb : List.Forall₂ (fun b v => b.Honest w v) bits vs) (h2 : 2 ≤ vs.length)
    (htop : vs.getLast? = some true) :
    Must w (multiplyFast one P bits) fun _ => Regular (modulus S) vs := by
  have g := HaloCurve.good E F S
  obtain ⟨v0, mid, b0, bm, bl, rfl, rfl, h0, hm', hl⟩ := split_bits hb h2 htop
  have e : ((b0 :: (bm ++ [bl])).drop 1).reverse.drop 1 = bm.reverse := by simp
  simp only [multiplyFast, e]
  refine Must.skip fun _ => Must.bind (P := fun r => r = bl) ?_ ?_
  · rw [← List.cons_append, List.getLast?_append]
    exact rfl
  rintro _ rfl
  rw [if_neg (by rw [hl.2]; simp)]
  refine Must.bind (must_of_complete (double_complete g h1 hP)) fun D hD => ?_
  have e2 : A + A = 2 • A := (two_nsmul A).symm
  have e3 : A + A + A = 3 • A := by rw [e2, ← succ_nsmul]
  have k3 : 3 • A ≠ 0 := nsmul_ne_zero_of_lt S hA (by norm_num) (by norm_num)
  refine Must.bind (must_of_complete (addIncomplete_complete h1 hD hP ?_ hA ?_ ?_)) fun T hT => ?_
  · rw [e2]; exact nsmul_ne_zero_of_lt S hA (by norm_num) (by norm_num)
  · intro h; exact hA (by simpa using h)
  · intro h
    rw [eq_neg_iff_add_eq_zero, e3] at h
    exact k3 h
  rw [e3] at hT
  refine Must.bind (fastLoop_must S h1 hP hA hm' (by norm_num) ((nsmul_eq_zero_iff S hA).not.1 k3) hT) fun Q hQ => ?_
  obtain ⟨hQ, hm1, hm, hreg⟩ := hQ
  refine Must.bind (addIncomplete_must hQ (honest_neg hP) ((nsmul_eq_zero_iff S hA).not.2 hm)) fun R hR => ?_
  rw [neg_neg] at hR
  exact Must.anyway _ fun _ => (regular_iff (modulus_odd S)).2
    (hreg ⟨hm, (nsmul_ne_one S hA hm1 false).1 hR.2, (nsmul_ne_one S hA hm1 true).1 hR.1⟩)

theorem multiplyInvFast_complete (S : Type) [Field S] [LawfulField S] [HaloCurve E F S] (h1 : w one = 1)
    {P : CurvePoint F} {A : Pt (E.b : F)} (hP : P.Honest w A) {bits : List AllocatedBit} {vs : List Bool}
    (hb : List.Forall₂ (fun b v => b.Honest w v) bits vs) (h2 : 2 ≤ vs.length)
    (htop : vs.getLast? = some true) (hr : Regular (modulus S) vs) (hs : (bitsValue vs : S) ≠ 0) :
    Complete w (multiplyInvFast E S one P bits) fun R =>
      R.Honest w (LawfulField.val (bitsValue vs : S)⁻¹ • A) :=
  invHelper_complete h1 hP hb hs fun _ hR => multiplyFast_complete S h1 hR hb h2 htop fun _ => hr

/-- If `multiply_inv_fast` succeeds for a point other than the identity, then no addition was exceptional. -/
theorem multiplyInvFast_must (S : Type) [Field S] [LawfulField S] [HaloCurve E F S] (h1 : w one = 1)
    {P : CurvePoint F} {A : Pt (E.b : F)} (hP : P.Honest w A) (hA : A ≠ 0) {bits : List AllocatedBit} {vs : List Bool}
    (hb : List.Forall₂ (fun b v => b.Honest w v) bits vs) (h2 : 2 ≤ vs.length)
    (htop : vs.getLast? = some true) :
    Must w (multiplyInvFast E S one P bits) fun _ => Regular (modulus S) vs := by
  have g := HaloCurve.good E F S
  obtain ⟨hx, hy, hf, -, -⟩ := hP.values
  simp only [multiplyInvFast, invHelper, hx, hy, scalarOf_eq hb]
  refine Must.bind (must_of_complete (pointOf_complete g A)) ?_
  rintro _ ⟨p, rfl, hp⟩
  by_cases hs : (bitsValue vs : S) = 0
  · simp only [hs, LawfulField.invert_zero, orMissing_some, ok_map]
    refine Must.bind (must_of_complete (AllocatedNum.alloc_complete _)) fun xo ⟨hxo, hxo'⟩ => ?_
    refine Must.bind (must_of_complete (AllocatedNum.alloc_complete _)) fun yo ⟨hyo, hyo'⟩ => ?_
    refine Must.bind (must_of_complete (AllocatedBit.alloc_complete _)) fun f hf => ?_
    have hR : CurvePoint.Honest w ⟨.ofAllocated xo, .ofAllocated yo, .is f⟩ (0 : Pt (E.b : F)) :=
      ⟨⟨by rw [Num.wire_ofAllocated, hxo', coordinates_zero], by rw [Num.wire_ofAllocated, hyo', coordinates_zero], hf.1⟩,
        Num.honest_ofAllocated hxo, Num.honest_ofAllocated hyo, hf⟩
    refine Must.bind (must_of_complete (multiplyFast_complete S h1 hR hb h2 htop fun h => (h rfl).elim)) fun O hO => ?_
    refine Must.skip fun _ => Must.skip fun _ => Must.bind (must_enforce fun he => ?_) fun _ h => must_pure h
    rw [smul_zero] at hO
    rw [LC.eval_subLC, Boolean.eval_lc h1 hP.means.flag, Boolean.eval_lc h1 hO.means.flag, isIdentityPt_zero,
      isIdentityPt_false.2 hA] at he
    simp [Coeff.value] at he
  · simp only [LawfulField.invert_eq _ hs, orMissing_some, ok_map, pointValues_eq (denotes_mul g hp _)]
    refine Must.bind (must_of_complete (AllocatedNum.alloc_complete _)) fun xo ⟨hxo, hxo'⟩ => ?_
    refine Must.bind (must_of_complete (AllocatedNum.alloc_complete _)) fun yo ⟨hyo, hyo'⟩ => ?_
    refine Must.bind (must_of_complete (AllocatedBit.alloc_complete _)) fun f hf => ?_
    have hR : CurvePoint.Honest w ⟨.ofAllocated xo, .ofAllocated yo, .is f⟩
        (LawfulField.val (bitsValue vs : S)⁻¹ • A) :=
      ⟨⟨by rw [Num.wire_ofAllocated, hxo'], by rw [Num.wire_ofAllocated, hyo'], hf.1⟩,
        Num.honest_ofAllocated hxo, Num.honest_ofAllocated hyo, hf⟩
    refine Must.bind (multiplyFast_must S h1 hR (fun h => hA ?_) hb h2 htop) fun O hO => Must.anyway _ fun _ => hO
    have := congrArg (LawfulField.val (bitsValue vs : S) • ·) h
    simpa only [smul_zero, ← HaloCurve.smul_mul_scalar, mul_inv_cancel₀ hs, HaloCurve.smul_one_scalar] using this

/-- With a single bit, `multiply_fast` returns three times the point. -/
theorem multiplyFast_single (g : GoodCurve F E) (h1 : w one = 1)
    {P : CurvePoint F} {A : Pt (E.b : F)} (hP : P.Honest w A) (hA : A ≠ 0) (hA2 : A + A ≠ 0)
    (hA3 : A + A + A ≠ 0) (hA4 : A + A + A + A ≠ 0) {b : AllocatedBit} (hb : b.Honest w true) :
    Complete w (multiplyFast one P [b]) fun R => R.Honest w (A + A + A) := by
  simp only [multiplyFast]
  refine Complete.bind (P := fun r => b = r) (show _ from rfl) ?_
  rintro _ rfl
  refine Complete.bind (P := fun r => b = r) (show _ from rfl) ?_
  rintro _ rfl
  rw [if_neg (by rw [hb.2]; simp)]
  refine Complete.bind (double_complete g h1 hP) fun D hD => ?_
  refine Complete.bind (addIncomplete_complete h1 hD hP hA2 hA (fun h => hA (by simpa using h))
    fun h => hA3 (eq_neg_iff_add_eq_zero.1 h)) fun T hT => ?_
  refine Complete.bind (P := fun r => T = r) (show _ from rfl) ?_
  rintro _ rfl
  refine Complete.bind (addIncomplete_complete h1 hT (honest_neg hP) hA3 (by simpa using hA)
    (fun h => hA4 ?_) fun h => hA2 (by simpa using h)) fun R hR => ?_
  · rw [h]; simp
  exact fastFinish_complete h1 hP hT hR hb (fun h => (hA h).elim) (fun _ => rfl) fun _ => hA3

end
end CurvePoint
end Circuit
end Halo
