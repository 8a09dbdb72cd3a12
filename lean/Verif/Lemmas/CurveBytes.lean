import Verif.Lemmas.CurveEndo
import Verif.Spec.CurveEnc
/-!
# Affine coordinates and compressed encodings
-/
namespace Halo
open WeierstrassCurve.Affine

theorem leNat_last (v : Vector (BitVec 8) 32) :
    leNat v.toList = leNat (v.toList.take 31) + 2 ^ 248 * v[31].toNat := by
  have : v.toList = v.toList.take 31 ++ [v[31]] := by
    conv_lhs => rw [← List.take_append_drop 31 v.toList]
    congr 1
    apply List.ext_getElem
    · simp
    · intro i h1 h2
      have : i = 0 := by simpa using h2
      subst this; simp
  conv_lhs => rw [this]
  rw [Fe.leNat_append]
  simp [leNat]

theorem leNat_take_lt (v : Vector (BitVec 8) 32) : leNat (v.toList.take 31) < 2 ^ 248 := by
  have := Fe.leNat_lt (v.toList.take 31)
  simpa using this

theorem leNat_set (v : Vector (BitVec 8) 32) (b : BitVec 8) :
    leNat (v.set 31 b).toList = leNat (v.toList.take 31) + 2 ^ 248 * b.toNat := by
  rw [leNat_last]
  congr 2
  · apply List.ext_getElem
    · simp
    · intro i h1 h2
      simp at h1 h2
      rw [List.getElem_take, List.getElem_take, Vector.getElem_toList, Vector.getElem_toList,
        Vector.getElem_set_ne _ _ (by omega)]
  · simp

theorem leNat_bit0 (v : Vector (BitVec 8) 32) :
    (((v[0] &&& 1#8) == 1#8) = decide (leNat v.toList % 2 = 1)) ∧
    (v[0] &&& 1#8).toNat = leNat v.toList % 2 := by
  have : v.toList = v[0] :: v.toList.tail := by
    apply List.ext_getElem
    · simp
    · intro i h1 h2
      cases i <;> simp
  have hm : leNat v.toList % 2 = v[0].toNat % 2 := by
    rw [this, leNat]; omega
  have ht : (v[0] &&& 1#8).toNat = v[0].toNat % 2 := by
    rw [BitVec.toNat_and, show (1#8).toNat = 1 from rfl, Nat.and_one_is_mod]
  refine ⟨?_, by rw [ht, hm]⟩
  rw [hm, ← ht]
  generalize v[0] &&& 1#8 = c
  by_cases h : c = 1#8
  · subst h; decide
  · have : c.toNat ≠ 1 := fun hh => h (BitVec.eq_of_toNat_eq hh)
    simp [h, this]

section
variable {F : Type} [Field F] [DecidableEq F] [LawfulField F] {b : F}

omit [DecidableEq F] in
theorem getXy_spec {P : Proj F} {A : Pt b} (h : Denotes b P A) : Proj.getXy P = affine A := by
  cases h with
  | zero hy => simp [Proj.getXy, LawfulField.invert_zero]; rfl
  | some hz n =>
    simp only [Proj.getXy, LawfulField.invert_eq _ hz, Option.bind_some, affine, mul_assoc,
      mul_inv_cancel₀ hz, mul_one]

omit [DecidableEq F] in
theorem parity_neg {y : F} (hy : y ≠ 0) :
    LawfulField.val (-y) % 2 ≠ LawfulField.val y % 2 := by
  rw [LawfulField.val_neg hy]
  have h1 := LawfulField.modulus_odd (F := F)
  have h2 := LawfulField.val_lt y
  omega

omit [DecidableEq F] in
theorem val_lt_255 (x : F) : LawfulField.val x < 2 ^ 255 :=
  (LawfulField.val_lt x).trans (LawfulField.modulus_bound (F := F)).2

variable {E : CurveConsts}

theorem isOnCurve_some (x y : F) :
    Proj.isOnCurve E (⟨x, y, 1⟩ : Proj F) = some (decide (y ^ 2 = x ^ 3 + (E.b : F))) := by
  have h1 : (1 : F) ≠ 0 := one_ne_zero
  simp only [Proj.isOnCurve, Proj.isZero, Proj.getXy, LawfulField.invert_eq _ h1, inv_one]
  have : ((1 : F) == 0) = false := by simp
  rw [this]
  simp only [Bool.false_eq_true, if_false, Option.bind_some, Option.map_some]
  congr 1
  have e : y ^ 2 = x ^ 3 + (E.b : F) ↔ x * x * x + (E.b : F) = y * y := by
    constructor
    · intro h; linear_combination -h
    · intro h; linear_combination -h
  simp only [e, beq_eq_decide, mul_one]

theorem toBytes_spec {P : Proj F} {A : Pt (E.b : F)} (h : Denotes (E.b : F) P A) :
    ∃ bs, Proj.toBytes P = some bs ∧ leNat bs.toList = encNat A := by
  cases h with
  | zero hy =>
    refine ⟨Vector.replicate 32 0#8, by simp [Proj.toBytes, Proj.isZero], ?_⟩
    show _ = 0
    decide
  | @some x y z hz n =>
    have hg : Proj.getXy (⟨x * z, y * z, z⟩ : Proj F) = some (x, y) :=
      getXy_spec (Denotes.some hz n)
    have hz' : Proj.isZero (⟨x * z, y * z, z⟩ : Proj F) = false := by simp [Proj.isZero, hz]
    simp only [Proj.toBytes, hz', Bool.false_eq_true, if_false, hg, Option.map_some,
      Option.some.injEq, exists_eq_left']
    rw [leNat_set]
    have hx := LawfulField.toBytes_val x
    have hxlt := val_lt_255 x
    rw [← hx, leNat_last] at hxlt
    rw [leNat_last] at hx
    have hs := (leNat_bit0 (FieldApi.toBytes y)).2
    rw [LawfulField.toBytes_val] at hs
    have hb31 : (FieldApi.toBytes x)[31].toNat < 128 := by
      generalize (FieldApi.toBytes x)[31].toNat = t at hxlt
      omega
    show _ = LawfulField.val x + 2 ^ 255 * (LawfulField.val y % 2)
    rw [← hx, ← hs]
    generalize (FieldApi.toBytes y)[0] &&& 1#8 = s at hs ⊢
    generalize (FieldApi.toBytes x)[31] = t at hb31 ⊢
    have hs2 : s.toNat < 2 := by omega
    have key : ∀ s t : BitVec 8, s.toNat < 2 → t.toNat < 128 →
        (t ||| s <<< 7).toNat = t.toNat + 128 * s.toNat := by decide +kernel
    rw [key s t hs2 hb31]
    ring

omit [DecidableEq F] in
theorem encNat_inj (hb : ∀ x : F, x ^ 3 + b ≠ 0) (hsq : ¬ IsSquare b) {A B : Pt b}
    (h : encNat A = encNat B) : A = B := by
  have hx0 : ∀ {x y : F}, (shortW b).toAffine.Nonsingular x y →
      LawfulField.val x + 2 ^ 255 * (LawfulField.val y % 2) ≠ 0 := by
    intro x y n h0
    have hv : LawfulField.val x = 0 := by omega
    have : x = 0 := by rw [← LawfulField.val_cast x, hv, Nat.cast_zero]
    subst this
    have := equation_short.1 n.1
    exact hsq ⟨y, by rw [← pow_two, this]; ring⟩
  cases A with
  | zero => cases B with
    | zero => rfl
    | some x y n => exact absurd h.symm (hx0 n)
  | some x y n => cases B with
    | zero => exact absurd h (hx0 n)
    | some x' y' n' =>
      change LawfulField.val x + 2 ^ 255 * (LawfulField.val y % 2) =
        LawfulField.val x' + 2 ^ 255 * (LawfulField.val y' % 2) at h
      have h1 := val_lt_255 x
      have h2 := val_lt_255 x'
      have hxx : LawfulField.val x = LawfulField.val x' := by omega
      have hyy : LawfulField.val y % 2 = LawfulField.val y' % 2 := by omega
      obtain rfl := LawfulField.val_inj hxx
      have e1 := equation_short.1 n.1
      have e2 := equation_short.1 n'.1
      have : (y - y') * (y + y') = 0 := by linear_combination e1 - e2
      rcases mul_eq_zero.1 this with h | h
      · obtain rfl := sub_eq_zero.1 h; rfl
      · obtain rfl := eq_neg_of_add_eq_zero_left h
        exact absurd hyy (parity_neg (y_ne_zero hb n'))

/-- decoding: the string is the encoding of the point returned -/
theorem fromBytes_sound (g : GoodCurve F E) {bs : Vector (BitVec 8) 32} {P : Proj F}
    (h : Proj.fromBytes E bs = some P) :
    ∃ A, Denotes (E.b : F) P A ∧ encNat A = leNat bs.toList := by
  simp only [Proj.fromBytes] at h
  have hm : (bs[31] &&& 127#8).toNat = bs[31].toNat % 128 := by
    generalize bs[31] = t; revert t; decide +kernel
  have hsg : ((bs[31] >>> 7) == 1#8) = decide (bs[31].toNat / 128 = 1) := by
    generalize bs[31] = t; revert t; decide +kernel
  have hbv := leNat_last bs
  have hblt := bs[31].isLt
  rcases lt_or_ge (leNat (bs.set 31 (bs[31] &&& 127#8)).toList) (modulus F) with hlt | hge
  swap
  · rw [LawfulField.fromBytes_none _ hge] at h; simp at h
  rw [LawfulField.fromBytes_ok _ hlt] at h
  have hval := LawfulField.val_of_lt hlt
  rw [leNat_set, hm] at hval h
  rw [hsg] at h
  generalize hX : ((leNat (bs.toList.take 31) + 2 ^ 248 * (bs[31].toNat % 128) : ℕ) : F) = X at *
  simp only [Option.bind_some] at h
  split at h
  · rename_i hc
    simp only [Option.some.injEq] at h
    subst h
    refine ⟨0, denotes_proj_zero, ?_⟩
    show 0 = _
    simp only [Bool.and_eq_true, beq_iff_eq, Bool.not_eq_true', decide_eq_false_iff_not] at hc
    rw [hc.1, LawfulField.val_zero] at hval
    omega
  · rename_i hc
    by_cases hsq : IsSquare (X * X * X + (E.b : F))
    swap
    · rw [LawfulField.sqrt_none _ hsq] at h; simp at h
    obtain ⟨y, hy1, hy2⟩ := LawfulField.sqrt_some _ hsq
    rw [hy1] at h
    simp only [Option.bind_some, Option.some.injEq] at h
    rw [(leNat_bit0 _).1, LawfulField.toBytes_val] at h
    have hy2' : y ^ 2 = X ^ 3 + (E.b : F) := by rw [pow_two, hy2]; ring
    have n := nonsingular_short g.no_two_torsion g.two_ne hy2'
    have n' := nonsingular_short (y := -y) g.no_two_torsion g.two_ne (by rw [neg_sq, hy2'])
    have hpar := parity_neg (y_ne_zero g.no_two_torsion n)
    subst h
    split
    · rename_i hx
      refine ⟨_, denotes_some n' (by simp) (by simp) (by simp), ?_⟩
      show LawfulField.val X + 2 ^ 255 * (LawfulField.val (-y) % 2) = _
      rw [hval, hbv]
      by_cases h1 : bs[31].toNat / 128 = 1 <;> by_cases h2 : LawfulField.val y % 2 = 1 <;>
        simp [h1, h2] at hx <;> omega
    · rename_i hx
      refine ⟨_, denotes_some n (by simp) (by simp) (by simp), ?_⟩
      show LawfulField.val X + 2 ^ 255 * (LawfulField.val y % 2) = _
      rw [hval, hbv]
      by_cases h1 : bs[31].toNat / 128 = 1 <;> by_cases h2 : LawfulField.val y % 2 = 1 <;>
        simp [h1, h2] at hx <;> omega

/-- decoding: the encoding of any point is accepted -/
theorem fromBytes_complete {bs : Vector (BitVec 8) 32} {A : Pt (E.b : F)}
    (h : encNat A = leNat bs.toList) : Proj.fromBytes (F := F) E bs ≠ none := by
  have hm : (bs[31] &&& 127#8).toNat = bs[31].toNat % 128 := by
    generalize bs[31] = t; revert t; decide +kernel
  have hsg : ((bs[31] >>> 7) == 1#8) = decide (bs[31].toNat / 128 = 1) := by
    generalize bs[31] = t; revert t; decide +kernel
  have hbv := leNat_last bs
  have hblt := bs[31].isLt
  have htk := leNat_take_lt bs
  have hset := leNat_set bs (bs[31] &&& 127#8)
  rw [hm] at hset
  cases A with
  | zero =>
    change 0 = _ at h
    have h0 : leNat (bs.set 31 (bs[31] &&& 127#8)).toList = 0 := by omega
    have hlt : leNat (bs.set 31 (bs[31] &&& 127#8)).toList < modulus F := by
      rw [h0]; exact LawfulField.modulus_pos
    have hs : ¬ bs[31].toNat / 128 = 1 := by omega
    simp only [Proj.fromBytes]
    rw [LawfulField.fromBytes_ok _ hlt, h0, hsg]
    simp [hs]
  | some x y n =>
    change LawfulField.val x + 2 ^ 255 * (LawfulField.val y % 2) = _ at h
    have hx := val_lt_255 x
    have h0 : leNat (bs.set 31 (bs[31] &&& 127#8)).toList = LawfulField.val x := by omega
    have hlt : leNat (bs.set 31 (bs[31] &&& 127#8)).toList < modulus F := by
      rw [h0]; exact LawfulField.val_lt x
    simp only [Proj.fromBytes]
    rw [LawfulField.fromBytes_ok _ hlt, h0, LawfulField.val_cast]
    simp only [Option.bind_some]
    split
    · simp
    · have hsq : IsSquare (x * x * x + (E.b : F)) :=
        ⟨y, by have := equation_short.1 n.1; linear_combination -this⟩
      obtain ⟨r, hr, -⟩ := LawfulField.sqrt_some _ hsq
      rw [hr]; simp
end
end Halo
