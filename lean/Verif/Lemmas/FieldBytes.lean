import Verif.Lemmas.Field
/-!
# Encodings of field elements
-/
namespace Halo
namespace Fe
variable {C : Consts}

theorem readU64_toNat (b0 b1 b2 b3 b4 b5 b6 b7 : U8) :
    (readU64 b0 b1 b2 b3 b4 b5 b6 b7).toNat = leNat [b0, b1, b2, b3, b4, b5, b6, b7] := by
  have app : ∀ {n} (x : BitVec n) (y : BitVec 8), (x ++ y).toNat = x.toNat * 256 + y.toNat := by
    intro n x y
    rw [BitVec.toNat_append, ← Nat.shiftLeft_add_eq_or_of_lt y.isLt, Nat.shiftLeft_eq]
  simp only [readU64, app, leNat]
  ring

theorem leNat_append (l1 l2 : List (BitVec 8)) :
    leNat (l1 ++ l2) = leNat l1 + 256 ^ l1.length * leNat l2 := by
  induction l1 with
  | nil => simp [leNat]
  | cons a l ih => simp only [List.cons_append, leNat, ih, List.length_cons, pow_succ]; ring

theorem leNat_lt (l : List (BitVec 8)) : leNat l < 256 ^ l.length := by
  induction l with
  | nil => simp [leNat]
  | cons a l ih =>
    simp only [leNat, List.length_cons, pow_succ]
    have := a.isLt
    omega

theorem leNat_inj {l1 l2 : List (BitVec 8)} (hl : l1.length = l2.length)
    (h : leNat l1 = leNat l2) : l1 = l2 := by
  induction l1 generalizing l2 with
  | nil => cases l2 with
    | nil => rfl
    | cons => simp at hl
  | cons a l ih => cases l2 with
    | nil => simp at hl
    | cons b l2 =>
      simp only [leNat] at h
      have ha := a.isLt
      have hb := b.isLt
      have : a.toNat = b.toNat := by omega
      rw [BitVec.eq_of_toNat_eq this, ih (by simpa using hl) (by omega)]

/-- The four words read from 32 consecutive bytes. -/
theorem toNat_readWords {n : ℕ} (bytes : Vector U8 n) (o : ℕ) (h : 8 * (o + 3) + 7 < n) :
    (⟨readWord bytes o (by omega), readWord bytes (o+1) (by omega),
      readWord bytes (o+2) (by omega), readWord bytes (o+3) h⟩ : Limbs).toNat
     = leNat (List.ofFn fun i : Fin 32 => bytes[8 * o + i.val]'(by omega)) := by
  simp only [Limbs.toNat, readWord, readU64_toNat]
  have e : (List.ofFn fun i : Fin 32 => bytes[8 * o + i.val]'(by omega)) =
      [bytes[8*o], bytes[8*o+1], bytes[8*o+2], bytes[8*o+3], bytes[8*o+4], bytes[8*o+5],
        bytes[8*o+6], bytes[8*o+7]] ++
      ([bytes[8*(o+1)], bytes[8*(o+1)+1], bytes[8*(o+1)+2], bytes[8*(o+1)+3], bytes[8*(o+1)+4],
        bytes[8*(o+1)+5], bytes[8*(o+1)+6], bytes[8*(o+1)+7]] ++
      ([bytes[8*(o+2)], bytes[8*(o+2)+1], bytes[8*(o+2)+2], bytes[8*(o+2)+3], bytes[8*(o+2)+4],
        bytes[8*(o+2)+5], bytes[8*(o+2)+6], bytes[8*(o+2)+7]] ++
      [bytes[8*(o+3)], bytes[8*(o+3)+1], bytes[8*(o+3)+2], bytes[8*(o+3)+3], bytes[8*(o+3)+4],
        bytes[8*(o+3)+5], bytes[8*(o+3)+6], bytes[8*(o+3)+7]])) := by
    apply List.ext_getElem
    · simp
    · intro i h1 h2
      simp only [List.length_ofFn] at h1
      rw [List.getElem_ofFn]
      interval_cases i <;> rfl
  rw [e]
  simp only [leNat_append]
  norm_num
  ring

theorem words32 (bytes : Vector U8 32) :
    (⟨readWord bytes 0 (by omega), readWord bytes 1 (by omega),
      readWord bytes 2 (by omega), readWord bytes 3 (by omega)⟩ : Limbs).toNat
     = leNat bytes.toList := by
  have h := toNat_readWords bytes 0 (by omega)
  simp only [Nat.zero_add, Nat.mul_zero] at h
  rw [h]
  congr 1
  apply List.ext_getElem
  · simp
  · intro i h1 h2; rw [List.getElem_ofFn, Vector.getElem_toList]

theorem words64 (bytes : Vector U8 64) :
    (⟨readWord bytes 0 (by omega), readWord bytes 1 (by omega),
      readWord bytes 2 (by omega), readWord bytes 3 (by omega)⟩ : Limbs).toNat
     + 2^256 * (⟨readWord bytes 4 (by omega), readWord bytes 5 (by omega),
      readWord bytes 6 (by omega), readWord bytes 7 (by omega)⟩ : Limbs).toNat
     = leNat bytes.toList := by
  have h := toNat_readWords bytes 0 (by omega)
  have h' := toNat_readWords bytes 4 (by omega)
  simp only [Nat.zero_add, Nat.mul_zero] at h
  norm_num only at h'
  rw [h, h']
  have e : bytes.toList = (List.ofFn fun i : Fin 32 => bytes[i.val]'(by omega)) ++
      (List.ofFn fun i : Fin 32 => bytes[32 + i.val]'(by omega)) := by
    apply List.ext_getElem
    · simp
    · intro i h1 h2
      rw [List.getElem_append]
      simp only [List.length_ofFn, Vector.getElem_toList, List.getElem_ofFn]
      split
      · rfl
      · congr 1; omega
  rw [e, leNat_append, List.length_ofFn]
  norm_num

theorem writeU64_toNat (w : U64) (i : ℕ) : (writeU64 w i).toNat = w.toNat / 2^(8*i) % 256 := by
  simp [writeU64, Nat.shiftRight_eq_div_pow]

theorem toBytes_leNat (a : Limbs) : leNat (toBytes C a).toList = (toCanonical C a).toNat := by
  have e : (toBytes C a).toList = List.ofFn fun i : Fin 32 =>
    if i.val < 8 then writeU64 (toCanonical C a).l0 i.val
    else if i.val < 16 then writeU64 (toCanonical C a).l1 (i.val - 8)
    else if i.val < 24 then writeU64 (toCanonical C a).l2 (i.val - 16)
    else writeU64 (toCanonical C a).l3 (i.val - 24) := by
    apply List.ext_getElem
    · simp
    · intro i h1 h2; rw [List.getElem_ofFn, Vector.getElem_toList]; simp only [toBytes, Vector.getElem_ofFn]
  rw [e]
  generalize toCanonical C a = t
  have w : ∀ x : U64, x.toNat = leNat (List.ofFn fun i : Fin 8 => writeU64 x i.val) := by
    intro x
    simp only [List.ofFn_succ, List.ofFn_zero, leNat, writeU64_toNat]
    have := x.isLt
    simp only [Fin.val_zero, Fin.val_succ]
    norm_num only
    omega
  have e2 : (List.ofFn fun i : Fin 32 =>
    if i.val < 8 then writeU64 t.l0 i.val
    else if i.val < 16 then writeU64 t.l1 (i.val - 8)
    else if i.val < 24 then writeU64 t.l2 (i.val - 16)
    else writeU64 t.l3 (i.val - 24)) =
    (List.ofFn fun i : Fin 8 => writeU64 t.l0 i.val) ++
     ((List.ofFn fun i : Fin 8 => writeU64 t.l1 i.val) ++
     ((List.ofFn fun i : Fin 8 => writeU64 t.l2 i.val) ++
     (List.ofFn fun i : Fin 8 => writeU64 t.l3 i.val))) := by
    apply List.ext_getElem
    · simp
    · intro i h1 h2
      simp only [List.getElem_append, List.length_ofFn, List.getElem_ofFn]
      split_ifs <;> first | rfl | omega
  rw [e2]
  simp only [leNat_append, ← w, List.length_ofFn, Limbs.toNat]
  norm_num
  ring

/-- the canonical integer of the element -/
theorem toCanonical_val (ok : C.OK) {a : Limbs} {x : ZMod C.m} (ha : Represents C a x) :
    (toCanonical C a).toNat = x.val := by
  have : NeZero C.m := ⟨(m_pos ok).ne'⟩
  obtain ⟨h1, h2⟩ := toCanonical_spec ok a
  have h3 := (ZMod.natCast_eq_natCast_iff _ _ _).2 h2
  rw [Nat.cast_mul, Nat.cast_pow, Nat.cast_ofNat, mul_comm] at h3
  have h4 : ((toCanonical C a).toNat : ZMod C.m) = x := R_cancel ok (h3.trans ha.2)
  rw [← h4, ZMod.val_natCast, Nat.mod_eq_of_lt h1]

theorem borrow_lt (a : Limbs) :
    (let (_, borrow) := sbb a.l0 C.modulus.l0 0
     let (_, borrow) := sbb a.l1 C.modulus.l1 borrow
     let (_, borrow) := sbb a.l2 C.modulus.l2 borrow
     let (_, borrow) := sbb a.l3 C.modulus.l3 borrow
     (borrow.setWidth 8 &&& 1 : U8)) = if a.toNat < C.m then 1 else 0 := by
  obtain ⟨n0, hb0, e0⟩ := sbb_spec a.l0 C.modulus.l0 0 0 isBorrow_zero
  obtain ⟨n1, hb1, e1⟩ := sbb_spec a.l1 C.modulus.l1 _ n0 hb0
  obtain ⟨n2, hb2, e2⟩ := sbb_spec a.l2 C.modulus.l2 _ n1 hb1
  obtain ⟨n3, hb3, e3⟩ := sbb_spec a.l3 C.modulus.l3 _ n2 hb2
  have hlt : a.toNat < C.m ↔ n3 = 1 := by
    have r0 := (sbb a.l0 C.modulus.l0 0).1.isLt
    have r1 := (sbb a.l1 C.modulus.l1 (sbb a.l0 C.modulus.l0 0).2).1.isLt
    have r2 := (sbb a.l2 C.modulus.l2 (sbb a.l1 C.modulus.l1 (sbb a.l0 C.modulus.l0 0).2).2).1.isLt
    have r3 := (sbb a.l3 C.modulus.l3 (sbb a.l2 C.modulus.l2
      (sbb a.l1 C.modulus.l1 (sbb a.l0 C.modulus.l0 0).2).2).2).1.isLt
    have hn := hb3.le
    simp only [Consts.m, Limbs.toNat]
    generalize (sbb a.l3 C.modulus.l3 (sbb a.l2 C.modulus.l2
      (sbb a.l1 C.modulus.l1 (sbb a.l0 C.modulus.l0 0).2).2).2).1.toNat = s3 at *
    generalize (sbb a.l2 C.modulus.l2 (sbb a.l1 C.modulus.l1
      (sbb a.l0 C.modulus.l0 0).2).2).1.toNat = s2 at *
    generalize (sbb a.l1 C.modulus.l1 (sbb a.l0 C.modulus.l0 0).2).1.toNat = s1 at *
    generalize (sbb a.l0 C.modulus.l0 0).1.toNat = s0 at *
    generalize a.l0.toNat = a0 at *
    generalize a.l1.toNat = a1 at *
    generalize a.l2.toNat = a2 at *
    generalize a.l3.toNat = a3 at *
    generalize C.modulus.l0.toNat = m0 at *
    generalize C.modulus.l1.toNat = m1 at *
    generalize C.modulus.l2.toNat = m2 at *
    generalize C.modulus.l3.toNat = m3 at *
    clear hb0 hb1 hb2 hb3
    have e : a0 + 2^64 * a1 + 2^128 * a2 + 2^192 * a3 + 2^256 * n3
       = (s0 + 2^64 * s1 + 2^128 * s2 + 2^192 * s3) + (m0 + 2^64 * m1 + 2^128 * m2 + 2^192 * m3) := by
      zify at *
      linear_combination e0 + 2^64 * e1 + 2^128 * e2 + 2^192 * e3
    clear e0 e1 e2 e3
    omega
  show (BitVec.setWidth 8 (sbb a.l3 C.modulus.l3 (sbb a.l2 C.modulus.l2
      (sbb a.l1 C.modulus.l1 (sbb a.l0 C.modulus.l0 0).2).2).2).2 &&& 1 : U8) = _
  rcases hb3 with ⟨hw, h⟩ | ⟨hw, h⟩
  · rw [hw, if_neg (by rw [hlt]; omega)]; rfl
  · rw [hw, if_pos (by rw [hlt]; omega)]; rfl

theorem fromBytes_eq (bytes : Vector U8 32) :
    fromBytes C bytes = if leNat bytes.toList < C.m then
      some (mul C ⟨readWord bytes 0 (by omega), readWord bytes 1 (by omega),
      readWord bytes 2 (by omega), readWord bytes 3 (by omega)⟩ C.r2) else none := by
  have h := borrow_lt (C := C) ⟨readWord bytes 0 (by omega), readWord bytes 1 (by omega),
      readWord bytes 2 (by omega), readWord bytes 3 (by omega)⟩
  rw [words32] at h
  simp only [fromBytes]
  simp only at h
  rw [h]
  split_ifs <;> simp_all

theorem fromBytes_spec (ok : C.OK) (bytes : Vector U8 32) :
    if leNat bytes.toList < C.m then
      ∃ a, fromBytes C bytes = some a ∧ Represents C a (leNat bytes.toList : ZMod C.m)
    else fromBytes C bytes = none := by
  rw [fromBytes_eq]
  split_ifs
  · refine ⟨_, rfl, ?_⟩
    have := rep_mul_r2 ok ⟨readWord bytes 0 (by omega), readWord bytes 1 (by omega),
      readWord bytes 2 (by omega), readWord bytes 3 (by omega)⟩
    rwa [words32] at this
  · rfl

theorem toBytes_val (ok : C.OK) {a : Limbs} {x : ZMod C.m} (ha : Represents C a x) :
    leNat (toBytes C a).toList = x.val := by
  rw [toBytes_leNat, toCanonical_val ok ha]

theorem getLower128_val (ok : C.OK) {a : Limbs} {x : ZMod C.m} (ha : Represents C a x) :
    (getLower128 C a).toNat = x.val % 2^128 := by
  rw [← toCanonical_val ok ha]
  simp only [getLower128]
  generalize toCanonical C a = t
  have h0 := t.l0.isLt
  have h1 := t.l1.isLt
  have e : (BitVec.setWidth 128 t.l1 <<< 64 : U128).toNat = t.l1.toNat <<< 64 := by
    simp only [BitVec.toNat_shiftLeft, BitVec.toNat_setWidth, Nat.shiftLeft_eq]
    omega
  have e0 : (BitVec.setWidth 128 t.l0 : U128).toNat = t.l0.toNat := by
    simp only [BitVec.toNat_setWidth]; omega
  rw [BitVec.toNat_or, e, e0, Nat.or_comm, ← Nat.shiftLeft_add_eq_or_of_lt h0, Nat.shiftLeft_eq]
  simp only [Limbs.toNat]
  omega

theorem fromBytesWide_rep (ok : C.OK) (bytes : Vector U8 64) :
    Represents C (fromBytesWide C bytes) (leNat bytes.toList : ZMod C.m) := by
  rw [← words64]
  have := rep_add ok
    (rep_mul_r2 ok ⟨readWord bytes 0 (by omega), readWord bytes 1 (by omega),
      readWord bytes 2 (by omega), readWord bytes 3 (by omega)⟩)
    (rep_mul_r3 ok ⟨readWord bytes 4 (by omega), readWord bytes 5 (by omega),
      readWord bytes 6 (by omega), readWord bytes 7 (by omega)⟩)
  rw [Nat.cast_add, Nat.cast_mul, Nat.cast_pow, Nat.cast_ofNat]
  exact this

theorem fromU64_rep (ok : C.OK) (v : U64) : Represents C (fromU64 C v) (v.toNat : ZMod C.m) := by
  have := rep_mul_r2 ok ⟨v, 0, 0, 0⟩
  have e : (⟨v, 0, 0, 0⟩ : Limbs).toNat = v.toNat := by simp [Limbs.toNat]
  rw [e] at this
  exact this

theorem fromU128_rep (ok : C.OK) (v : U128) : Represents C (fromU128 C v) (v.toNat : ZMod C.m) := by
  have := rep_mul_r2 ok ⟨v.setWidth 64, (v >>> 64).setWidth 64, 0, 0⟩
  have e : (⟨v.setWidth 64, (v >>> 64).setWidth 64, 0, 0⟩ : Limbs).toNat = v.toNat := by
    simp only [Limbs.toNat, BitVec.toNat_setWidth, BitVec.toNat_ushiftRight,
      Nat.shiftRight_eq_div_pow]
    have := v.isLt
    rw [show (0 : U64).toNat = 0 from rfl]
    omega
  rw [e] at this
  exact this

theorem ofBool_rep (ok : C.OK) (b : Bool) :
    Represents C (ofBool C b) (if b then 1 else 0 : ZMod C.m) := by
  cases b
  · simpa [ofBool] using rep_zero ok
  · simpa [ofBool] using rep_one ok

end Fe
end Halo
