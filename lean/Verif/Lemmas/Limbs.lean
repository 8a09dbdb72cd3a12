import Verif.Model.FieldConsts
import Mathlib.Tactic.LinearCombination
import Mathlib.Tactic.Linarith
import Mathlib.Tactic.Ring
import Mathlib.Tactic.Push
import Mathlib.Tactic.NormNum
import Mathlib.Tactic.Zify
import Mathlib.Data.Nat.ModEq
/-!
# Carry-chain lemmas: the word-level helpers as statements about integers
-/
namespace Halo

theorem setWidth128_toNat (a : U64) : (a.setWidth 128).toNat = a.toNat := by
  have := a.isLt
  simp only [BitVec.toNat_setWidth]
  omega

theorem adc_spec (a b c : U64) :
    (adc a b c).1.toNat + 2^64 * (adc a b c).2.toNat = a.toNat + b.toNat + c.toNat := by
  have ha := a.isLt; have hb := b.isLt; have hc := c.isLt
  simp only [adc, BitVec.toNat_setWidth, BitVec.toNat_add, BitVec.toNat_ushiftRight,
    Nat.shiftRight_eq_div_pow]
  omega

/-- the `u128` additions in `adc` do not overflow -/
theorem adc_no_overflow (a b c : U64) : a.toNat + b.toNat + c.toNat < 2^128 := by
  have ha := a.isLt; have hb := b.isLt; have hc := c.isLt
  omega

theorem mac_bound (a b c d : U64) :
    a.toNat + b.toNat * c.toNat + d.toNat < 2^128 := by
  have ha := a.isLt; have hb := b.isLt; have hc := c.isLt; have hd := d.isLt
  have : b.toNat * c.toNat ≤ (2^64-1) * (2^64-1) := Nat.mul_le_mul (by omega) (by omega)
  omega

/-- the `u128` operations in `mac` do not overflow -/
theorem mac_no_overflow (a b c d : U64) :
    a.toNat + b.toNat * c.toNat + d.toNat < 2^128 := mac_bound a b c d

theorem mac_spec (a b c d : U64) :
    (mac a b c d).1.toNat + 2^64 * (mac a b c d).2.toNat
      = a.toNat + b.toNat * c.toNat + d.toNat := by
  have h := mac_bound a b c d
  have ha := a.isLt; have hb := b.isLt; have hc := c.isLt; have hd := d.isLt
  simp only [mac, BitVec.toNat_setWidth, BitVec.toNat_add, BitVec.toNat_mul,
    BitVec.toNat_ushiftRight, Nat.shiftRight_eq_div_pow]
  rw [Nat.mod_eq_of_lt (a := a.toNat) (by omega), Nat.mod_eq_of_lt (a := b.toNat) (by omega),
    Nat.mod_eq_of_lt (a := c.toNat) (by omega), Nat.mod_eq_of_lt (a := d.toNat) (by omega)]
  generalize b.toNat * c.toNat = m at h ⊢
  omega

/-- A borrow word: all zeros or all ones. -/
def IsBorrow (b : U64) (n : Nat) : Prop := (b = 0 ∧ n = 0) ∨ (b = BitVec.allOnes 64 ∧ n = 1)

theorem isBorrow_zero : IsBorrow 0 0 := Or.inl ⟨rfl, rfl⟩

theorem IsBorrow.le {b : U64} {n : Nat} (h : IsBorrow b n) : n ≤ 1 := by
  rcases h with ⟨_, rfl⟩ | ⟨_, rfl⟩ <;> omega

theorem sbb_spec (a b w : U64) (n : Nat) (h : IsBorrow w n) :
    ∃ n', IsBorrow (sbb a b w).2 n' ∧
      a.toNat + 2^64 * n' = (sbb a b w).1.toNat + b.toNat + n := by
  have ha := a.isLt; have hb := b.isLt
  have hw : (w >>> 63).toNat = n := by
    rcases h with ⟨rfl, rfl⟩ | ⟨rfl, rfl⟩ <;> rfl
  have hn := h.le
  have hw' : w.toNat / 2^63 = n := by rw [← hw, BitVec.toNat_ushiftRight, Nat.shiftRight_eq_div_pow]
  have key : (sbb a b w).1.toNat + 2^64 * (sbb a b w).2.toNat
      = (2^128 + a.toNat - (b.toNat + n)) % 2^128 := by
    simp only [sbb, BitVec.toNat_setWidth, BitVec.toNat_sub, BitVec.toNat_add,
      BitVec.toNat_ushiftRight, Nat.shiftRight_eq_div_pow]
    rw [hw']
    omega
  have h1 := (sbb a b w).1.isLt
  have h2 := (sbb a b w).2.isLt
  by_cases hlt : a.toNat < b.toNat + n
  · refine ⟨1, Or.inr ⟨?_, rfl⟩, ?_⟩
    · apply BitVec.eq_of_toNat_eq
      rw [BitVec.toNat_allOnes]
      omega
    · omega
  · refine ⟨0, Or.inl ⟨?_, rfl⟩, ?_⟩
    · apply BitVec.eq_of_toNat_eq
      rw [show (0 : U64).toNat = 0 from rfl]
      omega
    · omega

theorem and_borrow (m b : U64) (n : Nat) (h : IsBorrow b n) :
    (m &&& b).toNat = n * m.toNat := by
  rcases h with ⟨rfl, rfl⟩ | ⟨rfl, rfl⟩
  · simp
  · rw [BitVec.and_allOnes]; simp

theorem Limbs.toNat_lt (a : Limbs) : a.toNat < 2^256 := by
  have h0 := a.l0.isLt; have h1 := a.l1.isLt; have h2 := a.l2.isLt; have h3 := a.l3.isLt
  simp only [Limbs.toNat]; omega

theorem Limbs.toNat_inj {a b : Limbs} (h : a.toNat = b.toNat) : a = b := by
  have a0 := a.l0.isLt; have a1 := a.l1.isLt; have a2 := a.l2.isLt; have a3 := a.l3.isLt
  have b0 := b.l0.isLt; have b1 := b.l1.isLt; have b2 := b.l2.isLt; have b3 := b.l3.isLt
  simp only [Limbs.toNat] at h
  have e0 : a.l0 = b.l0 := BitVec.eq_of_toNat_eq (by omega)
  have e1 : a.l1 = b.l1 := BitVec.eq_of_toNat_eq (by omega)
  have e2 : a.l2 = b.l2 := BitVec.eq_of_toNat_eq (by omega)
  have e3 : a.l3 = b.l3 := BitVec.eq_of_toNat_eq (by omega)
  cases a; cases b; simp_all

namespace Fe
variable (C : Consts)

/-- `sub` without the modular reading: wraps by the modulus once on borrow. -/
theorem sub_toNat (a b : Limbs) :
    ((sub C a b).toNat = a.toNat - b.toNat ∧ b.toNat ≤ a.toNat) ∨
    ((sub C a b).toNat = (2^256 + a.toNat - b.toNat + C.modulus.toNat) % 2^256 ∧
      a.toNat < b.toNat) := by
  obtain ⟨n0, hb0, e0⟩ := sbb_spec a.l0 b.l0 0 0 isBorrow_zero
  obtain ⟨n1, hb1, e1⟩ := sbb_spec a.l1 b.l1 _ n0 hb0
  obtain ⟨n2, hb2, e2⟩ := sbb_spec a.l2 b.l2 _ n1 hb1
  obtain ⟨n3, hb3, e3⟩ := sbb_spec a.l3 b.l3 _ n2 hb2
  simp only [sub]
  generalize hs0 : sbb a.l0 b.l0 0 = s0 at *
  generalize hs1 : sbb a.l1 b.l1 s0.2 = s1 at *
  generalize hs2 : sbb a.l2 b.l2 s1.2 = s2 at *
  generalize hs3 : sbb a.l3 b.l3 s2.2 = s3 at *
  have f0 := adc_spec s0.1 (C.modulus.l0 &&& s3.2) 0
  have f1 := adc_spec s1.1 (C.modulus.l1 &&& s3.2) (adc s0.1 (C.modulus.l0 &&& s3.2) 0).2
  generalize ht0 : adc s0.1 (C.modulus.l0 &&& s3.2) 0 = t0 at *
  generalize ht1 : adc s1.1 (C.modulus.l1 &&& s3.2) t0.2 = t1 at *
  have f2 := adc_spec s2.1 (C.modulus.l2 &&& s3.2) t1.2
  generalize ht2 : adc s2.1 (C.modulus.l2 &&& s3.2) t1.2 = t2 at *
  have f3 := adc_spec s3.1 (C.modulus.l3 &&& s3.2) t2.2
  generalize ht3 : adc s3.1 (C.modulus.l3 &&& s3.2) t2.2 = t3 at *
  simp only [and_borrow _ _ _ hb3] at f0 f1 f2 f3
  have z : (0 : U64).toNat = 0 := rfl
  rw [z] at f0
  have lt0 := t0.1.isLt; have lt1 := t1.1.isLt; have lt2 := t2.1.isLt; have lt3 := t3.1.isLt
  have ls0 := s0.1.isLt; have ls1 := s1.1.isLt; have ls2 := s2.1.isLt; have ls3 := s3.1.isLt
  have hT : (⟨t0.1, t1.1, t2.1, t3.1⟩ : Limbs).toNat < 2^256 := Limbs.toNat_lt _
  have hS : (⟨s0.1, s1.1, s2.1, s3.1⟩ : Limbs).toNat < 2^256 := Limbs.toNat_lt _
  have la := a.toNat_lt
  have lb := b.toNat_lt
  have lm := C.modulus.toNat_lt
  have E1 : a.toNat + 2^256 * n3 = (⟨s0.1, s1.1, s2.1, s3.1⟩ : Limbs).toNat + b.toNat := by
    simp only [Limbs.toNat]; clear * - e0 e1 e2 e3; omega
  have E2 : (⟨t0.1, t1.1, t2.1, t3.1⟩ : Limbs).toNat + 2^256 * t3.2.toNat =
      (⟨s0.1, s1.1, s2.1, s3.1⟩ : Limbs).toNat + n3 * C.modulus.toNat := by
    simp only [Limbs.toNat]
    rcases hb3 with ⟨_, rfl⟩ | ⟨_, rfl⟩
    · clear * - f0 f1 f2 f3; omega
    · clear * - f0 f1 f2 f3; omega
  generalize (⟨t0.1, t1.1, t2.1, t3.1⟩ : Limbs).toNat = T at *
  generalize (⟨s0.1, s1.1, s2.1, s3.1⟩ : Limbs).toNat = S at *
  generalize a.toNat = A at *
  generalize b.toNat = B at *
  generalize C.modulus.toNat = M at *
  rcases hb3 with ⟨_, rfl⟩ | ⟨_, rfl⟩
  · left; clear * - E1 E2 hT hS la lb lm; constructor <;> omega
  · right; clear * - E1 E2 hT hS la lb lm; constructor <;> omega


/-- What the limb code needs to know about its constants. -/
structure _root_.Halo.Consts.OK (C : Consts) : Prop where
  pos : 1 < C.modulus.toNat
  small : 2 * C.modulus.toNat < 2^256
  inv : (C.modulus.l0.toNat * C.inv.toNat + 1) % 2^64 = 0
  r : C.r.toNat = 2^256 % C.modulus.toNat
  r2 : C.r2.toNat = 2^512 % C.modulus.toNat
  r3 : C.r3.toNat = 2^768 % C.modulus.toNat

/-- A fully reduced representation. -/
def Canon (C : Consts) (a : Limbs) : Prop := a.toNat < C.modulus.toNat

variable {C}

theorem sub_spec (ok : C.OK) {a b : Limbs}
    (hb : b.toNat ≤ C.modulus.toNat) (hab : a.toNat < b.toNat + C.modulus.toNat) :
    (sub C a b).toNat = (a.toNat + C.modulus.toNat - b.toNat) % C.modulus.toNat := by
  have h1 := ok.pos
  have h2 := ok.small
  rcases sub_toNat C a b with ⟨h, hle⟩ | ⟨h, hlt⟩
  · rw [h, show a.toNat + C.modulus.toNat - b.toNat = (a.toNat - b.toNat) + C.modulus.toNat by omega,
      Nat.add_mod_right, Nat.mod_eq_of_lt (by omega)]
  · rw [h, Nat.mod_eq_of_lt (a := a.toNat + C.modulus.toNat - b.toNat) (by omega)]
    omega

theorem sub_canon (ok : C.OK) {a b : Limbs} (ha : Canon C a) (hb : Canon C b) :
    (sub C a b).toNat = (a.toNat + C.modulus.toNat - b.toNat) % C.modulus.toNat := by
  unfold Canon at *
  exact sub_spec ok (by omega) (by omega)

theorem sub_modulus (ok : C.OK) {a : Limbs} (ha : a.toNat < 2 * C.modulus.toNat) :
    (sub C a C.modulus).toNat = a.toNat % C.modulus.toNat := by
  rw [sub_spec ok le_rfl (by omega), Nat.add_sub_cancel]

theorem add_limbs (a b : Limbs) (hab : a.toNat + b.toNat < 2^256) :
    ∃ d : Limbs, add C a b = sub C d C.modulus ∧ d.toNat = a.toNat + b.toNat := by
  have e0 := adc_spec a.l0 b.l0 0
  simp only [add]
  generalize adc a.l0 b.l0 0 = s0 at *
  have e1 := adc_spec a.l1 b.l1 s0.2
  generalize adc a.l1 b.l1 s0.2 = s1 at *
  have e2 := adc_spec a.l2 b.l2 s1.2
  generalize adc a.l2 b.l2 s1.2 = s2 at *
  have e3 := adc_spec a.l3 b.l3 s2.2
  generalize adc a.l3 b.l3 s2.2 = s3 at *
  refine ⟨_, rfl, ?_⟩
  have z : (0 : U64).toNat = 0 := rfl
  have hlt := Limbs.toNat_lt ⟨s0.1, s1.1, s2.1, s3.1⟩
  simp only [Limbs.toNat] at hab hlt ⊢
  omega

theorem add_canon (ok : C.OK) {a b : Limbs} (ha : Canon C a) (hb : Canon C b) :
    (add C a b).toNat = (a.toNat + b.toNat) % C.modulus.toNat := by
  unfold Canon at *
  have h2 := ok.small
  obtain ⟨d, h, hd⟩ := add_limbs (C := C) a b (by omega)
  rw [h, sub_modulus ok (by omega), hd]

theorem neg_canon {a : Limbs} (ha : Canon C a) :
    (neg C a).toNat = (C.modulus.toNat - a.toNat) % C.modulus.toNat := by
  unfold Canon at ha
  obtain ⟨n0, hb0, e0⟩ := sbb_spec C.modulus.l0 a.l0 0 0 isBorrow_zero
  obtain ⟨n1, hb1, e1⟩ := sbb_spec C.modulus.l1 a.l1 _ n0 hb0
  obtain ⟨n2, hb2, e2⟩ := sbb_spec C.modulus.l2 a.l2 _ n1 hb1
  obtain ⟨n3, hb3, e3⟩ := sbb_spec C.modulus.l3 a.l3 _ n2 hb2
  simp only [neg]
  generalize hs0 : sbb C.modulus.l0 a.l0 0 = s0 at *
  generalize hs1 : sbb C.modulus.l1 a.l1 s0.2 = s1 at *
  generalize hs2 : sbb C.modulus.l2 a.l2 s1.2 = s2 at *
  generalize hs3 : sbb C.modulus.l3 a.l3 s2.2 = s3 at *
  have hS : (⟨s0.1, s1.1, s2.1, s3.1⟩ : Limbs).toNat < 2^256 := Limbs.toNat_lt _
  have E1 : C.modulus.toNat + 2^256 * n3 = (⟨s0.1, s1.1, s2.1, s3.1⟩ : Limbs).toNat + a.toNat := by
    simp only [Limbs.toNat]; clear * - e0 e1 e2 e3; omega
  have hor : (a.l0 ||| a.l1 ||| a.l2 ||| a.l3) = 0 ↔ a.toNat = 0 := by
    constructor
    · intro h
      have h' := congrArg BitVec.toNat h
      simp only [BitVec.toNat_or, BitVec.ofNat_eq_ofNat, BitVec.toNat_ofNat, Nat.zero_mod,
        Nat.or_eq_zero_iff] at h'
      obtain ⟨⟨⟨h0, h1⟩, h2⟩, h3⟩ := h'
      simp [Limbs.toNat, h0, h1, h2, h3]
    · intro h
      simp only [Limbs.toNat] at h
      have e0 : a.l0 = 0 := BitVec.eq_of_toNat_eq (by rw [show (0 : U64).toNat = 0 from rfl]; omega)
      have e1 : a.l1 = 0 := BitVec.eq_of_toNat_eq (by rw [show (0 : U64).toNat = 0 from rfl]; omega)
      have e2 : a.l2 = 0 := BitVec.eq_of_toNat_eq (by rw [show (0 : U64).toNat = 0 from rfl]; omega)
      have e3 : a.l3 = 0 := BitVec.eq_of_toNat_eq (by rw [show (0 : U64).toNat = 0 from rfl]; omega)
      rw [e0, e1, e2, e3]; rfl
  by_cases hz : a.toNat = 0
  · rw [if_pos (hor.2 hz), hz]
    simp [Limbs.toNat]
  · rw [if_neg (fun h => hz (hor.1 h)), show (0 : U64) - 1 = BitVec.allOnes 64 from rfl]
    simp only [BitVec.and_allOnes]
    have := hb3.le
    have lm := C.modulus.toNat_lt
    rw [Nat.mod_eq_of_lt (by omega)]
    omega

theorem mac_low (r m inv : U64) (h : (m.toNat * inv.toNat + 1) % 2^64 = 0) :
    (mac r (r * inv) m 0).1.toNat = 0 := by
  have e := mac_spec r (r * inv) m 0
  have l := (mac r (r * inv) m 0).1.isLt
  rw [BitVec.toNat_mul, show (0 : U64).toNat = 0 from rfl] at e
  have h1 : (r.toNat + r.toNat * inv.toNat % 2^64 * m.toNat) % 2^64 = 0 := by
    have : (r.toNat + r.toNat * inv.toNat % 2^64 * m.toNat) ≡ 0 [MOD 2^64] := by
      calc (r.toNat + r.toNat * inv.toNat % 2^64 * m.toNat)
          ≡ r.toNat + r.toNat * inv.toNat * m.toNat [MOD 2^64] :=
            Nat.ModEq.add_left _ (Nat.ModEq.mul_right _ (Nat.mod_modEq _ _))
        _ = r.toNat * (m.toNat * inv.toNat + 1) := by ring
        _ ≡ r.toNat * 0 [MOD 2^64] := Nat.ModEq.mul_left _ (by simpa [Nat.ModEq] using h)
        _ = 0 := by ring
    exact this
  omega

theorem mont_spec (ok : C.OK) (r0 r1 r2 r3 r4 r5 r6 r7 : U64) (T : ℕ)
    (hT : T = (⟨r0, r1, r2, r3⟩ : Limbs).toNat + 2^256 * (⟨r4, r5, r6, r7⟩ : Limbs).toNat)
    (hlt : T < 2^256 * C.modulus.toNat) :
    ∃ v K, (montgomeryReduce C r0 r1 r2 r3 r4 r5 r6 r7).toNat = v % C.modulus.toNat ∧
      2^256 * v = T + K * C.modulus.toNat := by
  have hinv := ok.inv
  have hsm := ok.small
  simp only [montgomeryReduce]
  have z : (0 : U64).toNat = 0 := rfl
  -- round 1
  have lz := mac_low r0 C.modulus.l0 C.inv hinv
  generalize r0 * C.inv = k0 at *
  have a0 := mac_spec r0 k0 C.modulus.l0 0
  generalize mac r0 k0 C.modulus.l0 0 = p0 at *
  have a1 := mac_spec r1 k0 C.modulus.l1 p0.2
  generalize mac r1 k0 C.modulus.l1 p0.2 = p1 at *
  have a2 := mac_spec r2 k0 C.modulus.l2 p1.2
  generalize mac r2 k0 C.modulus.l2 p1.2 = p2 at *
  have a3 := mac_spec r3 k0 C.modulus.l3 p2.2
  generalize mac r3 k0 C.modulus.l3 p2.2 = p3 at *
  have a4 := adc_spec r4 0 p3.2
  generalize adc r4 0 p3.2 = p4 at *
  rw [z] at a0 a4
  rw [lz] at a0
  have A : 2^64 * ((⟨p1.1, p2.1, p3.1, p4.1⟩ : Limbs).toNat + 2^256 * p4.2.toNat) =
      (⟨r0, r1, r2, r3⟩ : Limbs).toNat + 2^256 * r4.toNat + k0.toNat * C.modulus.toNat := by
    simp only [Limbs.toNat]
    zify at *
    linear_combination a0 + 2^64 * a1 + 2^128 * a2 + 2^192 * a3 + 2^256 * a4
  clear a0 a1 a2 a3 a4 lz
  -- round 2
  have lz := mac_low p1.1 C.modulus.l0 C.inv hinv
  generalize p1.1 * C.inv = k1 at *
  have a0 := mac_spec p1.1 k1 C.modulus.l0 0
  generalize mac p1.1 k1 C.modulus.l0 0 = q0 at *
  have a1 := mac_spec p2.1 k1 C.modulus.l1 q0.2
  generalize mac p2.1 k1 C.modulus.l1 q0.2 = q1 at *
  have a2 := mac_spec p3.1 k1 C.modulus.l2 q1.2
  generalize mac p3.1 k1 C.modulus.l2 q1.2 = q2 at *
  have a3 := mac_spec p4.1 k1 C.modulus.l3 q2.2
  generalize mac p4.1 k1 C.modulus.l3 q2.2 = q3 at *
  have a4 := adc_spec r5 p4.2 q3.2
  generalize adc r5 p4.2 q3.2 = q4 at *
  rw [z] at a0
  rw [lz] at a0
  have B : 2^64 * ((⟨q1.1, q2.1, q3.1, q4.1⟩ : Limbs).toNat + 2^256 * q4.2.toNat) =
      (⟨p1.1, p2.1, p3.1, p4.1⟩ : Limbs).toNat + 2^256 * p4.2.toNat + 2^256 * r5.toNat
        + k1.toNat * C.modulus.toNat := by
    simp only [Limbs.toNat]
    zify at *
    linear_combination a0 + 2^64 * a1 + 2^128 * a2 + 2^192 * a3 + 2^256 * a4
  clear a0 a1 a2 a3 a4 lz
  -- round 3
  have lz := mac_low q1.1 C.modulus.l0 C.inv hinv
  generalize q1.1 * C.inv = k2 at *
  have a0 := mac_spec q1.1 k2 C.modulus.l0 0
  generalize mac q1.1 k2 C.modulus.l0 0 = s0 at *
  have a1 := mac_spec q2.1 k2 C.modulus.l1 s0.2
  generalize mac q2.1 k2 C.modulus.l1 s0.2 = s1 at *
  have a2 := mac_spec q3.1 k2 C.modulus.l2 s1.2
  generalize mac q3.1 k2 C.modulus.l2 s1.2 = s2 at *
  have a3 := mac_spec q4.1 k2 C.modulus.l3 s2.2
  generalize mac q4.1 k2 C.modulus.l3 s2.2 = s3 at *
  have a4 := adc_spec r6 q4.2 s3.2
  generalize adc r6 q4.2 s3.2 = s4 at *
  rw [z] at a0
  rw [lz] at a0
  have D : 2^64 * ((⟨s1.1, s2.1, s3.1, s4.1⟩ : Limbs).toNat + 2^256 * s4.2.toNat) =
      (⟨q1.1, q2.1, q3.1, q4.1⟩ : Limbs).toNat + 2^256 * q4.2.toNat + 2^256 * r6.toNat
        + k2.toNat * C.modulus.toNat := by
    simp only [Limbs.toNat]
    zify at *
    linear_combination a0 + 2^64 * a1 + 2^128 * a2 + 2^192 * a3 + 2^256 * a4
  clear a0 a1 a2 a3 a4 lz
  -- round 4
  have lz := mac_low s1.1 C.modulus.l0 C.inv hinv
  generalize s1.1 * C.inv = k3 at *
  have a0 := mac_spec s1.1 k3 C.modulus.l0 0
  generalize mac s1.1 k3 C.modulus.l0 0 = t0 at *
  have a1 := mac_spec s2.1 k3 C.modulus.l1 t0.2
  generalize mac s2.1 k3 C.modulus.l1 t0.2 = t1 at *
  have a2 := mac_spec s3.1 k3 C.modulus.l2 t1.2
  generalize mac s3.1 k3 C.modulus.l2 t1.2 = t2 at *
  have a3 := mac_spec s4.1 k3 C.modulus.l3 t2.2
  generalize mac s4.1 k3 C.modulus.l3 t2.2 = t3 at *
  have a4 := adc_spec r7 s4.2 t3.2
  generalize adc r7 s4.2 t3.2 = t4 at *
  rw [z] at a0
  rw [lz] at a0
  have E : 2^64 * ((⟨t1.1, t2.1, t3.1, t4.1⟩ : Limbs).toNat + 2^256 * t4.2.toNat) =
      (⟨s1.1, s2.1, s3.1, s4.1⟩ : Limbs).toNat + 2^256 * s4.2.toNat + 2^256 * r7.toNat
        + k3.toNat * C.modulus.toNat := by
    simp only [Limbs.toNat]
    zify at *
    linear_combination a0 + 2^64 * a1 + 2^128 * a2 + 2^192 * a3 + 2^256 * a4
  clear a0 a1 a2 a3 a4 lz
  have lk0 := k0.isLt; have lk1 := k1.isLt; have lk2 := k2.isLt; have lk3 := k3.isLt
  obtain ⟨K, hK⟩ : ∃ K, K = k0.toNat + 2^64 * k1.toNat + 2^128 * k2.toNat + 2^192 * k3.toNat :=
    ⟨_, rfl⟩
  have hKlt : K < 2^256 := by omega
  have F : 2^256 * ((⟨t1.1, t2.1, t3.1, t4.1⟩ : Limbs).toNat + 2^256 * t4.2.toNat) =
      T + K * C.modulus.toNat := by
    rw [hT, hK]
    simp only [show (⟨r4, r5, r6, r7⟩ : Limbs).toNat =
      r4.toNat + 2^64 * r5.toNat + 2^128 * r6.toNat + 2^192 * r7.toNat from rfl]
    zify at *
    linear_combination A + 2^64 * B + 2^128 * D + 2^192 * E
  have hKM : K * C.modulus.toNat ≤ 2^256 * C.modulus.toNat :=
    Nat.mul_le_mul_right _ hKlt.le
  generalize hV : (⟨t1.1, t2.1, t3.1, t4.1⟩ : Limbs).toNat = V at *
  have hV2 : V + 2^256 * t4.2.toNat < 2 * C.modulus.toNat := by
    clear * - F hKM hlt
    generalize K * C.modulus.toNat = KM at *
    generalize C.modulus.toNat = M at *
    omega
  have hc : t4.2.toNat = 0 := by clear * - hV2 hsm; omega
  refine ⟨V, K, ?_, ?_⟩
  · rw [sub_modulus ok (by rw [hV]; omega), hV]
  · rw [hc] at F; simpa using F

theorem mul_limbs (a b : Limbs) :
    ∃ r0 r1 r2 r3 r4 r5 r6 r7, mul C a b = montgomeryReduce C r0 r1 r2 r3 r4 r5 r6 r7 ∧
      a.toNat * b.toNat =
        (⟨r0, r1, r2, r3⟩ : Limbs).toNat + 2^256 * (⟨r4, r5, r6, r7⟩ : Limbs).toNat := by
  simp only [mul]
  have z : (0 : U64).toNat = 0 := rfl
  have e00 := mac_spec 0 a.l0 b.l0 0
  generalize mac 0 a.l0 b.l0 0 = p0 at *
  have e01 := mac_spec 0 a.l0 b.l1 p0.2
  generalize mac 0 a.l0 b.l1 p0.2 = p1 at *
  have e02 := mac_spec 0 a.l0 b.l2 p1.2
  generalize mac 0 a.l0 b.l2 p1.2 = p2 at *
  have e03 := mac_spec 0 a.l0 b.l3 p2.2
  generalize mac 0 a.l0 b.l3 p2.2 = p3 at *
  have e10 := mac_spec p1.1 a.l1 b.l0 0
  generalize mac p1.1 a.l1 b.l0 0 = q0 at *
  have e11 := mac_spec p2.1 a.l1 b.l1 q0.2
  generalize mac p2.1 a.l1 b.l1 q0.2 = q1 at *
  have e12 := mac_spec p3.1 a.l1 b.l2 q1.2
  generalize mac p3.1 a.l1 b.l2 q1.2 = q2 at *
  have e13 := mac_spec p3.2 a.l1 b.l3 q2.2
  generalize mac p3.2 a.l1 b.l3 q2.2 = q3 at *
  have e20 := mac_spec q1.1 a.l2 b.l0 0
  generalize mac q1.1 a.l2 b.l0 0 = s0 at *
  have e21 := mac_spec q2.1 a.l2 b.l1 s0.2
  generalize mac q2.1 a.l2 b.l1 s0.2 = s1 at *
  have e22 := mac_spec q3.1 a.l2 b.l2 s1.2
  generalize mac q3.1 a.l2 b.l2 s1.2 = s2 at *
  have e23 := mac_spec q3.2 a.l2 b.l3 s2.2
  generalize mac q3.2 a.l2 b.l3 s2.2 = s3 at *
  have e30 := mac_spec s1.1 a.l3 b.l0 0
  generalize mac s1.1 a.l3 b.l0 0 = t0 at *
  have e31 := mac_spec s2.1 a.l3 b.l1 t0.2
  generalize mac s2.1 a.l3 b.l1 t0.2 = t1 at *
  have e32 := mac_spec s3.1 a.l3 b.l2 t1.2
  generalize mac s3.1 a.l3 b.l2 t1.2 = t2 at *
  have e33 := mac_spec s3.2 a.l3 b.l3 t2.2
  generalize mac s3.2 a.l3 b.l3 t2.2 = t3 at *
  refine ⟨_, _, _, _, _, _, _, _, rfl, ?_⟩
  rw [z] at e00 e01 e02 e03 e10 e20 e30
  simp only [Limbs.toNat]
  zify at *
  linear_combination -(e00 + 2^64 * e01 + 2^128 * e02 + 2^192 * e03
    + 2^64 * e10 + 2^128 * e11 + 2^192 * e12 + 2^256 * e13
    + 2^128 * e20 + 2^192 * e21 + 2^256 * e22 + 2^256*2^64 * e23
    + 2^192 * e30 + 2^256 * e31 + 2^256*2^64 * e32 + 2^256*2^128 * e33)

theorem shl1_or (h l : U64) : ((h <<< 1) ||| (l >>> 63)).toNat + 2^64 * (h >>> 63).toNat
    = 2 * h.toNat + (l >>> 63).toNat := by
  have e : (h <<< 1) ||| (l >>> 63) = (h <<< 1) + (l >>> 63) := by
    rw [BitVec.add_eq_or_of_and_eq_zero]
    ext i hi
    simp
    intro h1 _
    exact BitVec.getLsbD_of_ge _ _ (by omega)
  have hh := h.isLt; have hl := l.isLt
  rw [e]
  simp only [BitVec.toNat_add, BitVec.toNat_shiftLeft, BitVec.toNat_ushiftRight,
    Nat.shiftRight_eq_div_pow, Nat.shiftLeft_eq]
  omega


theorem square_limbs (a : Limbs) :
    ∃ r0 r1 r2 r3 r4 r5 r6 r7, square C a = montgomeryReduce C r0 r1 r2 r3 r4 r5 r6 r7 ∧
      a.toNat * a.toNat =
        (⟨r0, r1, r2, r3⟩ : Limbs).toNat + 2^256 * (⟨r4, r5, r6, r7⟩ : Limbs).toNat := by
  simp only [square]
  have z : (0 : U64).toNat = 0 := rfl
  have e1 := mac_spec 0 a.l0 a.l1 0
  generalize mac 0 a.l0 a.l1 0 = p1 at *
  have e2 := mac_spec 0 a.l0 a.l2 p1.2
  generalize mac 0 a.l0 a.l2 p1.2 = p2 at *
  have e3 := mac_spec 0 a.l0 a.l3 p2.2
  generalize mac 0 a.l0 a.l3 p2.2 = p3 at *
  have f3 := mac_spec p3.1 a.l1 a.l2 0
  generalize mac p3.1 a.l1 a.l2 0 = q3 at *
  have f4 := mac_spec p3.2 a.l1 a.l3 q3.2
  generalize mac p3.2 a.l1 a.l3 q3.2 = q4 at *
  have f5 := mac_spec q4.2 a.l2 a.l3 0
  generalize mac q4.2 a.l2 a.l3 0 = q5 at *
  -- doubled words
  have g6 := shl1_or q5.2 q5.1
  have g5 := shl1_or q5.1 q4.1
  have g4 := shl1_or q4.1 q3.1
  have g3 := shl1_or q3.1 p2.1
  have g2 := shl1_or p2.1 p1.1
  have g1 : (p1.1 <<< 1).toNat + 2^64 * (p1.1 >>> 63).toNat = 2 * p1.1.toNat := by
    have := shl1_or p1.1 0
    simpa using this
  generalize hx7 : q5.2 >>> 63 = x7 at *
  generalize q5.2 <<< 1 ||| q5.1 >>> 63 = x6 at *
  generalize q5.1 <<< 1 ||| q4.1 >>> 63 = x5 at *
  generalize q4.1 <<< 1 ||| q3.1 >>> 63 = x4 at *
  generalize q3.1 <<< 1 ||| p2.1 >>> 63 = x3 at *
  generalize p2.1 <<< 1 ||| p1.1 >>> 63 = x2 at *
  generalize p1.1 <<< 1 = x1 at *
  have h0 := mac_spec 0 a.l0 a.l0 0
  generalize mac 0 a.l0 a.l0 0 = s0 at *
  have h1 := adc_spec 0 x1 s0.2
  generalize adc 0 x1 s0.2 = s1 at *
  have h2 := mac_spec x2 a.l1 a.l1 s1.2
  generalize mac x2 a.l1 a.l1 s1.2 = s2 at *
  have h3 := adc_spec 0 x3 s2.2
  generalize adc 0 x3 s2.2 = s3 at *
  have h4 := mac_spec x4 a.l2 a.l2 s3.2
  generalize mac x4 a.l2 a.l2 s3.2 = s4 at *
  have h5 := adc_spec 0 x5 s4.2
  generalize adc 0 x5 s4.2 = s5 at *
  have h6 := mac_spec x6 a.l3 a.l3 s5.2
  generalize mac x6 a.l3 a.l3 s5.2 = s6 at *
  have h7 := adc_spec 0 x7 s6.2
  generalize adc 0 x7 s6.2 = s7 at *
  refine ⟨_, _, _, _, _, _, _, _, rfl, ?_⟩
  rw [z] at e1 e2 e3 f3 f5 h0 h1 h3 h5 h7
  -- the full identity with the dropped carry
  have full : a.toNat * a.toNat =
      (⟨s0.1, s1.1, s2.1, s3.1⟩ : Limbs).toNat + 2^256 * (⟨s4.1, s5.1, s6.1, s7.1⟩ : Limbs).toNat
      + 2^256 * 2^256 * s7.2.toNat := by
    simp only [Limbs.toNat]
    zify at *
    linear_combination -(h0 + 2^64 * h1 + 2^128 * h2 + 2^192 * h3 + 2^256 * h4
      + 2^256*2^64 * h5 + 2^256*2^128 * h6 + 2^256*2^192 * h7
      + 2^64 * g1 + 2^128 * g2 + 2^192 * g3 + 2^256 * g4 + 2^256*2^64 * g5 + 2^256*2^128 * g6
      + 2 * (2^64 * e1 + 2^128 * e2 + 2^192 * e3 + 2^192 * f3 + 2^256 * f4 + 2^256*2^64 * f5))
  have hlt : a.toNat * a.toNat < 2^256 * 2^256 := Nat.mul_lt_mul'' a.toNat_lt a.toNat_lt
  have hz : s7.2.toNat = 0 := by
    clear * - full hlt
    by_contra hne
    have : 2^256 * 2^256 * 1 ≤ 2^256 * 2^256 * s7.2.toNat := Nat.mul_le_mul_left _ (by omega)
    omega
  rw [full, hz]
  simp

/-- Multiplication of any 256-bit `a` by `b` whose product is below `2^256 * m`. -/
theorem mul_spec (ok : C.OK) {a b : Limbs} (h : a.toNat * b.toNat < 2^256 * C.modulus.toNat) :
    (mul C a b).toNat < C.modulus.toNat ∧
      2^256 * (mul C a b).toNat ≡ a.toNat * b.toNat [MOD C.modulus.toNat] := by
  obtain ⟨r0, r1, r2, r3, r4, r5, r6, r7, e, hT⟩ := mul_limbs (C := C) a b
  obtain ⟨v, K, hv, hK⟩ := mont_spec ok r0 r1 r2 r3 r4 r5 r6 r7 _ hT h
  have hp := ok.pos
  rw [e, hv]
  refine ⟨Nat.mod_lt _ (by omega), ?_⟩
  have h1 : 2^256 * (v % C.modulus.toNat) ≡ 2^256 * v [MOD C.modulus.toNat] :=
    Nat.ModEq.mul_left _ (Nat.mod_modEq _ _)
  refine h1.trans ?_
  rw [hK]
  exact Nat.add_mul_mod_self_right _ _ _

theorem square_spec (ok : C.OK) {a : Limbs} (h : a.toNat * a.toNat < 2^256 * C.modulus.toNat) :
    (square C a).toNat < C.modulus.toNat ∧
      2^256 * (square C a).toNat ≡ a.toNat * a.toNat [MOD C.modulus.toNat] := by
  obtain ⟨r0, r1, r2, r3, r4, r5, r6, r7, e, hT⟩ := square_limbs (C := C) a
  obtain ⟨v, K, hv, hK⟩ := mont_spec ok r0 r1 r2 r3 r4 r5 r6 r7 _ hT h
  have hp := ok.pos
  rw [e, hv]
  refine ⟨Nat.mod_lt _ (by omega), ?_⟩
  have h1 : 2^256 * (v % C.modulus.toNat) ≡ 2^256 * v [MOD C.modulus.toNat] :=
    Nat.ModEq.mul_left _ (Nat.mod_modEq _ _)
  refine h1.trans ?_
  rw [hK]
  exact Nat.add_mul_mod_self_right _ _ _

theorem toCanonical_spec (ok : C.OK) (a : Limbs) :
    (toCanonical C a).toNat < C.modulus.toNat ∧
      2^256 * (toCanonical C a).toNat ≡ a.toNat [MOD C.modulus.toNat] := by
  have hp := ok.pos
  have hlt := a.toNat_lt
  obtain ⟨v, K, hv, hK⟩ := mont_spec ok a.l0 a.l1 a.l2 a.l3 0 0 0 0 a.toNat
    (by simp [Limbs.toNat]) (by omega)
  rw [toCanonical, hv]
  refine ⟨Nat.mod_lt _ (by omega), ?_⟩
  have h1 : 2^256 * (v % C.modulus.toNat) ≡ 2^256 * v [MOD C.modulus.toNat] :=
    Nat.ModEq.mul_left _ (Nat.mod_modEq _ _)
  refine h1.trans ?_
  rw [hK]
  exact Nat.add_mul_mod_self_right _ _ _

end Fe
end Halo
