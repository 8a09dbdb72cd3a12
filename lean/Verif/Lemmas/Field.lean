import Verif.Spec.Field
import Verif.Lemmas.Limbs
import Verif.Lemmas.Primes
import Mathlib.Data.ZMod.Coprime
import Mathlib.FieldTheory.Finite.Basic
/-!
# The limb code represents `ZMod m`
-/
namespace Halo

theorem fp_ok : fpConsts.OK := by
  constructor <;> decide +kernel
theorem fq_ok : fqConsts.OK := by
  constructor <;> decide +kernel

theorem fp_m : fpConsts.m = P := by decide +kernel
theorem fq_m : fqConsts.m = Q := by decide +kernel

theorem prime_P : P.Prime := prime_modP
theorem prime_Q : Q.Prime := prime_modQ

instance fact_prime_P : Fact P.Prime := ⟨prime_P⟩
instance fact_prime_Q : Fact Q.Prime := ⟨prime_Q⟩
instance fact_prime_fp : Fact fpConsts.m.Prime := ⟨fp_m ▸ prime_P⟩
instance fact_prime_fq : Fact fqConsts.m.Prime := ⟨fq_m ▸ prime_Q⟩

namespace IsHaloField
theorem ok {C : Consts} (h : IsHaloField C) : C.OK := by
  cases h
  · exact fp_ok
  · exact fq_ok
theorem prime {C : Consts} (h : IsHaloField C) : C.m.Prime := by
  cases h
  · exact fact_prime_fp.out
  · exact fact_prime_fq.out
end IsHaloField

namespace Fe
variable {C : Consts}

theorem m_pos (ok : C.OK) : 0 < C.modulus.toNat := lt_trans Nat.zero_lt_one ok.pos

theorem m_lt (ok : C.OK) : C.modulus.toNat < 2^256 := by
  have := ok.small; omega

theorem OK_odd (ok : C.OK) : C.m % 2 = 1 := by
  have h := ok.inv
  have hz : C.m % 2 = C.modulus.l0.toNat % 2 := by
    simp only [Consts.m, Limbs.toNat]; omega
  rw [hz]
  by_contra hne
  have h0 : C.modulus.l0.toNat % 2 = 0 := by omega
  have : (C.modulus.l0.toNat * C.inv.toNat) % 2 = 0 := by
    rw [Nat.mul_mod, h0]; simp
  generalize C.modulus.l0.toNat * C.inv.toNat = X at *
  omega

theorem coprime_R (ok : C.OK) : Nat.Coprime (2^256) C.m := by
  apply Nat.Coprime.pow_left
  rw [Nat.coprime_two_left]
  exact Nat.odd_iff.2 (OK_odd ok)

theorem R_unit (ok : C.OK) : IsUnit ((2 : ZMod C.m) ^ 256) := by
  have := (ZMod.isUnit_iff_coprime (2^256) C.m).2 (coprime_R ok)
  rwa [Nat.cast_pow, Nat.cast_ofNat] at this

theorem R_cancel (ok : C.OK) {x y : ZMod C.m} (h : x * 2^256 = y * 2^256) : x = y :=
  (R_unit ok).mul_right_cancel h

theorem rep_unique (ok : C.OK) {a : Limbs} {x y : ZMod C.m}
    (h1 : Represents C a x) (h2 : Represents C a y) : x = y :=
  R_cancel ok (h1.2.symm.trans h2.2)

theorem rep_inj {a b : Limbs} {x : ZMod C.m}
    (h1 : Represents C a x) (h2 : Represents C b x) : a = b := by
  apply Limbs.toNat_inj
  have h := h1.2.trans h2.2.symm
  rw [ZMod.natCast_eq_natCast_iff', Nat.mod_eq_of_lt h1.1, Nat.mod_eq_of_lt h2.1] at h
  exact h

/-- the limbs of a number -/
def limbsOf (n : ℕ) : Limbs :=
  ⟨BitVec.ofNat 64 n, BitVec.ofNat 64 (n / 2^64), BitVec.ofNat 64 (n / 2^128),
    BitVec.ofNat 64 (n / 2^192)⟩

theorem limbsOf_toNat {n : ℕ} (h : n < 2^256) : (limbsOf n).toNat = n := by
  simp only [limbsOf, Limbs.toNat, BitVec.toNat_ofNat]
  omega

theorem rep_exists (ok : C.OK) (x : ZMod C.m) : ∃ a, Represents C a x := by
  have : NeZero C.m := ⟨(m_pos ok).ne'⟩
  refine ⟨limbsOf (x * 2^256).val, ?_⟩
  have hlt : (x * 2^256).val < C.m := ZMod.val_lt _
  have hs := hlt.trans (m_lt ok)
  constructor
  · rw [limbsOf_toNat hs]; exact hlt
  · rw [limbsOf_toNat hs]; simp

/-- any reduced limb value represents something -/
theorem canon_rep (ok : C.OK) {a : Limbs} (h : a.toNat < C.m) : ∃ x, Represents C a x := by
  obtain ⟨u, hu⟩ := R_unit ok
  refine ⟨(a.toNat : ZMod C.m) * ↑u⁻¹, h, ?_⟩
  rw [← hu, mul_assoc, Units.inv_mul, mul_one]

theorem rep_zero (ok : C.OK) : Represents C zero 0 := by
  constructor
  · exact m_pos ok
  · simp [zero, Limbs.toNat]

theorem rep_one (ok : C.OK) : Represents C (one C) 1 := by
  constructor
  · simp only [one, ok.r]; exact Nat.mod_lt _ (m_pos ok)
  · simp only [one, ok.r, ZMod.natCast_mod]; rw [Nat.cast_pow, Nat.cast_ofNat, one_mul]

theorem rep_add (ok : C.OK) {a b : Limbs} {x y : ZMod C.m}
    (ha : Represents C a x) (hb : Represents C b y) : Represents C (add C a b) (x + y) := by
  have h := add_canon ok ha.1 hb.1
  refine ⟨by rw [h]; exact Nat.mod_lt _ (m_pos ok), ?_⟩
  rw [h, ZMod.natCast_mod, Nat.cast_add, ha.2, hb.2, add_mul]

theorem rep_sub (ok : C.OK) {a b : Limbs} {x y : ZMod C.m}
    (ha : Represents C a x) (hb : Represents C b y) : Represents C (sub C a b) (x - y) := by
  have h := sub_canon ok ha.1 hb.1
  refine ⟨by rw [h]; exact Nat.mod_lt _ (m_pos ok), ?_⟩
  rw [h, ZMod.natCast_mod, Nat.cast_sub (hb.1.le.trans (Nat.le_add_left _ _)), Nat.cast_add, ha.2, hb.2, ZMod.natCast_self]
  ring

theorem rep_neg (ok : C.OK) {a : Limbs} {x : ZMod C.m}
    (ha : Represents C a x) : Represents C (neg C a) (-x) := by
  have h := neg_canon (C := C) (a := a) ha.1
  refine ⟨by rw [h]; exact Nat.mod_lt _ (m_pos ok), ?_⟩
  rw [h, ZMod.natCast_mod, Nat.cast_sub ha.1.le, ha.2, ZMod.natCast_self]
  ring

theorem mul_core (ok : C.OK) {a b : Limbs} (h : a.toNat * b.toNat < 2^256 * C.modulus.toNat) :
    (mul C a b).toNat < C.m ∧
      ((mul C a b).toNat : ZMod C.m) * 2^256 = (a.toNat : ZMod C.m) * b.toNat := by
  obtain ⟨h1, h2⟩ := mul_spec ok h
  refine ⟨h1, ?_⟩
  have := (ZMod.natCast_eq_natCast_iff _ _ _).2 h2
  rw [Nat.cast_mul, Nat.cast_mul, Nat.cast_pow, Nat.cast_ofNat, mul_comm] at this
  exact this

theorem rep_mul (ok : C.OK) {a b : Limbs} {x y : ZMod C.m}
    (ha : Represents C a x) (hb : Represents C b y) : Represents C (mul C a b) (x * y) := by
  have hb1 := hb.1
  have ha1 := a.toNat_lt
  obtain ⟨h1, h2⟩ := mul_core ok (a := a) (b := b) (by
    apply Nat.mul_lt_mul'' ha1 hb1)
  refine ⟨h1, R_cancel ok ?_⟩
  rw [h2, ha.2, hb.2]; ring

theorem rep_square (ok : C.OK) {a : Limbs} {x : ZMod C.m}
    (ha : Represents C a x) : Represents C (square C a) (x * x) := by
  obtain ⟨h1, h2⟩ := square_spec ok (a := a) (Nat.mul_lt_mul'' a.toNat_lt ha.1)
  refine ⟨h1, R_cancel ok ?_⟩
  have := (ZMod.natCast_eq_natCast_iff _ _ _).2 h2
  rw [Nat.cast_mul, Nat.cast_mul, Nat.cast_pow, Nat.cast_ofNat, mul_comm] at this
  rw [this, ha.2]; ring

theorem r2_lt (ok : C.OK) : C.r2.toNat < C.m := by
  rw [ok.r2]; exact Nat.mod_lt _ (m_pos ok)
theorem r3_lt (ok : C.OK) : C.r3.toNat < C.m := by
  rw [ok.r3]; exact Nat.mod_lt _ (m_pos ok)

/-- multiplication of an arbitrary 256-bit integer by `R2` -/
theorem rep_mul_r2 (ok : C.OK) (a : Limbs) : Represents C (mul C a C.r2) (a.toNat : ZMod C.m) := by
  obtain ⟨h1, h2⟩ := mul_core ok (a := a) (b := C.r2) (Nat.mul_lt_mul'' a.toNat_lt (r2_lt ok))
  refine ⟨h1, R_cancel ok ?_⟩
  rw [h2, ok.r2, ZMod.natCast_mod, mul_assoc]
  rw [Nat.cast_pow, Nat.cast_ofNat]
  rw [← pow_add]

theorem rep_mul_r3 (ok : C.OK) (a : Limbs) :
    Represents C (mul C a C.r3) (2^256 * (a.toNat : ZMod C.m)) := by
  obtain ⟨h1, h2⟩ := mul_core ok (a := a) (b := C.r3) (Nat.mul_lt_mul'' a.toNat_lt (r3_lt ok))
  refine ⟨h1, R_cancel ok ?_⟩
  rw [h2, ok.r3, ZMod.natCast_mod]
  rw [Nat.cast_pow, Nat.cast_ofNat]
  have : (2 : ZMod C.m)^768 = 2^256 * 2^256 * 2^256 := by rw [← pow_add, ← pow_add]
  rw [this]; ring

theorem ctEq_iff (a b : Limbs) : ctEq a b = true ↔ a = b := by
  cases a; cases b; simp [ctEq, and_assoc]

theorem ctEq_rep (ok : C.OK) {a b : Limbs} {x y : ZMod C.m}
    (ha : Represents C a x) (hb : Represents C b y) : ctEq a b = true ↔ x = y := by
  rw [ctEq_iff]
  constructor
  · rintro rfl; exact rep_unique ok ha hb
  · rintro rfl; exact rep_inj ha hb

theorem isZero_rep (ok : C.OK) {a : Limbs} {x : ZMod C.m} (ha : Represents C a x) :
    isZero a = true ↔ x = 0 := ctEq_rep ok ha (rep_zero ok)

theorem rep_select {a b : Limbs} {x y : ZMod C.m}
    (ha : Represents C a x) (hb : Represents C b y) (c : Bool) :
    Represents C (conditionalSelect a b c) (if c then y else x) := by
  cases c <;> simpa [conditionalSelect]

/-! ## exponentiation -/

/-- big-endian bits to a number, starting from `acc` -/
def bitsVal (bits : List Bool) (acc : ℕ) : ℕ := bits.foldl (fun n b => 2 * n + b.toNat) acc

theorem rep_pow_fold (ok : C.OK) {a : Limbs} {x : ZMod C.m} (ha : Represents C a x)
    (bits : List Bool) (res : Limbs) (n : ℕ) (hres : Represents C res (x ^ n)) :
    Represents C (bits.foldl (fun res bit =>
      let res := square C res
      if bit then mul C res a else res) res) (x ^ bitsVal bits n) := by
  induction bits generalizing res n with
  | nil => simpa [bitsVal]
  | cons b bits ih =>
    simp only [List.foldl_cons, bitsVal] at ih ⊢
    apply ih
    cases b
    · simpa [two_mul, pow_add] using rep_square ok hres
    · have := rep_mul ok (rep_square ok hres) ha
      simpa [two_mul, pow_add] using this

theorem wordBits_val (e : U64) (acc : ℕ) :
    bitsVal ((List.range 64).reverse.map fun i => ((e >>> i) &&& 1) == 1) acc
      = 2^64 * acc + e.toNat := by
  have key : ∀ k, k ≤ 64 → ∀ acc, bitsVal ((List.range k).reverse.map
      fun i => ((e >>> i) &&& 1) == 1) acc = 2^k * acc + e.toNat % 2^k := by
    intro k
    induction k with
    | zero => intro _ acc; simp [bitsVal, Nat.mod_one]
    | succ k ih =>
      intro hk acc
      rw [List.range_succ, List.reverse_append]
      simp only [List.reverse_cons, List.reverse_nil, List.nil_append, List.singleton_append,
        List.map_cons]
      have := ih (by omega) (2 * acc + (((e >>> k) &&& 1) == 1).toNat)
      simp only [bitsVal, List.foldl_cons] at this ⊢
      rw [this]
      have hb : (((e >>> k) &&& 1) == 1).toNat = e.toNat / 2^k % 2 := by
        have h1 : ((e >>> k) &&& 1).toNat = e.toNat / 2^k % 2 := by
          rw [BitVec.toNat_and, BitVec.toNat_ushiftRight, Nat.shiftRight_eq_div_pow]
          exact Nat.and_one_is_mod _
        by_cases h : e.toNat / 2^k % 2 = 1
        · have : ((e >>> k) &&& 1) = 1 := BitVec.eq_of_toNat_eq (by rw [h1, h]; rfl)
          rw [this, h]; rfl
        · have h0 : e.toNat / 2^k % 2 = 0 := by omega
          have : ((e >>> k) &&& 1) = 0 := BitVec.eq_of_toNat_eq (by rw [h1, h0]; rfl)
          rw [this, h0]; rfl
      rw [hb, pow_succ, Nat.mod_mul]
      ring
  have h := key 64 le_rfl acc
  rwa [Nat.mod_eq_of_lt e.isLt] at h

theorem expBits_val (e : Limbs) : bitsVal (expBits e) 0 = e.toNat := by
  simp only [expBits, List.flatMap_cons, List.flatMap_nil, List.append_nil]
  have app : ∀ l1 l2 : List Bool, ∀ n, bitsVal (l1 ++ l2) n = bitsVal l2 (bitsVal l1 n) := by
    intro l1 l2 n; simp [bitsVal, List.foldl_append]
  simp only [app, wordBits_val, Limbs.toNat]
  ring

theorem rep_powVartime (ok : C.OK) {a : Limbs} {x : ZMod C.m} (ha : Represents C a x) (e : Limbs) :
    Represents C (powVartime C a e) (x ^ e.toNat) := by
  have := rep_pow_fold ok ha (expBits e) (one C) 0 (by simpa using rep_one ok)
  rwa [expBits_val] at this

theorem pow_eq_powVartime (a e : Limbs) : pow C a e = powVartime C a e := by
  simp only [pow, powVartime, conditionalSelect]

end Fe
end Halo
