import Verif.Lemmas.CurveOrder
import Verif.Lemmas.FieldInst
/-!
# `Ec0` and `Ec1`: concrete facts
-/
namespace Halo
open WeierstrassCurve.Affine
variable {F : Type} [Field F] [LawfulField F]

theorem cast_pow_powMod {fuel a e : ℕ} (he : e < 2 ^ fuel) :
    (a : F) ^ e = ((powMod fuel a e (modulus F) : ℕ) : F) := by
  have h := powMod_spec fuel a e (modulus F) he
  have h2 : ((a ^ e : ℕ) : ZMod (modulus F)) = ((powMod fuel a e (modulus F) : ℕ) : ZMod (modulus F)) := by
    rw [h, Nat.cast_pow]
  rw [ZMod.natCast_eq_natCast_iff'] at h2
  have := (LawfulField.cast_eq_iff (F := F) _ _).2 h2
  rw [← this, Nat.cast_pow]

/-- Which base field goes with which curve: `Ec0` over the field with modulus `q` (`ec0.rs:44-46`),
`Ec1` over the field with modulus `p` (`ec1.rs:44-46`). The last argument is the order, the modulus of
the scalar field. -/
inductive IsHaloCurve : CurveConsts → ℕ → ℕ → Prop
  | ec0 : IsHaloCurve ec0 Q P
  | ec1 : IsHaloCurve ec1 P Q

namespace IsHaloCurve
variable {E : CurveConsts} {m n : ℕ}

theorem cube_check (h : IsHaloCurve E m n) :
    m % 3 = 1 ∧ powMod 256 (m - E.b) ((m - 1) / 3) m ≠ 1 ∧ E.b < m ∧ 2 * m + 1 < 3 * n ∧
    n < 2 ^ 255 ∧ E.threeB = 3 * E.b ∧ E.gy * E.gy % m = 1 + E.b ∧ 1 + E.b < m := by
  cases h <;> decide +kernel

theorem nonsquare_check (h : IsHaloCurve E m n) :
    powMod 256 E.b ((m - 1) / 2) m = m - 1 := by
  cases h <;> decide +kernel

theorem prime_n (h : IsHaloCurve E m n) : n.Prime := by
  cases h
  · exact prime_P
  · exact prime_Q

theorem prime_m (h : IsHaloCurve E m n) : m.Prime := by
  cases h
  · exact prime_Q
  · exact prime_P

theorem good (h : IsHaloCurve E m n) (hm : modulus F = m) : GoodCurve F E := by
  obtain ⟨h3, hc, hb, -, -, ht, -, -⟩ := h.cube_check
  have hmb := (LawfulField.modulus_bound (F := F)).2
  refine ⟨ht, LawfulField.two_ne_zero, ?_⟩
  intro x hx
  have hx3 : x ^ 3 = ((m - E.b : ℕ) : F) := by
    rw [Nat.cast_sub hb.le, ← hm, LawfulField.cast_modulus]; linear_combination hx
  have hx0 : x ≠ 0 := by
    rintro rfl
    rw [zero_pow (by norm_num), ← Nat.cast_zero, LawfulField.cast_eq_iff, hm, Nat.zero_mod] at hx3
    have hlt : m - E.b < m := by
      have : 0 < E.b := by cases h <;> decide
      omega
    rw [Nat.mod_eq_of_lt hlt] at hx3
    omega
  have h1 := LawfulField.pow_card_sub_one hx0
  have he : modulus F - 1 = 3 * ((m - 1) / 3) := by rw [hm]; omega
  rw [he, pow_mul, hx3, cast_pow_powMod (fuel := 256) (by
    rw [hm] at hmb
    have : (m - 1) / 3 ≤ m := (Nat.div_le_self _ _).trans (Nat.sub_le _ _)
    have h256 : (2:ℕ) ^ 255 < 2 ^ 256 := by norm_num
    omega)] at h1
  rw [← Nat.cast_one (R := F), LawfulField.cast_eq_iff, hm] at h1
  apply hc
  have hlt : powMod 256 (m - E.b) ((m - 1) / 3) m < m := powMod_lt _ _ _ _ (by omega)
  rw [Nat.mod_eq_of_lt hlt, Nat.mod_eq_of_lt (by have := h.prime_m.one_lt; omega)] at h1
  exact h1

theorem b_nonsquare (h : IsHaloCurve E m n) (hm : modulus F = m) : ¬ IsSquare (E.b : F) := by
  rintro ⟨y, hy⟩
  obtain ⟨-, -, hb, -, -, -, -, -⟩ := h.cube_check
  have hmb := LawfulField.modulus_bound (F := F)
  have hb0 : 0 < E.b := by cases h <;> decide
  have hy0 : y ≠ 0 := by
    rintro rfl
    rw [mul_zero, ← Nat.cast_zero, LawfulField.cast_eq_iff, hm, Nat.zero_mod,
      Nat.mod_eq_of_lt hb] at hy
    omega
  have h1 := LawfulField.pow_card_sub_one hy0
  have hodd := LawfulField.modulus_odd (F := F)
  rw [hm] at hodd hmb
  have he : modulus F - 1 = 2 * ((m - 1) / 2) := by rw [hm]; omega
  rw [he, pow_mul, pow_two, ← hy, cast_pow_powMod (fuel := 256) (by
    have : (m - 1) / 2 ≤ m := (Nat.div_le_self _ _).trans (Nat.sub_le _ _)
    have h256 : (2:ℕ) ^ 255 < 2 ^ 256 := by norm_num
    omega)] at h1
  rw [hm, h.nonsquare_check, ← Nat.cast_one (R := F), LawfulField.cast_eq_iff, hm,
    Nat.mod_eq_of_lt (by omega), Nat.mod_eq_of_lt (by omega)] at h1
  omega

/-- the generator as an integer triple -/
def genN (E : CurveConsts) : Proj ℕ := ⟨1, E.gy, 1⟩

theorem gen_check (h : IsHaloCurve E m n) :
    (nmul m E.threeB (genN E) (bitsBE n 255) ⟨0, 1, 0⟩).z = 0 := by
  cases h <;> decide +kernel

variable [DecidableEq F]

omit [DecidableEq F] in
theorem gen_nonsing (h : IsHaloCurve E m n) (hm : modulus F = m) :
    (shortW (E.b : F)).toAffine.Nonsingular 1 (E.gy : F) := by
  have g := h.good hm
  obtain ⟨-, -, -, -, -, -, hg, hlt⟩ := h.cube_check
  refine nonsingular_short g.no_two_torsion g.two_ne ?_
  have : ((E.gy * E.gy : ℕ) : F) = ((1 + E.b : ℕ) : F) := by
    rw [LawfulField.cast_eq_iff, hm, hg, Nat.mod_eq_of_lt hlt]
  push_cast at this
  rw [pow_two, this]; ring

/-- the generator `one()` as a group element -/
def gen (h : IsHaloCurve E m n) (hm : modulus F = m) : Pt (E.b : F) :=
  Point.some 1 (E.gy : F) (h.gen_nonsing hm)

omit [DecidableEq F] in
theorem denotes_one (h : IsHaloCurve E m n) (hm : modulus F = m) :
    Denotes (E.b : F) (Proj.one E) (h.gen hm) := by
  apply denotes_some <;> simp [Proj.one]

theorem gen_order (h : IsHaloCurve E m n) (hm : modulus F = m) : n • (h.gen hm : Pt (E.b : F)) = 0 := by
  have g := h.good hm
  have hP : Denotes (E.b : F) (castP F (genN E)) (h.gen hm) := by
    have : castP F (genN E) = Proj.one E := by simp [castP, genN, Proj.one]
    rw [this]; exact h.denotes_one hm
  have := nmul_denotes g hP n h.cube_check.2.2.2.2.1
  rw [hm] at this
  have hz := h.gen_check
  generalize nmul m E.threeB (genN E) (bitsBE n 255) ⟨0, 1, 0⟩ = R at *
  have hz' : (castP F R).z = 0 := by simp [castP, hz]
  generalize castP F R = R' at *
  generalize n • (h.gen hm : Pt (E.b : F)) = A at *
  cases this with
  | zero => rfl
  | some hz n => exact absurd hz' hz

theorem card (h : IsHaloCurve E m n) (hm : modulus F = m) : Nat.card (Pt (E.b : F)) = n :=
  card_pt (h.good hm) h.prime_n (by rw [hm]; exact h.cube_check.2.2.2.1)
    (Point.some_ne_zero (h.gen_nonsing hm)) (h.gen_order hm)

theorem nsmul_order (h : IsHaloCurve E m n) (hm : modulus F = m) (A : Pt (E.b : F)) : n • A = 0 := by
  have := finite_pt (E.b : F)
  rw [← h.card hm (F := F)]
  exact card_nsmul_eq_zero'

theorem addOrderOf_eq (h : IsHaloCurve E m n) (hm : modulus F = m) {A : Pt (E.b : F)} (hA : A ≠ 0) :
    addOrderOf A = n := by
  have : Fact n.Prime := ⟨h.prime_n⟩
  exact addOrderOf_eq_prime (h.nsmul_order hm A) hA

theorem generates (h : IsHaloCurve E m n) (hm : modulus F = m) {A : Pt (E.b : F)} (hA : A ≠ 0)
    (B : Pt (E.b : F)) : ∃ k < n, k • A = B := by
  have hfin := finite_pt (E.b : F)
  have hcard := h.card hm (F := F)
  have : Fact n.Prime := ⟨h.prime_n⟩
  have hmem : B ∈ AddSubgroup.zmultiples A := by
    rw [zmultiples_eq_top_of_prime_card hcard hA]; trivial
  rw [← mem_multiples_iff_mem_zmultiples] at hmem
  obtain ⟨k, hk⟩ := hmem
  refine ⟨k % n, Nat.mod_lt _ h.prime_n.pos, ?_⟩
  rw [← hk]
  conv_rhs => rw [← Nat.div_add_mod k n]
  simp only
  rw [add_nsmul, mul_nsmul', h.nsmul_order hm, zero_add]

end IsHaloCurve
end Halo
