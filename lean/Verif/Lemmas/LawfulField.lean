import Verif.Spec.FieldApi
import Verif.Lemmas.Pratt
import Mathlib.FieldTheory.Finite.Basic
/-!
# Consequences of `LawfulField`
-/
namespace Halo
namespace LawfulField
variable {F : Type} [Field F] [LawfulField F]

theorem val_inj : Function.Injective (val : F → ℕ) := by
  intro a b h
  rw [← val_cast a, ← val_cast b, h]

theorem modulus_pos : 0 < modulus F := (prime (F := F)).pos

theorem cast_modulus : ((modulus F : ℕ) : F) = 0 := by
  apply val_inj
  rw [val_natCast, Nat.mod_self]
  have := val_natCast (F := F) 0
  rw [Nat.cast_zero] at this
  rw [this, Nat.zero_mod]

theorem val_zero : val (0 : F) = 0 := by
  have := val_natCast (F := F) 0
  rwa [Nat.cast_zero, Nat.zero_mod] at this

theorem val_of_lt {n : ℕ} (h : n < modulus F) : val (n : F) = n := by
  rw [val_natCast, Nat.mod_eq_of_lt h]

theorem cast_mod (n : ℕ) : ((n % modulus F : ℕ) : F) = (n : F) := by
  apply val_inj; rw [val_natCast, val_natCast, Nat.mod_mod]

theorem cast_eq_iff (a b : ℕ) : (a : F) = (b : F) ↔ a % modulus F = b % modulus F := by
  constructor
  · intro h; rw [← val_natCast (F := F), ← val_natCast (F := F), h]
  · intro h; rw [← cast_mod a, ← cast_mod b, h]

theorem charP : CharP F (modulus F) where
  cast_eq_zero_iff n := by
    rw [← Nat.cast_zero, cast_eq_iff, Nat.zero_mod, Nat.dvd_iff_mod_eq_zero]

/-- elements and their canonical integers -/
def equivFin : F ≃ Fin (modulus F) where
  toFun a := ⟨val a, val_lt a⟩
  invFun i := (i.val : F)
  left_inv a := val_cast a
  right_inv i := by apply Fin.ext; exact val_of_lt i.isLt

/-- the field is finite -/
@[instance_reducible] noncomputable def fintype : Fintype F := Fintype.ofEquiv _ equivFin.symm

theorem card_eq : Nat.card F = modulus F := by
  rw [Nat.card_congr (equivFin (F := F)), Nat.card_eq_fintype_card, Fintype.card_fin]

theorem finite : Finite F := Finite.of_equiv _ equivFin.symm

theorem pow_card_sub_one {a : F} (h : a ≠ 0) : a ^ (modulus F - 1) = 1 := by
  let _ := fintype (F := F)
  have := FiniteField.pow_card_sub_one_eq_one a h
  rwa [← Nat.card_eq_fintype_card, card_eq] at this

theorem val_add (a b : F) : val (a + b) = (val a + val b) % modulus F := by
  rw [← val_natCast (F := F), Nat.cast_add, val_cast, val_cast]

theorem val_mul (a b : F) : val (a * b) = (val a * val b) % modulus F := by
  rw [← val_natCast (F := F), Nat.cast_mul, val_cast, val_cast]

theorem val_neg {a : F} (h : a ≠ 0) : val (-a) = modulus F - val a := by
  have hlt := val_lt a
  have h0 : val a ≠ 0 := fun hh => h (val_inj (by rw [hh, val_zero]))
  have : (-a : F) = ((modulus F - val a : ℕ) : F) := by
    rw [Nat.cast_sub hlt.le, val_cast, cast_modulus, zero_sub]
  rw [this, val_of_lt (by omega)]

theorem two_ne_zero : (2 : F) ≠ 0 := by
  intro h
  have h2 : ((2 : ℕ) : F) = ((0 : ℕ) : F) := by exact_mod_cast h
  rw [cast_eq_iff] at h2
  have := (modulus_bound (F := F)).1
  rw [Nat.mod_eq_of_lt (by omega)] at h2
  simp at h2

theorem modulus_odd : modulus F % 2 = 1 := by
  have hp := prime (F := F)
  have := (modulus_bound (F := F)).1
  rcases hp.eq_two_or_odd with h | h
  · omega
  · exact h

end LawfulField
end Halo
