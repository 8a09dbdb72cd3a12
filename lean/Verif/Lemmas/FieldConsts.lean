import Verif.Lemmas.FieldRoots
import Mathlib.GroupTheory.OrderOfElement
/-!
# Facts about the constants of `Fp` and `Fq`
-/
namespace Halo
namespace Fe
variable {C : Consts}

theorem rep_of_nat {a : Limbs} {n : ℕ} (h1 : a.toNat < C.m)
    (h2 : a.toNat % C.m = n * 2 ^ 256 % C.m) : Represents C a (n : ZMod C.m) := by
  refine ⟨h1, ?_⟩
  have := (ZMod.natCast_eq_natCast_iff' _ _ _).2 h2
  rw [this, Nat.cast_mul, Nat.cast_pow, Nat.cast_ofNat]

theorem invertExp_eq (h : IsHaloField C) : C.invertExp.toNat = C.m - 2 := by
  cases h <;> decide +kernel

theorem sqrtExp_eq (h : IsHaloField C) : C.m = 2 ^ 32 * (2 * C.sqrtExp.toNat + 1) + 1 := by
  cases h <;> decide +kernel

theorem root_reduced (h : IsHaloField C) : C.rootOfUnity.toNat < C.m := by
  cases h <;> decide +kernel

theorem root_pow (h : IsHaloField C) :
    powVartime C C.rootOfUnity ⟨0x80000000, 0, 0, 0⟩ = neg C (one C) := by
  cases h <;> decide +kernel

theorem root_spec (h : IsHaloField C) {root : ZMod C.m} (hr : Represents C C.rootOfUnity root) :
    root ^ 2 ^ 31 = -1 := by
  have h1 := rep_powVartime h.ok hr ⟨0x80000000, 0, 0, 0⟩
  rw [root_pow h] at h1
  have h2 := rep_neg h.ok (rep_one h.ok)
  have := rep_unique h.ok h1 h2
  have e : (⟨0x80000000, 0, 0, 0⟩ : Limbs).toNat = 2 ^ 31 := by decide +kernel
  rwa [e] at this

theorem m_gt_two (h : IsHaloField C) : 2 < C.m := by
  cases h <;> decide +kernel

theorem neg_one_ne_one (h : IsHaloField C) : (-1 : ZMod C.m) ≠ 1 := by
  have : Fact (2 < C.m) := ⟨m_gt_two h⟩
  exact ZMod.neg_one_ne_one

theorem root_order (h : IsHaloField C) {root : ZMod C.m} (hr : Represents C C.rootOfUnity root) :
    orderOf root = 2 ^ 32 := by
  have h31 := root_spec h hr
  have : Fact (Nat.Prime 2) := ⟨Nat.prime_two⟩
  apply orderOf_eq_prime_pow (p := 2) (n := 31)
  · rw [h31]; exact neg_one_ne_one h
  · rw [show (2:ℕ) ^ (31 + 1) = 2 ^ 31 * 2 by norm_num, pow_mul, h31]; ring

theorem beta_limbs (h : IsHaloField C) :
    add C (add C (mul C (beta C) (beta C)) (beta C)) (one C) = zero ∧
      ctEq (beta C) (one C) = false := by
  cases h <;> decide +kernel

theorem beta_rep (ok : C.OK) : Represents C (beta C) (C.betaRaw.toNat : ZMod C.m) :=
  rep_mul_r2 ok C.betaRaw

theorem beta_poly (h : IsHaloField C) {β : ZMod C.m} (hb : Represents C (beta C) β) :
    β * β + β + 1 = 0 := by
  have h1 := rep_add h.ok (rep_add h.ok (rep_mul h.ok hb hb) hb) (rep_one h.ok)
  rw [(beta_limbs h).1] at h1
  exact rep_unique h.ok h1 (rep_zero h.ok)

theorem beta_order (h : IsHaloField C) {β : ZMod C.m} (hb : Represents C (beta C) β) :
    orderOf β = 3 := by
  have : Fact (Nat.Prime 3) := ⟨Nat.prime_three⟩
  apply orderOf_eq_prime
  · have := beta_poly h hb
    linear_combination (β - 1) * this
  · rw [Ne, ← ctEq_rep h.ok hb (rep_one h.ok), (beta_limbs h).2]; simp

theorem alpha_inv (h : IsHaloField C) : 5 * C.rescueInvAlpha.toNat % (C.m - 1) = 1 := by
  cases h <;> decide +kernel

theorem alpha_perm (h : IsHaloField C) (x : ZMod C.m) : x ^ (5 * C.rescueInvAlpha.toNat) = x := by
  have : Fact C.m.Prime := ⟨h.prime⟩
  have hp := alpha_inv h
  by_cases hx : x = 0
  · subst hx
    rw [zero_pow]
    intro h0
    rw [h0] at hp
    simp at hp
  · conv_lhs => rw [← Nat.div_add_mod (5 * C.rescueInvAlpha.toNat) (C.m - 1)]
    rw [hp, pow_add, pow_mul, ZMod.pow_card_sub_one_eq_one hx, one_pow, one_mul, pow_one]

end Fe
end Halo
