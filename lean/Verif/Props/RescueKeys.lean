import Verif.Props.Rescue
/-!
# The keys of the Rescue permutation (C25)
-/
namespace Halo
open Rescue
variable {F : Type} [Field F] [LawfulField F]

/-- **C25**, the keys: the first one consists of ones; the entries of each further one are `t + 1, 2 t + 1, …, 13 t + 1`,
where `t` is the sum of the powers of the entries before it, weighted with `0, …, 12`. The exponents alternate between
the inverse of 5 and 5. So the keys lie on the same line as the image of the permutation. -/
theorem C25_keys (r : ℕ) (i : Fin 13) :
    (key 0 : Vector F 13)[i] = 1 ∧
    (key (r + 1) : Vector F 13)[i] = (i.1 + 1 : F) *
      (∑ j : Fin 13, (j.1 : F) * (key r : Vector F 13)[j] ^ (if r % 2 = 0 then FieldApi.rescueInvAlpha F else 5)) + 1 := by
  constructor
  · rw [key, keySchedule, addVec_get, ones_get]
    simp
  · rw [key, keySchedule, addVec_get, ones_get, mds_eq, trace]
    simp only [sbox_get]

/-- The second key is not the first one. -/
example : (key 1 : Vector Fp 13)[(0 : Fin 13)] = 79 := by
  have h := (C25_keys (F := Fp) 0 0).2
  have h0 : ∀ j : Fin 13, (key 0 : Vector Fp 13)[j] = 1 := fun j => (C25_keys 0 j).1
  simp only [h0, one_pow, mul_one] at h
  rw [show (∑ j : Fin 13, (j.1 : Fp)) = 78 by simp [Fin.sum_univ_succ]; norm_num] at h
  simp only [Fin.val_zero, Nat.cast_zero, zero_add, one_mul] at h
  rw [h]
  norm_num

end Halo
