import Mathlib.NumberTheory.LucasPrimality
import Mathlib.Tactic.NormNum.Prime
import Mathlib.Data.Nat.Prime.Basic
import Mathlib.Data.ZMod.Basic
/-!
# Kernel-friendly modular exponentiation and Pratt certificates
-/
namespace Halo

/-- `powMod fuel a e m = a^e mod m` for `e < 2^fuel`. -/
def powMod : ℕ → ℕ → ℕ → ℕ → ℕ
  | 0, _, _, m => 1 % m
  | fuel + 1, a, e, m =>
    let h := powMod fuel (a * a % m) (e / 2) m
    bif e % 2 == 1 then h * a % m else h

theorem powMod_spec (fuel a e m : ℕ) (he : e < 2 ^ fuel) :
    (powMod fuel a e m : ZMod m) = (a : ZMod m) ^ e := by
  induction fuel generalizing a e with
  | zero =>
    have : e = 0 := by simpa using he
    subst this
    simp [powMod]
  | succ n ih =>
    have h2 : e / 2 < 2 ^ n := by rw [pow_succ] at he; omega
    have hh := ih (a * a % m) (e / 2) h2
    rw [ZMod.natCast_mod] at hh
    have hd : e = 2 * (e / 2) + e % 2 := by omega
    have hp : ((a * a : ℕ) : ZMod m) ^ (e / 2) = (a : ZMod m) ^ (2 * (e / 2)) := by
      push_cast; rw [pow_mul, pow_two]
    rw [hp] at hh
    simp only [powMod]
    by_cases h1 : e % 2 = 1
    · simp only [h1, beq_self_eq_true, cond_true, ZMod.natCast_mod, Nat.cast_mul, hh]
      conv_rhs => rw [hd, h1, pow_succ]
    · have h0 : e % 2 = 0 := by omega
      have hb : (e % 2 == 1) = false := by simp [h0]
      rw [hb, cond_false, hh]
      conv_rhs => rw [hd, h0, add_zero]

theorem powMod_lt (fuel a e m : ℕ) (hm : 0 < m) : powMod fuel a e m < m := by
  induction fuel generalizing a e with
  | zero => exact Nat.mod_lt _ hm
  | succ n ih =>
    simp only [powMod]
    cases e % 2 == 1
    · exact ih _ _
    · exact Nat.mod_lt _ hm

theorem powMod_eq_iff (fuel a e m : ℕ) (he : e < 2 ^ fuel) (hm : 1 < m) :
    (a : ZMod m) ^ e = 1 ↔ powMod fuel a e m = 1 := by
  rw [← powMod_spec fuel a e m he]
  constructor
  · intro h
    have h' : ((powMod fuel a e m : ℕ) : ZMod m) = ((1 : ℕ) : ZMod m) := by simpa using h
    rw [ZMod.natCast_eq_natCast_iff'] at h'
    rwa [Nat.mod_eq_of_lt (powMod_lt _ _ _ _ (by omega)), Nat.mod_eq_of_lt hm] at h'
  · intro h; rw [h]; simp

theorem pratt (p a : ℕ) (fs : List ℕ) (hfs : ∀ q ∈ fs, q.Prime)
    (hprod : 1 < p ∧ p < 2^256 ∧ p - 1 = fs.prod)
    (h1 : powMod 256 a (p - 1) p = 1)
    (h2 : fs.all (fun q => powMod 256 a ((p - 1) / q) p != 1) = true) : p.Prime := by
  obtain ⟨hp1, hp, hprod⟩ := hprod
  refine lucas_primality p (a : ZMod p) ?_ ?_
  · exact (powMod_eq_iff 256 a (p-1) p (by omega) hp1).2 h1
  · intro q hq hd
    rw [hprod] at hd
    obtain ⟨r, hr, hqr⟩ := (Prime.dvd_prod_iff hq.prime).1 hd
    have : q = r := (Nat.prime_dvd_prime_iff_eq hq (hfs r hr)).1 hqr
    subst this
    rw [List.all_eq_true] at h2
    have := h2 q hr
    intro hc
    rw [powMod_eq_iff 256 a _ p (lt_of_le_of_lt (Nat.div_le_self _ _) (by omega)) hp1] at hc
    simp [hc] at this

end Halo
