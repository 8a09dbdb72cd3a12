import Verif.Lemmas.Gadget.EccMul
/-!
# Different challenges give different scalars
-/
namespace Halo
open FieldApi Circuit.CurvePoint
variable {S : Type} [Field S] [LawfulField S]

/-- A step of the ladder on numbers `a + bω` -/
def eisStep (c : BitVec 128) (z : ℤ × ℤ) (i : ℕ) : ℤ × ℤ :=
  let z := (2 * z.1 + (if c.getLsbD (i * 2) then -1 else 1), 2 * z.2)
  if c.getLsbD (i * 2 + 1) then (-z.2, z.1 - z.2) else z

/-- `a + bβ` -/
def eisCast (z : ℤ × ℤ) : S := z.1 + z.2 * beta

theorem eisCast_step (c : BitVec 128) (z : ℤ × ℤ) (i : ℕ) :
    (eisCast (eisStep c z i) : S) = endoScalar c (eisCast z) i := by
  simp only [eisStep, endoScalar, eisCast]
  have := beta_sq (S := S)
  cases c.getLsbD (i * 2 + 1)
  · cases c.getLsbD (i * 2) <;> simp only [Bool.false_eq_true, if_false, if_true] <;> push_cast <;> ring
  · cases c.getLsbD (i * 2) <;> simp only [Bool.false_eq_true, if_false, if_true] <;> push_cast <;>
      linear_combination (-2 * (z.2 : S)) * this

theorem eisCast_foldl (c : BitVec 128) : ∀ (l : List ℕ) (z : ℤ × ℤ),
    (eisCast (l.foldl (eisStep c) z) : S) = l.foldl (endoScalar c) (eisCast z)
  | [], _ => rfl
  | i :: l, z => by rw [List.foldl_cons, List.foldl_cons, ← eisCast_step, eisCast_foldl c l]

theorem eisStep_norm (c : BitVec 128) {z : ℤ × ℤ} (i : ℕ) (h : 9 ≤ eisNorm z.1 z.2) :
    9 ≤ eisNorm (eisStep c z i).1 (eisStep c z i).2 ∧
      eisNorm (eisStep c z i).1 (eisStep c z i).2 ≤ 7 * eisNorm z.1 z.2 := by
  have hb := eisNorm_bounds h
  rw [abs_le] at hb
  have e : eisNorm (eisStep c z i).1 (eisStep c z i).2 = 4 * eisNorm z.1 z.2 +
      2 * (if c.getLsbD (i * 2) then -1 else 1) * (2 * z.1 - z.2) + 1 := by
    simp only [eisStep, eisNorm]
    cases c.getLsbD (i * 2 + 1) <;> cases c.getLsbD (i * 2) <;>
      simp only [Bool.false_eq_true, if_false, if_true] <;> ring
  rw [e]
  cases c.getLsbD (i * 2) <;> simp only [Bool.false_eq_true, if_false, if_true] <;> constructor <;> linarith

theorem eisStep_odd (c : BitVec 128) {z : ℤ × ℤ} (i : ℕ) (h : (z.1 + z.2) % 2 = 1) :
    ((eisStep c z i).1 + (eisStep c z i).2) % 2 = 1 := by
  simp only [eisStep]
  cases c.getLsbD (i * 2 + 1) <;> cases c.getLsbD (i * 2) <;>
    simp only [Bool.false_eq_true, if_false, if_true] <;> omega

theorem eisStep_inj (c c' : BitVec 128) {z z' : ℤ × ℤ} (i : ℕ) (h : (z.1 + z.2) % 2 = 1)
    (h' : (z'.1 + z'.2) % 2 = 1) (he : eisStep c z i = eisStep c' z' i) :
    z = z' ∧ c.getLsbD (i * 2) = c'.getLsbD (i * 2) ∧ c.getLsbD (i * 2 + 1) = c'.getLsbD (i * 2 + 1) := by
  obtain ⟨a, b⟩ := z
  obtain ⟨a', b'⟩ := z'
  simp only [eisStep] at *
  revert he
  cases c.getLsbD (i * 2 + 1) <;> cases c.getLsbD (i * 2) <;> cases c'.getLsbD (i * 2 + 1) <;>
    cases c'.getLsbD (i * 2) <;> simp only [Bool.false_eq_true, if_false, if_true, Prod.mk.injEq, and_true,
      and_false, reduceCtorEq] <;> intro he <;> omega

/-- the ladder on numbers -/
def eisOf (c : BitVec 128) (m : ℕ) : ℤ × ℤ := (List.range' 1 m).foldl (eisStep c) (3, 0)

theorem eisOf_succ (c : BitVec 128) (m : ℕ) : eisOf c (m + 1) = eisStep c (eisOf c m) (m + 1) := by
  rw [eisOf, List.range'_concat, List.foldl_append]
  simp [eisOf, Nat.add_comm]

theorem eisOf_odd (c : BitVec 128) (m : ℕ) : ((eisOf c m).1 + (eisOf c m).2) % 2 = 1 := by
  induction m with
  | zero => rfl
  | succ m ih => rw [eisOf_succ]; exact eisStep_odd c _ ih

theorem eisOf_norm (c : BitVec 128) (m : ℕ) :
    9 ≤ eisNorm (eisOf c m).1 (eisOf c m).2 ∧ eisNorm (eisOf c m).1 (eisOf c m).2 ≤ 9 * 7 ^ m := by
  induction m with
  | zero => exact ⟨show (9 : ℤ) ≤ eisNorm 3 0 by decide, show eisNorm 3 0 ≤ 9 * 7 ^ 0 by decide⟩
  | succ m ih =>
    rw [eisOf_succ]
    have := eisStep_norm c (m + 1) ih.1
    refine ⟨this.1, ?_⟩
    rw [pow_succ]
    linarith [this.2, ih.2]

theorem eisOf_inj (c c' : BitVec 128) (m : ℕ) (h : eisOf c m = eisOf c' m) :
    ∀ i, 1 ≤ i → i ≤ m → c.getLsbD (i * 2) = c'.getLsbD (i * 2) ∧
      c.getLsbD (i * 2 + 1) = c'.getLsbD (i * 2 + 1) := by
  induction m with
  | zero => intro i h1 h2; omega
  | succ m ih =>
    rw [eisOf_succ, eisOf_succ] at h
    obtain ⟨h1, h2⟩ := eisStep_inj c c' _ (eisOf_odd c m) (eisOf_odd c' m) h
    intro i hi hm
    rcases Nat.lt_or_ge i (m + 1) with h | h
    · exact ih h1 i hi (by omega)
    · rw [show i = m + 1 by omega]; exact h2

theorem expandChallenge_eisOf (c : BitVec 128) : (Util.expandChallenge c : S) = eisCast (eisOf c 63) := by
  rw [expandChallenge_eq, eisOf, eisCast_foldl]
  congr 1
  simp only [eisCast]; push_cast; ring

theorem eis_eq {z z' : ℤ × ℤ} (h : (eisCast z : S) = eisCast z')
    (hN : 2 * (eisNorm z.1 z.2 + eisNorm z'.1 z'.2) < modulus S) : z = z' := by
  have hp : eisNorm (z.1 - z'.1) (z.2 - z'.2) + eisNorm (z.1 + z'.1) (z.2 + z'.2) =
      2 * (eisNorm z.1 z.2 + eisNorm z'.1 z'.2) := by simp only [eisNorm]; ring
  have hn : ∀ a b : ℤ, 0 ≤ eisNorm a b := fun a b => by
    have := eisNorm_sq a b; nlinarith [sq_nonneg (2 * a - b)]
  have h0 : ¬ 0 < eisNorm (z.1 - z'.1) (z.2 - z'.2) := by
    intro hpos
    refine eis_ne_zero (S := S) hpos (by linarith [hn (z.1 + z'.1) (z.2 + z'.2)]) ?_
    simp only [eisCast] at h
    push_cast
    linear_combination h
  have h0 : eisNorm (z.1 - z'.1) (z.2 - z'.2) = 0 := le_antisymm (not_lt.1 h0) (hn _ _)
  have key : ∀ a b : ℤ, eisNorm a b = 0 → a = 0 ∧ b = 0 := by
    intro a b h
    have hb : b = 0 := by
      have : 3 * b ^ 2 + (2 * a - b) ^ 2 = 0 := by rw [eisNorm] at h; linarith
      have := sq_nonneg (2 * a - b)
      exact pow_eq_zero_iff (two_ne_zero) |>.1 (by nlinarith [sq_nonneg b])
    subst hb
    rw [eisNorm] at h
    exact ⟨pow_eq_zero_iff (two_ne_zero) |>.1 (by linarith), rfl⟩
  obtain ⟨h1, h2⟩ := key _ _ h0
  exact Prod.ext (by linarith) (by linarith)

/-- Two challenges give the same scalar only if they agree but for the two lowest bits. -/
theorem expandChallenge_inj {c c' : BitVec 128} (h : (Util.expandChallenge c : S) = Util.expandChallenge c') :
    c >>> 2 = c' >>> 2 := by
  rw [expandChallenge_eisOf, expandChallenge_eisOf] at h
  have hm := (LawfulField.modulus_bound (F := S)).1
  have hs := seven_pow (n := 64) (by omega)
  have e := eis_eq h (by
    have h1 := (eisOf_norm c 63).2
    have h2 := (eisOf_norm c' 63).2
    rw [pow_succ] at hs
    zify at hm
    linarith)
  have := eisOf_inj c c' 63 e
  apply BitVec.eq_of_getLsbD_eq
  intro i hi
  rw [BitVec.getLsbD_ushiftRight, BitVec.getLsbD_ushiftRight]
  by_cases hi' : 2 + i < 128
  · obtain ⟨h1, h2⟩ := this ((2 + i) / 2) (by omega) (by omega)
    rcases Nat.mod_two_eq_zero_or_one i with hp | hp
    · rwa [show (2 + i) / 2 * 2 = 2 + i by omega] at h1
    · rwa [show (2 + i) / 2 * 2 + 1 = 2 + i by omega] at h2
  · rw [BitVec.getLsbD_of_ge _ _ (by omega), BitVec.getLsbD_of_ge _ _ (by omega)]

theorem expandChallenge_low {c c' : BitVec 128} (h : c >>> 2 = c' >>> 2) :
    (Util.expandChallenge c : S) = Util.expandChallenge c' := by
  have hb : ∀ i, 2 ≤ i → c.getLsbD i = c'.getLsbD i := by
    intro i hi
    have := congrArg (fun x => BitVec.getLsbD x (i - 2)) h
    simp only [BitVec.getLsbD_ushiftRight] at this
    rwa [show 2 + (i - 2) = i by omega] at this
  rw [expandChallenge_eq, expandChallenge_eq]
  apply List.foldl_ext
  intro s i hi
  rw [List.mem_range'_1] at hi
  simp only [endoScalar]
  rw [hb (i * 2) (by omega), hb (i * 2 + 1) (by omega)]

end Halo
