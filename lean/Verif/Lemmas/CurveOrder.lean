import Verif.Lemmas.CurveMul
import Mathlib.GroupTheory.Perm.Cycle.Type
import Mathlib.GroupTheory.SpecificGroups.Cyclic
/-!
# The number of points of the two curves
-/
namespace Halo
open WeierstrassCurve.Affine
open Fe (bitsVal)
variable {F : Type} [Field F] [DecidableEq F] [LawfulField F] {E : CurveConsts}

/-! ## counting -/

/-- a chosen ordinate for every abscissa that has one -/
noncomputable def pickY (b : F) (x : F) : F :=
  haveI := Classical.propDecidable (∃ y, y ^ 2 = x ^ 3 + b)
  if h : ∃ y, y ^ 2 = x ^ 3 + b then h.choose else 0

/-- injection of the points into `Option (F × Bool)` -/
noncomputable def ptCode (b : F) : Pt b → Option (F × Bool)
  | .zero => none
  | .some x y _ => some (x, decide (y = pickY b x))

omit [LawfulField F] in
theorem ptCode_inj (b : F) : Function.Injective (ptCode b) := by
  intro A B h
  cases A with
  | zero => cases B with
    | zero => rfl
    | some => simp [ptCode] at h
  | some x y n => cases B with
    | zero => simp [ptCode] at h
    | some x' y' n' =>
      simp only [ptCode, Option.some.injEq, Prod.mk.injEq] at h
      obtain ⟨rfl, h⟩ := h
      have e1 := equation_short.1 n.1
      have e2 := equation_short.1 n'.1
      have hex : ∃ y, y ^ 2 = x ^ 3 + b := ⟨y, e1⟩
      have hp : pickY b x ^ 2 = x ^ 3 + b := by
        unfold pickY; rw [dif_pos hex]; exact hex.choose_spec
      have hyy : y = y' := by
        rcases sq_eq_sq_iff_eq_or_eq_neg.1 (e1.trans hp.symm) with h1 | h1
        · have h' : y' = pickY b x := by
            have := h; rw [decide_eq_true h1] at this; exact of_decide_eq_true this.symm
          rw [h1, h']
        · rcases sq_eq_sq_iff_eq_or_eq_neg.1 (e2.trans hp.symm) with h2 | h2
          · have h' : y = pickY b x := by
              have := h; rw [decide_eq_true h2] at this; exact of_decide_eq_true this
            rw [h', h2]
          · rw [h1, h2]
      subst hyy; rfl

theorem finite_pt (b : F) : Finite (Pt b) := by
  have : Finite F := LawfulField.finite
  exact Finite.of_injective _ (ptCode_inj b)

theorem card_pt_le (b : F) : Nat.card (Pt b) ≤ 2 * modulus F + 1 := by
  have : Finite F := LawfulField.finite
  have h := Nat.card_le_card_of_injective _ (ptCode_inj b)
  rw [Finite.card_option, Nat.card_prod, LawfulField.card_eq (F := F)] at h
  simp at h
  omega

omit [LawfulField F] in
theorem no_order_two (g : GoodCurve F E) (A : Pt (E.b : F)) (h : A + A = 0) : A = 0 := by
  cases A with
  | zero => rfl
  | some x y n =>
    exfalso
    have hne := y_ne_neg g.two_ne g.no_two_torsion n
    rw [Point.add_self_of_Y_ne hne] at h
    exact Point.some_ne_zero _ h

theorem card_pt (g : GoodCurve F E) {N : ℕ} (hN : N.Prime) (hb : 2 * modulus F + 1 < 3 * N)
    {G : Pt (E.b : F)} (hG : G ≠ 0) (hNG : N • G = 0) : Nat.card (Pt (E.b : F)) = N := by
  have : Finite (Pt (E.b : F)) := finite_pt _
  have hle := card_pt_le (E.b : F)
  have hord : addOrderOf G = N := by
    have : Fact N.Prime := ⟨hN⟩
    exact addOrderOf_eq_prime hNG hG
  have hdvd : N ∣ Nat.card (Pt (E.b : F)) := by
    rw [← hord]; exact addOrderOf_dvd_natCard G
  obtain ⟨k, hk⟩ := hdvd
  have hpos : 0 < Nat.card (Pt (E.b : F)) := Nat.card_pos
  have hk3 : k < 3 := by
    by_contra hge
    have : N * 3 ≤ N * k := Nat.mul_le_mul_left _ (by omega)
    omega
  have hk0 : k ≠ 0 := by rintro rfl; omega
  have hk2 : k ≠ 2 := by
    rintro rfl
    have h2 : 2 ∣ Nat.card (Pt (E.b : F)) := ⟨N, by rw [hk]; ring⟩
    have : Fact (Nat.Prime 2) := ⟨Nat.prime_two⟩
    obtain ⟨A, hA⟩ := exists_prime_addOrderOf_dvd_card' 2 h2
    have hz : A + A = 0 := by
      rw [← two_nsmul, ← hA]; exact addOrderOf_nsmul_eq_zero A
    have := no_order_two g A hz
    rw [this, addOrderOf_zero] at hA
    omega
  have : k = 1 := by omega
  rw [hk, this, mul_one]

/-! ## evaluating multiples of the generator with integers -/

/-- `a - b` modulo `q` -/
def nsub (q a b : ℕ) : ℕ := (a + (q - b % q)) % q

/-- `Proj.double` on residues -/
def ndouble (q b3 : ℕ) (P : Proj ℕ) : Proj ℕ :=
  let t0 := P.y * P.y % q
  let z8 := 8 * t0 % q
  let t2 := b3 * (P.z * P.z % q) % q
  let t3 := nsub q t0 (3 * t2)
  ⟨2 * (t3 * (P.x * P.y % q)) % q, (t2 * z8 + t3 * (t0 + t2)) % q, P.y * P.z % q * z8 % q⟩

/-- `Proj.add` on residues -/
def nadd (q b3 : ℕ) (P Q : Proj ℕ) : Proj ℕ :=
  let t0 := P.x * Q.x % q
  let t1 := P.y * Q.y % q
  let t2 := b3 * (P.z * Q.z % q) % q
  let t3 := (P.x * Q.y + Q.x * P.y) % q
  let t4 := b3 * ((P.x * Q.z + Q.x * P.z) % q) % q
  let t5 := (P.y * Q.z + Q.y * P.z) % q
  let u := nsub q t1 t2
  let w := (t1 + t2) % q
  ⟨nsub q (t3 * u) (t5 * t4), (u * w + 3 * t0 * t4) % q, (t5 * w + 3 * t0 * t3) % q⟩

/-- integer triple to field triple -/
def castP (F : Type) [Field F] (P : Proj ℕ) : Proj F := ⟨P.x, P.y, P.z⟩

/-- double-and-add on residues -/
def nmul (q b3 : ℕ) (P : Proj ℕ) (bits : List Bool) (acc : Proj ℕ) : Proj ℕ :=
  bits.foldl (fun acc bit => let d := ndouble q b3 acc; bif bit then nadd q b3 d P else d) acc

omit [DecidableEq F] in
theorem cast_nsub (a b : ℕ) : ((nsub (modulus F) a b : ℕ) : F) = (a : F) - b := by
  have hp := LawfulField.modulus_pos (F := F)
  unfold nsub
  rw [LawfulField.cast_mod, Nat.cast_add, Nat.cast_sub (Nat.mod_lt _ hp).le, LawfulField.cast_mod,
    LawfulField.cast_modulus]
  ring

omit [DecidableEq F] in
theorem cast_ndouble (P : Proj ℕ) :
    castP F (ndouble (modulus F) E.threeB P) = Proj.double E (castP F P) := by
  simp only [castP, ndouble, Proj.double, Proj.mulBy3b, Proj.mk.injEq]
  refine ⟨?_, ?_, ?_⟩ <;>
  · simp only [LawfulField.cast_mod, cast_nsub, Nat.cast_mul, Nat.cast_add, Nat.cast_ofNat]
    ring

omit [DecidableEq F] in
theorem cast_nadd (P Q : Proj ℕ) :
    castP F (nadd (modulus F) E.threeB P Q) = Proj.add E (castP F P) (castP F Q) := by
  simp only [castP, nadd, Proj.add, Proj.mulBy3b, Proj.mk.injEq]
  refine ⟨?_, ?_, ?_⟩ <;>
  · simp only [LawfulField.cast_mod, cast_nsub, Nat.cast_mul, Nat.cast_add, Nat.cast_ofNat]
    ring

omit [DecidableEq F] in
theorem cast_nmul (P : Proj ℕ) (bits : List Bool) (acc : Proj ℕ) :
    castP F (nmul (modulus F) E.threeB P bits acc) =
      bits.foldl (fun acc bit =>
        let acc := Proj.double E acc
        Proj.conditionalSelect acc (Proj.add E acc (castP F P)) bit) (castP F acc) := by
  unfold nmul
  induction bits generalizing acc with
  | nil => rfl
  | cons b bits ih =>
    rw [List.foldl_cons, List.foldl_cons, ih]
    congr 1
    cases b
    · simp [Proj.conditionalSelect, cast_ndouble]
    · simp [Proj.conditionalSelect, cast_ndouble, cast_nadd]

/-- the lowest `n` bits of `k`, most significant first -/
def bitsBE (k : ℕ) : ℕ → List Bool
  | 0 => []
  | n + 1 => bitsBE (k / 2) n ++ [k % 2 == 1]

theorem bitsBE_val (n k : ℕ) (h : k < 2 ^ n) : bitsVal (bitsBE k n) 0 = k := by
  induction n generalizing k with
  | zero => simp at h; subst h; rfl
  | succ n ih =>
    rw [bitsBE, bitsVal_append, ih (k / 2) (by rw [pow_succ] at h; omega)]
    rcases Nat.mod_two_eq_zero_or_one k with h0 | h0
    · simp [bitsVal, h0]; omega
    · simp [bitsVal, h0]; omega

theorem nmul_denotes (g : GoodCurve F E) {P : Proj ℕ} {A : Pt (E.b : F)}
    (hP : Denotes (E.b : F) (castP F P) A) (k : ℕ) (hk : k < 2 ^ 255) :
    Denotes (E.b : F) (castP F (nmul (modulus F) E.threeB P (bitsBE k 255) ⟨0, 1, 0⟩)) (k • A) := by
  rw [cast_nmul]
  have := denotes_fold g hP (bitsBE k 255) (castP F ⟨0, 1, 0⟩) 0 (by
    rw [zero_nsmul]
    have : castP F ⟨0, 1, 0⟩ = Proj.zero := by simp [castP, Proj.zero]
    rw [this]; exact denotes_proj_zero)
  rwa [bitsBE_val _ _ hk] at this

end Halo
