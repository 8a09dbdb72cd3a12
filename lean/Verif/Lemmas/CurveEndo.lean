import Verif.Lemmas.CurveInst
/-!
# The endomorphism `(x, y) ↦ (βx, y)` and scalars of the scalar field
-/
namespace Halo
open WeierstrassCurve.Affine

/-- The two curves of the code with their base and scalar fields (`curves/ec0.rs:44-52`,
`curves/ec1.rs:44-52`): `E` is defined over `F`, `S` is its scalar field.  The `BETA` constants
are those of `fields/fp.rs` and `fields/fq.rs`. -/
class HaloCurve (E : CurveConsts) (F S : Type) [Field F] [LawfulField F] [Field S] [LawfulField S] :
    Prop where
  is : IsHaloCurve E (modulus F) (modulus S)
  betaBase : LawfulField.val (FieldApi.beta : F) =
    if modulus F = Q then fqConsts.betaRaw.toNat else fpConsts.betaRaw.toNat
  betaScalar : LawfulField.val (FieldApi.beta : S) =
    if modulus S = Q then fqConsts.betaRaw.toNat else fpConsts.betaRaw.toNat

theorem Elem.beta_val {C : Consts} [hC : HaloConsts C] :
    LawfulField.val (FieldApi.beta : Elem C) = C.betaRaw.toNat := by
  show ((ofLimbs _ : Elem C).res).val = _
  rw [Elem.ofLimbs_res (Fe.beta_rep (C := C) Elem.ok), ZMod.val_natCast]
  apply Nat.mod_eq_of_lt
  have := hC.is
  cases this <;> decide +kernel

instance : HaloCurve ec0 Fq Fp where
  is := by
    show IsHaloCurve ec0 fqConsts.m fpConsts.m
    rw [fq_m, fp_m]; exact .ec0
  betaBase := by rw [Elem.beta_val]; exact (if_pos fq_m).symm
  betaScalar := by
    rw [Elem.beta_val, if_neg]
    show fpConsts.m ≠ Q
    rw [fp_m]; decide +kernel

instance : HaloCurve ec1 Fp Fq where
  is := by
    show IsHaloCurve ec1 fpConsts.m fqConsts.m
    rw [fq_m, fp_m]; exact .ec1
  betaScalar := by rw [Elem.beta_val]; exact (if_pos fq_m).symm
  betaBase := by
    rw [Elem.beta_val, if_neg]
    show fpConsts.m ≠ Q
    rw [fp_m]; decide +kernel

variable {E : CurveConsts} {F : Type} [Field F] [DecidableEq F] {b : F}

/-- `(x, y) ↦ (βx, y)` on projective triples. -/
def endoP (β : F) (P : Proj F) : Proj F := ⟨β * P.x, P.y, P.z⟩

omit [DecidableEq F] in
theorem endoP_add {β : F} (hβ : β ^ 3 = 1) (P R : Proj F) :
    Proj.add E (endoP β P) (endoP β R) = endoP β (Proj.add E P R) := by
  simp only [Proj.add, endoP, Proj.mulBy3b, Proj.mk.injEq]
  refine ⟨by ring, ?_, ?_⟩ <;> grind

omit [DecidableEq F] in
theorem endo_nonsing {β : F} (hβ : β ^ 3 = 1) (hb : ∀ x : F, x ^ 3 + b ≠ 0) (h2 : (2 : F) ≠ 0)
    {x y : F} (h : (shortW b).toAffine.Nonsingular x y) :
    (shortW b).toAffine.Nonsingular (β * x) y := by
  apply nonsingular_short hb h2
  have := equation_short.1 h.1
  rw [this]; linear_combination (-x ^ 3) * hβ

/-- `(x, y) ↦ (βx, y)` on group elements. -/
def endoPt {β : F} (hβ : β ^ 3 = 1) (hb : ∀ x : F, x ^ 3 + b ≠ 0) (h2 : (2 : F) ≠ 0) :
    Pt b → Pt b
  | .zero => 0
  | .some x y h => .some (β * x) y (endo_nonsing hβ hb h2 h)

omit [DecidableEq F] in
theorem endo_denotes {β : F} (hβ : β ^ 3 = 1) (hb : ∀ x : F, x ^ 3 + b ≠ 0) (h2 : (2 : F) ≠ 0)
    {P : Proj F} {A : Pt b} (h : Denotes b P A) :
    Denotes b (endoP β P) (endoPt hβ hb h2 A) := by
  cases h with
  | zero hy => simp only [endoP, mul_zero]; exact Denotes.zero hy
  | some hz n =>
    simp only [endoP, ← mul_assoc]; exact Denotes.some hz (endo_nonsing hβ hb h2 n)

omit [DecidableEq F] in
theorem exists_denotes (A : Pt b) : ∃ P, Denotes b P A := by
  cases A with
  | zero => exact ⟨_, denotes_proj_zero⟩
  | some x y h => exact ⟨_, Denotes.some one_ne_zero h⟩

theorem endo_add (g : GoodCurve F E) {β : F} (hβ : β ^ 3 = 1) (A B : Pt (E.b : F)) :
    endoPt hβ g.no_two_torsion g.two_ne (A + B) =
      endoPt hβ g.no_two_torsion g.two_ne A + endoPt hβ g.no_two_torsion g.two_ne B := by
  obtain ⟨P, hP⟩ := exists_denotes A
  obtain ⟨R, hR⟩ := exists_denotes B
  have h1 := endo_denotes hβ g.no_two_torsion g.two_ne (denotes_add g hP hR)
  have h2 := denotes_add g (endo_denotes hβ g.no_two_torsion g.two_ne hP)
    (endo_denotes hβ g.no_two_torsion g.two_ne hR)
  rw [endoP_add hβ] at h2
  exact denotes_unique h1 h2

/-- the endomorphism as a group homomorphism -/
def endoHom (g : GoodCurve F E) {β : F} (hβ : β ^ 3 = 1) : Pt (E.b : F) →+ Pt (E.b : F) where
  toFun := endoPt hβ g.no_two_torsion g.two_ne
  map_zero' := rfl
  map_add' := endo_add g hβ

theorem IsHaloCurve.endo_check {m n : ℕ} (h : IsHaloCurve E m n) :
    let βs := if n = Q then fqConsts.betaRaw.toNat else fpConsts.betaRaw.toNat
    let βb := if m = Q then fqConsts.betaRaw.toNat else fpConsts.betaRaw.toNat
    let R := nmul m E.threeB (genN E) (bitsBE βs 255) ⟨0, 1, 0⟩
    R.z % m ≠ 0 ∧ R.x % m = βb * R.z % m ∧ R.y % m = E.gy * R.z % m ∧ βs < 2 ^ 255 := by
  cases h <;> decide +kernel

namespace HaloCurve
variable [LawfulField F] {S : Type} [Field S] [LawfulField S] [h : HaloCurve E F S]
include h

omit [DecidableEq F] in
variable (E F S) in
theorem good : GoodCurve F E := (HaloCurve.is (E := E) (F := F) (S := S)).good rfl

omit [DecidableEq F] [LawfulField F] h in
theorem beta_cube [LawfulField F] : (FieldApi.beta : F) ^ 3 = 1 := by
  rw [← LawfulField.beta_order (F := F)]; exact pow_orderOf_eq_one _

theorem nsmul_mod (k : ℕ) (A : Pt (E.b : F)) : (k % modulus S) • A = k • A := by
  conv_rhs => rw [← Nat.div_add_mod k (modulus S)]
  rw [add_nsmul, mul_nsmul', (HaloCurve.is (E := E) (F := F) (S := S)).nsmul_order rfl, zero_add]

theorem endo_gen (g : GoodCurve F E) :
    endoHom g beta_cube ((HaloCurve.is (E := E) (F := F) (S := S)).gen rfl) =
      LawfulField.val (FieldApi.beta : S) • (HaloCurve.is (E := E) (F := F) (S := S)).gen rfl := by
  have his := HaloCurve.is (E := E) (F := F) (S := S)
  have hP : Denotes (E.b : F) (castP F (IsHaloCurve.genN E)) (his.gen rfl) := by
    have : castP F (IsHaloCurve.genN E) = Proj.one E := by
      simp [castP, IsHaloCurve.genN, Proj.one]
    rw [this]; exact his.denotes_one rfl
  obtain ⟨hz, hx, hy, hlt⟩ := his.endo_check
  have hs := nmul_denotes g hP _ hlt
  rw [← h.betaScalar] at hs hz hx hy
  rw [← h.betaBase] at hx
  generalize nmul (modulus F) E.threeB (IsHaloCurve.genN E) _ ⟨0, 1, 0⟩ = R at *
  have hx' : ((R.x : ℕ) : F) = FieldApi.beta * (R.z : F) := by
    have := (LawfulField.cast_eq_iff (F := F) _ _).2 hx
    rw [this, Nat.cast_mul, LawfulField.val_cast]
  have hy' : ((R.y : ℕ) : F) = E.gy * (R.z : F) := by
    have := (LawfulField.cast_eq_iff (F := F) _ _).2 hy
    rw [this, Nat.cast_mul]
  have hz' : ((R.z : ℕ) : F) ≠ 0 := by
    intro h0
    rw [← Nat.cast_zero, LawfulField.cast_eq_iff, Nat.zero_mod] at h0
    exact hz h0
  refine (denotes_unique hs ?_).symm
  have : castP F R = ⟨(FieldApi.beta * 1) * (R.z : F), E.gy * (R.z : F), R.z⟩ := by
    simp only [castP, hx', hy', mul_one]
  rw [this]
  exact Denotes.some hz' (endo_nonsing beta_cube g.no_two_torsion g.two_ne (his.gen_nonsing rfl))

/-- `(βx, y) = β_s • (x, y)` -/
theorem endo_eq (g : GoodCurve F E) (A : Pt (E.b : F)) :
    endoHom g beta_cube A = LawfulField.val (FieldApi.beta : S) • A := by
  have his := HaloCurve.is (E := E) (F := F) (S := S)
  obtain ⟨k, -, rfl⟩ := his.generates rfl (Point.some_ne_zero (his.gen_nonsing rfl)) A
  rw [map_nsmul]
  have := endo_gen (S := S) g
  unfold IsHaloCurve.gen at this
  rw [this, nsmul_left_comm]

/-- the scalar action on group elements -/
theorem smul_add_scalar (s t : S) (A : Pt (E.b : F)) :
    LawfulField.val (s + t) • A = LawfulField.val s • A + LawfulField.val t • A := by
  rw [LawfulField.val_add, nsmul_mod, add_nsmul]

theorem smul_mul_scalar (s t : S) (A : Pt (E.b : F)) :
    LawfulField.val (s * t) • A = LawfulField.val s • LawfulField.val t • A := by
  rw [LawfulField.val_mul, nsmul_mod, mul_nsmul']

omit [LawfulField F] h in
theorem smul_one_scalar (A : Pt (E.b : F)) : LawfulField.val (1 : S) • A = A := by
  have : LawfulField.val (1 : S) = 1 := by
    rw [← Nat.cast_one, LawfulField.val_of_lt (LawfulField.prime (F := S)).one_lt]
  rw [this, one_nsmul]

/-- the group of points is a vector space over the scalar field -/
@[instance_reducible] def module : Module S (Pt (E.b : F)) where
  smul s A := LawfulField.val s • A
  one_smul A := smul_one_scalar A
  mul_smul s t A := smul_mul_scalar s t A
  smul_zero s := nsmul_zero _
  smul_add s A B := nsmul_add _ _ _
  add_smul s t A := smul_add_scalar s t A
  zero_smul A := by
    show LawfulField.val (0 : S) • A = 0
    rw [LawfulField.val_zero, zero_nsmul]

end HaloCurve
end Halo
