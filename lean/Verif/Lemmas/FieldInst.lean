import Verif.Spec.FieldApi
import Verif.Lemmas.FieldConsts
import Mathlib.Algebra.Field.Basic
import Mathlib.Algebra.Ring.Equiv
/-!
# The limb code is a field

`Elem C` is the type of reduced limb vectors; its operations are the code of `fp.rs`/`fq.rs`.
-/
namespace Halo
open Fe

/-- `Fp` (`C = fpConsts`) or `Fq` (`C = fqConsts`): `src/fields/fp.rs:11-15`, restricted to
reduced values, the only ones the API can produce. -/
def Elem (C : Consts) : Type := {a : Limbs // a.toNat < C.m}

/-- `C` is one of the two constant records. -/
class HaloConsts (C : Consts) : Prop where
  is : IsHaloField C
instance : HaloConsts fpConsts := ⟨.fp⟩
instance : HaloConsts fqConsts := ⟨.fq⟩

namespace Elem
variable {C : Consts}

instance : DecidableEq (Elem C) := inferInstanceAs (DecidableEq {a : Limbs // a.toNat < C.m})

variable [hC : HaloConsts C]

theorem ok : C.OK := hC.is.ok
instance : Fact C.m.Prime := ⟨hC.is.prime⟩

/-- the residue of an element -/
noncomputable def res (a : Elem C) : ZMod C.m := (canon_rep (C := C) ok a.2).choose
theorem res_rep (a : Elem C) : Represents C a.1 a.res := (canon_rep (C := C) ok a.2).choose_spec
theorem res_eq {a : Elem C} {x : ZMod C.m} (h : Represents C a.1 x) : a.res = x :=
  rep_unique ok a.res_rep h
theorem res_inj : Function.Injective (res : Elem C → ZMod C.m) := by
  intro a b h
  apply Subtype.ext
  exact rep_inj a.res_rep (h ▸ b.res_rep)
theorem res_surj : Function.Surjective (res : Elem C → ZMod C.m) := by
  intro x
  obtain ⟨a, ha⟩ := rep_exists (C := C) ok x
  exact ⟨⟨a, ha.1⟩, res_eq ha⟩

/-- element with a given residue -/
noncomputable def ofRes (x : ZMod C.m) : Elem C :=
  ⟨(rep_exists (C := C) ok x).choose, (rep_exists (C := C) ok x).choose_spec.1⟩
theorem res_ofRes (x : ZMod C.m) : (ofRes x : Elem C).res = x :=
  res_eq (rep_exists (C := C) ok x).choose_spec

/-- wrap a limb computation that is known to represent something -/
def mk' (a : Limbs) (h : ∃ x, Represents C a x) : Elem C := ⟨a, h.choose_spec.1⟩

instance : Zero (Elem C) := ⟨mk' zero ⟨_, rep_zero ok⟩⟩
instance : One (Elem C) := ⟨mk' (one C) ⟨_, rep_one ok⟩⟩
instance : Add (Elem C) := ⟨fun a b => mk' (add C a.1 b.1) ⟨_, rep_add ok a.res_rep b.res_rep⟩⟩
instance : Sub (Elem C) := ⟨fun a b => mk' (sub C a.1 b.1) ⟨_, rep_sub ok a.res_rep b.res_rep⟩⟩
instance : Neg (Elem C) := ⟨fun a => mk' (neg C a.1) ⟨_, rep_neg ok a.res_rep⟩⟩
instance : Mul (Elem C) := ⟨fun a b => mk' (mul C a.1 b.1) ⟨_, rep_mul ok a.res_rep b.res_rep⟩⟩

theorem invert_cases (a : Elem C) :
    (a.res = 0 ∧ Fe.invert C a.1 = none) ∨
    (a.res ≠ 0 ∧ ∃ b, Fe.invert C a.1 = some b ∧ Represents C b a.res⁻¹) := by
  obtain ⟨h1, h2⟩ := invert_spec (C := C) ok hC.is.prime (invertExp_eq hC.is) a.res_rep
  by_cases h : a.res = 0
  · exact Or.inl ⟨h, h1 h⟩
  · obtain ⟨b, y, hb, hy, hxy⟩ := h2 h
    exact Or.inr ⟨h, b, hb, by rwa [eq_inv_of_mul_eq_one_right hxy] at hy⟩

/-- `invert`, as an option of elements -/
def invert (a : Elem C) : Option (Elem C) :=
  match h : Fe.invert C a.1 with
  | none => none
  | some b => some (mk' b ⟨a.res⁻¹, by
      rcases invert_cases a with h' | ⟨_, b', hb', hr⟩
      · rw [h'.2] at h; simp at h
      · rw [h] at hb'; cases hb'; exact hr⟩)

/-- total inverse: `invert().unwrap_or(zero)` -/
instance : Inv (Elem C) := ⟨fun a => a.invert.getD 0⟩

theorem res_zero : (0 : Elem C).res = 0 := res_eq (rep_zero ok)
theorem res_one : (1 : Elem C).res = 1 := res_eq (rep_one ok)
theorem res_add (a b : Elem C) : (a + b).res = a.res + b.res :=
  res_eq (rep_add ok a.res_rep b.res_rep)
theorem res_sub (a b : Elem C) : (a - b).res = a.res - b.res :=
  res_eq (rep_sub ok a.res_rep b.res_rep)
theorem res_neg (a : Elem C) : (-a).res = -a.res := res_eq (rep_neg ok a.res_rep)
theorem res_mul (a b : Elem C) : (a * b).res = a.res * b.res :=
  res_eq (rep_mul ok a.res_rep b.res_rep)

theorem invert_none {a : Elem C} (h : a.res = 0) : a.invert = none := by
  rcases invert_cases a with h' | h'
  · unfold invert
    split
    · rfl
    · rename_i heq; rw [h'.2] at heq; simp at heq
  · exact absurd h h'.1

theorem invert_some {a : Elem C} (h : a.res ≠ 0) : ∃ b, a.invert = some b ∧ b.res = a.res⁻¹ := by
  rcases invert_cases a with h' | ⟨_, b, hb, hr⟩
  · exact absurd h'.1 h
  · unfold invert
    split
    · rename_i heq; rw [hb] at heq; simp at heq
    · rename_i b' heq
      refine ⟨_, rfl, ?_⟩
      rw [hb] at heq; cases heq
      exact res_eq hr

theorem res_inv (a : Elem C) : (a⁻¹).res = a.res⁻¹ := by
  show (a.invert.getD 0).res = _
  by_cases h : a.res = 0
  · rw [invert_none h, h, inv_zero]; exact res_zero
  · obtain ⟨b, hb, hr⟩ := invert_some h
    rw [hb]; exact hr

noncomputable instance : SMul ℕ (Elem C) := ⟨fun n a => ofRes (n • a.res)⟩
noncomputable instance : SMul ℤ (Elem C) := ⟨fun n a => ofRes (n • a.res)⟩
noncomputable instance : SMul ℚ≥0 (Elem C) := ⟨fun n a => ofRes (n • a.res)⟩
noncomputable instance : SMul ℚ (Elem C) := ⟨fun n a => ofRes (n • a.res)⟩
noncomputable instance : Pow (Elem C) ℕ := ⟨fun a n => ofRes (a.res ^ n)⟩
noncomputable instance : Pow (Elem C) ℤ := ⟨fun a n => ofRes (a.res ^ n)⟩
noncomputable instance : NatCast (Elem C) := ⟨fun n => ofRes n⟩
noncomputable instance : IntCast (Elem C) := ⟨fun n => ofRes n⟩
noncomputable instance : NNRatCast (Elem C) := ⟨fun n => ofRes n⟩
noncomputable instance : RatCast (Elem C) := ⟨fun n => ofRes n⟩
noncomputable instance : Div (Elem C) := ⟨fun a b => ofRes (a.res / b.res)⟩

/-- The field whose `0, 1, +, -, *` and `⁻¹` are the functions of `fp.rs`/`fq.rs`. -/
noncomputable instance : Field (Elem C) :=
  res_inj.field res res_zero res_one res_add res_mul res_neg res_sub res_inv
    (fun _ _ => res_ofRes _) (fun _ _ => res_ofRes _) (fun _ _ => res_ofRes _)
    (fun _ _ => res_ofRes _) (fun _ _ => res_ofRes _) (fun _ _ => res_ofRes _)
    (fun _ _ => res_ofRes _) (fun _ => res_ofRes _) (fun _ => res_ofRes _) (fun _ => res_ofRes _)
    (fun _ => res_ofRes _)

theorem res_natCast (n : ℕ) : (n : Elem C).res = n := res_ofRes _
theorem res_pow (a : Elem C) (n : ℕ) : (a ^ n).res = a.res ^ n := res_ofRes _

/-- the isomorphism with `ZMod m` -/
noncomputable def resEquiv : Elem C ≃+* ZMod C.m :=
  RingEquiv.ofBijective (⟨⟨⟨res, res_one⟩, res_mul⟩, res_zero, res_add⟩ : Elem C →+* ZMod C.m)
    ⟨res_inj, res_surj⟩

theorem resEquiv_apply (a : Elem C) : resEquiv a = a.res := rfl

/-- reduced limbs, or zero if (impossibly) not reduced -/
def ofLimbs (a : Limbs) : Elem C :=
  if h : a.toNat < C.m then (show Elem C from ⟨a, h⟩) else (0 : Elem C)

theorem ofLimbs_res {a : Limbs} {x : ZMod C.m} (h : Represents C a x) :
    (ofLimbs a : Elem C).res = x := by
  have : (ofLimbs a : Elem C) = (show Elem C from ⟨a, h.1⟩) := dif_pos h.1
  rw [this]; exact res_eq h

theorem eq_of_res {a b : Elem C} (h : a.res = b.res) : a = b := res_inj h

theorem isSquare_res {a : Elem C} : IsSquare a.res ↔ IsSquare a := by
  constructor
  · rintro ⟨y, hy⟩
    obtain ⟨b, rfl⟩ := res_surj y
    exact ⟨b, res_inj (by rw [hy, res_mul])⟩
  · rintro ⟨b, rfl⟩
    exact ⟨b.res, res_mul b b⟩

/-- The trait methods, from the limb model. -/
instance : FieldApi (Elem C) where
  modulus := C.m
  sqrt a := (Fe.sqrt C a.1).map ofLimbs
  invert := invert
  toBytes a := Fe.toBytes C a.1
  fromBytes b := (Fe.fromBytes C b).map ofLimbs
  lower128 a := Fe.getLower128 C a.1
  fromU64 v := ofLimbs (Fe.fromU64 C v)
  fromU128 v := ofLimbs (Fe.fromU128 C v)
  alpha := ofLimbs C.rootOfUnity
  beta := ofLimbs (Fe.beta C)
  rescueInvAlpha := C.rescueInvAlpha.toNat

theorem modulus_eq : FieldApi.modulus (Elem C) = C.m := rfl

theorem m_bound : 2 ^ 254 < C.m ∧ C.m < 2 ^ 255 := by
  have := hC.is
  cases this <;> decide +kernel

noncomputable instance : LawfulField (Elem C) where
  prime := hC.is.prime
  val a := a.res.val
  val_lt a := ZMod.val_lt _
  val_cast a := by apply res_inj; rw [res_natCast, ZMod.natCast_zmod_val]
  val_natCast n := by rw [res_natCast, ZMod.val_natCast]; rfl
  modulus_bound := m_bound
  sqrt_some a h := by
    have : Fact C.m.Prime := ⟨hC.is.prime⟩
    obtain ⟨root, hr⟩ := canon_rep (C := C) ok (root_reduced hC.is)
    obtain ⟨r, y, h1, h2, h3⟩ := (sqrt_correct (C := C) ok (sqrtExp_eq hC.is) rfl hr
      (root_spec hC.is hr) a.res_rep).1 (isSquare_res.2 h)
    refine ⟨ofLimbs r, ?_, ?_⟩
    · show (Fe.sqrt C a.1).map ofLimbs = _
      rw [h1]; rfl
    · apply res_inj; rw [res_mul, ofLimbs_res h2, h3]
  sqrt_none a h := by
    have : Fact C.m.Prime := ⟨hC.is.prime⟩
    obtain ⟨root, hr⟩ := canon_rep (C := C) ok (root_reduced hC.is)
    have h1 := (sqrt_correct (C := C) ok (sqrtExp_eq hC.is) rfl hr
      (root_spec hC.is hr) a.res_rep).2 (fun hh => h (isSquare_res.1 hh))
    show (Fe.sqrt C a.1).map ofLimbs = _
    rw [h1]; rfl
  invert_eq a h := by
    have h' : a.res ≠ 0 := fun hh => h (res_inj (by rw [hh, res_zero]))
    obtain ⟨b, hb, hr⟩ := invert_some h'
    show a.invert = _
    rw [hb]; congr 1; apply res_inj; rw [hr, res_inv]
  invert_zero := invert_none res_zero
  toBytes_val a := Fe.toBytes_val (C := C) ok a.res_rep
  fromBytes_ok b h := by
    have := fromBytes_spec (C := C) ok b
    rw [if_pos (show leNat b.toList < C.m from h)] at this
    obtain ⟨a, h1, h2⟩ := this
    show (Fe.fromBytes C b).map ofLimbs = _
    rw [h1]; simp only [Option.map_some]; congr 1
    apply res_inj; rw [ofLimbs_res h2, res_natCast]
  fromBytes_none b h := by
    have := fromBytes_spec (C := C) ok b
    rw [if_neg (show ¬ leNat b.toList < C.m from not_lt.2 h)] at this
    show (Fe.fromBytes C b).map ofLimbs = _
    rw [this]; rfl
  lower128_val a := getLower128_val (C := C) ok a.res_rep
  fromU64_eq v := by
    apply res_inj; rw [res_natCast]; exact ofLimbs_res (fromU64_rep ok v)
  fromU128_eq v := by
    apply res_inj; rw [res_natCast]; exact ofLimbs_res (fromU128_rep ok v)
  alpha_order := by
    obtain ⟨root, hr⟩ := canon_rep (C := C) ok (root_reduced hC.is)
    have h := root_order hC.is hr
    rw [← ofLimbs_res hr, ← resEquiv_apply] at h
    rw [← h]
    exact (orderOf_injective (resEquiv : Elem C ≃+* ZMod C.m).toRingHom.toMonoidHom
      resEquiv.injective _).symm
  beta_order := by
    have h := beta_order hC.is (beta_rep (C := C) ok)
    rw [← ofLimbs_res (beta_rep (C := C) ok), ← resEquiv_apply] at h
    rw [← h]
    exact (orderOf_injective (resEquiv : Elem C ≃+* ZMod C.m).toRingHom.toMonoidHom
      resEquiv.injective _).symm
  invAlpha x := by
    apply res_inj
    rw [res_pow, res_pow, ← pow_mul]
    exact alpha_perm hC.is _

end Elem

/-- The code's `Fp`. -/
abbrev Fp := Elem fpConsts
/-- The code's `Fq`. -/
abbrev Fq := Elem fqConsts

end Halo
