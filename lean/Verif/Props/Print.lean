import Verif.Lemmas.Print
import Verif.Lemmas.FieldInst
import Verif.Props.Field
import Verif.Props.Curve
/-!
# Printed values (C85)
-/
namespace Halo
open Circuit Fe

/-- **C85**, field elements: `{:?}` prints `0x` and 64 lower-case hexadecimal digits, which denote the least
representative of the element. -/
theorem C85_field (C : Consts) (hC : IsHaloField C) {a : Limbs} {x : ZMod C.m} (ha : Represents C a x) :
    (debugLimbs C a).take 2 = "0x".toList ∧ ((debugLimbs C a).drop 2).length = 64 ∧
    (∀ c ∈ (debugLimbs C a).drop 2, c ∈ hexDigits) ∧ hexNat ((debugLimbs C a).drop 2) = x.val := by
  refine ⟨rfl, ?_, ?_, ?_⟩
  · rw [List.length_drop, debugLimbs, length_debugBytes]
  · intro c h
    rw [debugLimbs, drop_debugBytes, List.mem_flatMap] at h
    obtain ⟨b, -, h⟩ := h
    exact byteHex_mem h
  · rw [debugLimbs, drop_debugBytes, hexNat_bytes]
    exact (C04_encoding hC).1 a x ha

/-- **C85**, field elements: two elements print alike exactly if they are equal. -/
theorem C85_field_iff (C : Consts) (hC : IsHaloField C) {a b : Limbs} {x y : ZMod C.m} (ha : Represents C a x)
    (hb : Represents C b y) : debugLimbs C a = debugLimbs C b ↔ x = y := by
  constructor
  · intro h
    have : NeZero C.m := ⟨(m_pos hC.ok).ne'⟩
    apply ZMod.val_injective
    rw [← (C85_field C hC ha).2.2.2, ← (C85_field C hC hb).2.2.2, h]
  · rintro rfl
    rw [rep_inj ha hb]

/-- `1` and `p - 1` of the first field -/
example : String.ofList (debugLimbs fpConsts (one fpConsts)) =
      "0x0000000000000000000000000000000000000000000000000000000000000001" ∧
    hexNat ((debugLimbs fpConsts (neg fpConsts (one fpConsts))).drop 2) = P - 1 := by
  decide +kernel

variable {F : Type} [Field F] [LawfulField F]

/-- **C85**, points: the three coordinates are printed, so that two points print alike exactly if they have the same
coordinates. -/
theorem C85_point_iff (name : List Char) (A B : Proj F) :
    debugPoint name A = debugPoint name B ↔ A = B := by
  have key : ∀ (x y : F) (l1 l2 : List Char), debugField x ++ l1 = debugField y ++ l2 → x = y ∧ l1 = l2 := by
    intro x y l1 l2 h
    obtain ⟨h1, h2⟩ := List.append_inj h (by rw [debugField, debugField, length_debugBytes, length_debugBytes])
    refine ⟨?_, h2⟩
    have := debugBytes_inj h1
    rw [← LawfulField.val_cast x, ← LawfulField.val_cast y, ← LawfulField.toBytes_val, ← LawfulField.toBytes_val, this]
  constructor
  · intro h
    simp only [debugPoint, List.append_assoc, List.append_cancel_left_eq] at h
    obtain ⟨h1, h⟩ := key _ _ _ _ h
    simp only [List.append_cancel_left_eq] at h
    obtain ⟨h2, h⟩ := key _ _ _ _ h
    simp only [List.append_cancel_left_eq] at h
    obtain ⟨h3, -⟩ := key _ _ _ _ h
    rcases A with ⟨x, y, z⟩
    rcases B with ⟨x', y', z'⟩
    simp only at h1 h2 h3
    rw [h1, h2, h3]
  · rintro rfl
    rfl

/-- **C85** is false for points: equal points may print differently.  Adding the identity to a point gives an equal
point, as `==` says, but with other coordinates, unless its `y` is `1`. -/
theorem C85_equal_points_print_differently [DecidableEq F] (E : CurveConsts) (name : List Char) {A : Proj F}
    (hz : A.z ≠ 0) (h1 : A.y ≠ 1) :
    A.ctEq (A.add E Proj.zero) = true ∧ debugPoint name A ≠ debugPoint name (A.add E Proj.zero) := by
  have key : A.add E Proj.zero = ⟨A.x * A.y, A.y * A.y, A.z * A.y⟩ := by
    simp [Proj.add, Proj.zero, Proj.mulBy3b]
  rw [key]
  refine ⟨?_, ?_⟩
  · simp only [Proj.ctEq, Proj.isZero, beq_eq_false_iff_ne.2 hz]
    simp
    constructor <;> ring
  · rw [Ne, C85_point_iff]
    intro h
    have := congrArg Proj.z h
    simp only at this
    exact h1 (mul_left_cancel₀ hz (by rw [← this, mul_one]))

/-- the generator of the first curve -/
example : (Proj.one ec0 : Proj Fq).ctEq ((Proj.one ec0).add ec0 Proj.zero) = true ∧
    debugPoint "Ec0".toList (Proj.one ec0 : Proj Fq) ≠ debugPoint "Ec0".toList
      ((Proj.one ec0 : Proj Fq).add ec0 Proj.zero) := by
  have hy : LawfulField.val (ec0.gy : Fq) ≠ LawfulField.val (1 : Fq) := by
    rw [← Nat.cast_one, LawfulField.val_natCast, LawfulField.val_natCast]; decide +kernel
  exact C85_equal_points_print_differently ec0 _ one_ne_zero fun h => hy (congrArg LawfulField.val h)

/-- **C85**, counts: two counts print alike exactly if they are equal. -/
theorem C85_counts_iff (a b : Counts) : a.display = b.display ↔ a = b := by
  constructor
  · intro h
    simp only [Counts.display, List.append_assoc, List.append_cancel_left_eq] at h
    obtain ⟨h1, h⟩ := toDigits_append_inj (by decide) h
    obtain ⟨h2, h⟩ := toDigits_append_inj (by decide) (List.append_cancel_left (as := [' ']) h)
    obtain ⟨h3, h⟩ := toDigits_append_inj (by decide) (List.append_cancel_left (as := [' ']) h)
    obtain ⟨h4, -⟩ := toDigits_append_inj (by decide) (List.append_cancel_left (as := [' ']) h)
    rcases a with ⟨a1, a2, a3, a4⟩
    rcases b with ⟨b1, b2, b3, b4⟩
    simp only at h1 h2 h3 h4
    rw [h1, h2, h3, h4]
  · rintro rfl
    rfl

example : String.ofList (Counts.display ⟨12, 0, 3, 407⟩) = "(12A 0M 3C 407Q)" := by decide +kernel

end Halo
