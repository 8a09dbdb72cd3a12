import Verif.Lemmas.Curve
import Verif.Lemmas.LawfulField
import Verif.Lemmas.FieldBytes
/-!
# Scalar multiplication, group order, equality and coordinates
-/
namespace Halo
open WeierstrassCurve.Affine
open Fe (bitsVal)
variable {F : Type} [Field F] [DecidableEq F] {E : CurveConsts}

theorem bitsVal_cons (b : Bool) (l : List Bool) (n : ℕ) :
    bitsVal (b :: l) n = bitsVal l (2 * n + b.toNat) := rfl

theorem bitsVal_append (l1 l2 : List Bool) (n : ℕ) :
    bitsVal (l1 ++ l2) n = bitsVal l2 (bitsVal l1 n) := by simp [bitsVal, List.foldl_append]

theorem bitsVal_acc (l : List Bool) (n : ℕ) : bitsVal l n = 2 ^ l.length * n + bitsVal l 0 := by
  induction l generalizing n with
  | nil => simp [bitsVal]
  | cons b l ih =>
    rw [bitsVal_cons, bitsVal_cons, ih, ih (2 * 0 + b.toNat), List.length_cons, pow_succ]; ring

/-- bits of a byte, most significant first -/
theorem byteBits_val (b : BitVec 8) (n : ℕ) :
    bitsVal ([7, 6, 5, 4, 3, 2, 1, 0].map fun i => ((b >>> i) &&& 1#8) == 1#8) n
      = 256 * n + b.toNat := by
  rw [bitsVal_acc]
  have : bitsVal ([7, 6, 5, 4, 3, 2, 1, 0].map fun i => ((b >>> i) &&& 1#8) == 1#8) 0 = b.toNat := by
    revert b; decide +kernel
  rw [this]; simp

theorem allBits_val (l : List (BitVec 8)) :
    bitsVal (l.reverse.flatMap fun byte =>
      [7, 6, 5, 4, 3, 2, 1, 0].map fun i => ((byte >>> i) &&& 1#8) == 1#8) 0 = leNat l := by
  induction l with
  | nil => rfl
  | cons a l ih =>
    rw [List.reverse_cons, List.flatMap_append, bitsVal_append, ih]
    simp only [List.flatMap_cons, List.flatMap_nil, List.append_nil]
    rw [byteBits_val, leNat]; ring

theorem scalarBits_val (bytes : Vector (BitVec 8) 32) (h : leNat bytes.toList < 2 ^ 255) :
    bitsVal (Proj.scalarBits bytes) 0 = leNat bytes.toList := by
  unfold Proj.scalarBits
  have hv := allBits_val bytes.toList
  generalize hl : (bytes.toList.reverse.flatMap fun byte =>
      [7, 6, 5, 4, 3, 2, 1, 0].map fun i => ((byte >>> i) &&& 1#8) == 1#8) = l at hv ⊢
  have hlen : l.length = 256 := by
    rw [← hl, List.length_flatMap]; simp
  cases l with
  | nil => simp at hlen
  | cons b l =>
    rw [List.drop_one, List.tail_cons]
    rw [bitsVal_cons, bitsVal_acc] at hv
    have hlen' : l.length = 255 := by simpa using hlen
    rw [hlen'] at hv
    cases b
    · simpa using hv
    · simp at hv; omega

/-- double-and-add over any list of bits -/
theorem denotes_fold (g : GoodCurve F E) {P : Proj F} {A : Pt (E.b : F)}
    (hP : Denotes (E.b : F) P A) (bits : List Bool) (acc : Proj F) (n : ℕ)
    (hacc : Denotes (E.b : F) acc (n • A)) :
    Denotes (E.b : F) (bits.foldl (fun acc bit =>
      let acc := Proj.double E acc
      Proj.conditionalSelect acc (Proj.add E acc P) bit) acc) (bitsVal bits n • A) := by
  induction bits generalizing acc n with
  | nil => exact hacc
  | cons b bits ih =>
    rw [List.foldl_cons, bitsVal_cons]
    apply ih
    have hd := denotes_double g hacc
    cases b
    · simpa [Proj.conditionalSelect, add_nsmul, two_mul] using hd
    · have := denotes_add g hd hP
      simpa [Proj.conditionalSelect, add_nsmul, two_mul] using this

omit [DecidableEq F] in
theorem denotes_proj_zero {b : F} : Denotes b (Proj.zero : Proj F) 0 := Denotes.zero one_ne_zero

theorem denotes_mul (g : GoodCurve F E) {S : Type} [Field S] [LawfulField S]
    {P : Proj F} {A : Pt (E.b : F)} (hP : Denotes (E.b : F) P A) (s : S) :
    Denotes (E.b : F) (Proj.mul E P s) (LawfulField.val s • A) := by
  have hv := LawfulField.toBytes_val s
  have hlt : leNat (FieldApi.toBytes s).toList < 2 ^ 255 := by
    rw [hv]; exact (LawfulField.val_lt s).trans (LawfulField.modulus_bound (F := S)).2
  have := denotes_fold g hP (Proj.scalarBits (FieldApi.toBytes s)) Proj.zero 0
    (by rw [zero_nsmul]; exact denotes_proj_zero)
  rw [scalarBits_val _ hlt, hv] at this
  exact this

/-! ## uniqueness of the denotation -/

omit [DecidableEq F] in
theorem denotes_unique {b : F} {P : Proj F} {A B : Pt b} (h1 : Denotes b P A)
    (h2 : Denotes b P B) : A = B := by
  cases h1 with
  | zero hy => 
    generalize hQ : (⟨0, _, 0⟩ : Proj F) = Q at h2
    cases h2 with
    | zero => rfl
    | some hz n => exact absurd (congrArg Proj.z hQ).symm hz
  | @some x y z hz n =>
    generalize hQ : (⟨x * z, y * z, z⟩ : Proj F) = Q at h2
    cases h2 with
    | zero => exact absurd (congrArg Proj.z hQ) hz
    | @some x' y' z' hz' n' =>
      simp only [Proj.mk.injEq] at hQ
      obtain ⟨h1, h2, rfl⟩ := hQ
      obtain rfl := mul_right_cancel₀ hz h1
      obtain rfl := mul_right_cancel₀ hz h2
      rfl

/-- `ct_eq` on denoting triples -/
theorem ctEq_iff {b : F} {P Q : Proj F} {A B : Pt b} (hP : Denotes b P A) (hQ : Denotes b Q B) :
    Proj.ctEq P Q = true ↔ (A = 0 ∨ A = B) := by
  cases hP with
  | zero hy => simp [Proj.ctEq, Proj.isZero]
  | @some x1 y1 z1 hz1 n1 =>
    have hA : (Point.some x1 y1 n1 : Pt b) ≠ 0 := Point.some_ne_zero n1
    cases hQ with
    | @zero y2 hy2 =>
      simp [Proj.ctEq, Proj.isZero, hz1, hA, hy2]
    | @some x2 y2 z2 hz2 n2 =>
      simp only [Proj.ctEq, Proj.isZero, hA, false_or]
      have e : ∀ u v : F, u * z1 * z2 = v * z2 * z1 ↔ u = v := by
        intro u v
        constructor
        · intro h
          have : u * (z1 * z2) = v * (z1 * z2) := by linear_combination h
          exact mul_right_cancel₀ (mul_ne_zero hz1 hz2) this
        · rintro rfl; ring
      simp [hz1, e]

end Halo
