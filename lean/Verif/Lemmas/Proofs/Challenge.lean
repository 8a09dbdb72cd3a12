import Verif.Lemmas.Proofs.Opening
import Verif.Lemmas.Gadget.EccMul
/-!
# Expanding packed challenges
-/
namespace Halo

section
variable {F : Type} [Field F] [DecidableEq F]

theorem batchForward_acc (v : List F) (h : ∀ x ∈ v, x ≠ 0) : ∀ acc : F,
    (batchForward v acc).2 = acc * v.prod := by
  induction v with
  | nil => simp [batchForward]
  | cons p v ih =>
    intro acc
    have hp := h p (List.mem_cons_self ..)
    rw [batchForward]
    simp only [if_neg hp, ih fun x hx => h x (List.mem_cons_of_mem _ hx), List.prod_cons, mul_assoc]

theorem batchForward_len (v : List F) : ∀ acc : F, (batchForward v acc).1.length = v.length := by
  induction v with
  | nil => simp [batchForward]
  | cons p v ih => intro acc; rw [batchForward]; simp [ih]

theorem batchBackward_concat (l : List (F × F)) (h : ∀ x ∈ l, x.1 ≠ 0) (p t : F) (hp : p ≠ 0) :
    ∀ acc : F, batchBackward (l ++ [(p, t)]) acc =
      batchBackward l acc ++ [t * (acc * (l.map Prod.fst).prod)] := by
  induction l with
  | nil => intro acc; simp [batchBackward, hp]
  | cons a l ih =>
    intro acc
    obtain ⟨q, s⟩ := a
    have hq : q ≠ 0 := h (q, s) (List.mem_cons_self ..)
    rw [List.cons_append, batchBackward, ih fun x hx => h x (List.mem_cons_of_mem _ hx), batchBackward]
    simp [hq, mul_assoc]

theorem batchBackward_eq (v : List F) (h : ∀ x ∈ v, x ≠ 0) : ∀ acc : F, acc ≠ 0 →
    (batchBackward (v.reverse.zip (batchForward v acc).1.reverse) (acc * v.prod)⁻¹).reverse =
      v.map (·⁻¹) := by
  induction v with
  | nil => intro acc _; simp [batchForward, batchBackward]
  | cons p v ih =>
    intro acc hacc
    have hp := h p (List.mem_cons_self ..)
    have hv : ∀ x ∈ v, x ≠ 0 := fun x hx => h x (List.mem_cons_of_mem _ hx)
    have hpr : v.prod ≠ 0 := by
      intro h0
      exact hv 0 (List.prod_eq_zero_iff.1 h0) rfl
    rw [batchForward]
    simp only [if_neg hp, List.reverse_cons]
    rw [List.zip_append (by simp [batchForward_len]), List.zip_cons_cons, List.zip_nil_left,
      batchBackward_concat _ _ _ _ hp]
    · rw [List.reverse_append, List.reverse_singleton, List.prod_cons, ← mul_assoc acc p, ih hv _ (mul_ne_zero hacc hp),
        List.map_fst_zip (by simp [batchForward_len]), List.map_cons, List.singleton_append, List.prod_reverse]
      congr 1
      field_simp
    · intro x hx
      exact hv _ (by simpa using (List.of_mem_zip hx).1)

theorem batchInvert_eq [LawfulField F] (v : List F) (h : ∀ x ∈ v, x ≠ 0) :
    batchInvert v = some (v.map (·⁻¹), (v.map (·⁻¹)).prod) := by
  have hpr : v.prod ≠ 0 := fun h0 => h 0 (List.prod_eq_zero_iff.1 h0) rfl
  have := batchBackward_eq v h 1 one_ne_zero
  unfold batchInvert
  simp only [batchForward_acc v h, one_mul] at this ⊢
  rw [LawfulField.invert_eq _ hpr]
  simp only [this]
  congr 2
  induction v with
  | nil => simp
  | cons p v ih => 
    simp only [List.prod_cons, List.map_cons, mul_inv]
    have hv : ∀ x ∈ v, x ≠ 0 := fun x hx => h x (List.mem_cons_of_mem _ hx)
    rw [ih hv (fun h0 => hv 0 (List.prod_eq_zero_iff.1 h0) rfl) (by simpa using batchBackward_eq v hv 1 one_ne_zero)]

end

namespace Proofs
open Util
variable {S : Type} [Field S] [DecidableEq S] [LawfulField S]

omit [DecidableEq S] in
theorem Roots.ne {packed us : List S} (h : Roots packed us) : ∀ u ∈ us, u ≠ 0 := by
  induction h with
  | nil => simp
  | @cons p u ps us h1 _ ih =>
    intro x hx
    rcases List.mem_cons.1 hx with rfl | hx
    · rintro rfl
      have := sqrt_mul h1
      rw [mul_zero] at this
      exact Circuit.CurvePoint.expandChallenge_ne_zero _ this.symm
    · exact ih x hx

omit [DecidableEq S] in
theorem Roots.sq {packed us : List S} (h : Roots packed us) :
    (packed.map fun v => (getChallengeScalar v : S)) = us.map (· ^ 2) := by
  induction h with
  | nil => rfl
  | cons h1 _ ih => rw [List.map_cons, List.map_cons, ih, pow_two, sqrt_mul h1]

omit [DecidableEq S] in
theorem Roots.length {packed us : List S} (h : Roots packed us) : us.length = packed.length :=
  (List.Forall₂.length_eq h).symm

omit [DecidableEq S] in
theorem Roots.mapM {packed us : List S} (h : Roots packed us) :
    (packed.map fun v => (getChallengeScalar v : S)).mapM FieldApi.sqrt = some us := by
  rw [mapM_some_iff, List.forall₂_map_left_iff]
  exact h

omit [DecidableEq S] in
theorem Roots.unique {packed us vs : List S} (h : Roots packed us) (h' : Roots packed vs) : us = vs := by
  have := h.mapM
  rw [h'.mapM] at this
  exact (Option.some.inj this).symm

theorem expandChallenges_eq {packed us : List S} (h : Roots packed us) :
    expandChallenges packed =
      some (us.map (· ^ 2), us, us.map (·⁻¹), (us.map (·⁻¹)).prod) := by
  unfold expandChallenges
  have e := h.mapM
  rw [h.sq] at e
  simp only [h.sq, Option.bind_eq_bind]
  rw [e]
  simp only [Option.bind_some, batchInvert_eq us h.ne]

theorem expandChallenges_none {packed : List S} (h : ¬ ∃ us, Roots packed us) :
    expandChallenges packed = none := by
  unfold expandChallenges
  cases hm : (packed.map fun v => (getChallengeScalar v : S)).mapM FieldApi.sqrt with
  | none => simp only [hm, Option.bind_eq_bind, Option.bind_none]
  | some us =>
    exfalso
    rw [mapM_some_iff, List.forall₂_map_left_iff] at hm
    exact h ⟨us, hm⟩

omit [DecidableEq S] in
/-- The challenges have roots if their scalars are squares. -/
theorem roots_iff (packed : List S) :
    (∃ us, Roots packed us) ↔ ∀ p ∈ packed, IsSquare (getChallengeScalar p : S) := by
  induction packed with
  | nil => exact ⟨by simp, fun _ => ⟨[], .nil⟩⟩
  | cons p ps ih =>
    rw [List.forall_mem_cons, ← ih]
    constructor
    · rintro ⟨us, h⟩
      cases h with
      | cons h1 h2 => exact ⟨⟨_, (sqrt_mul h1).symm⟩, _, h2⟩
    · rintro ⟨h1, us, h2⟩
      obtain ⟨y, hy, -⟩ := LawfulField.sqrt_some _ h1
      exact ⟨y :: us, .cons hy h2⟩

/-! ### The scalar of a challenge, with natural numbers -/

/-- `expandChallenge` with residues -/
def expandN (m β : ℕ) (challenge : BitVec 128) : ℕ :=
  (List.range' 1 63).foldl (fun acc i =>
    let shouldNegate := (challenge >>> (i * 2)) &&& 1#128 == 1#128
    let shouldEndo := (challenge >>> (i * 2 + 1)) &&& 1#128 == 1#128
    let acc := (acc + acc) % m
    let acc := if shouldNegate then acc + (m - 1) else acc + 1
    if shouldEndo then acc * β % m else acc) 3

omit [DecidableEq S] in
theorem expandN_cast (c : BitVec 128) :
    ((expandN (modulus S) (LawfulField.val (FieldApi.beta : S)) c : ℕ) : S) = expandChallenge c := by
  have hm : ((modulus S - 1 : ℕ) : S) = -1 := by
    rw [Nat.cast_sub (LawfulField.prime (F := S)).one_lt.le]
    have : ((modulus S : ℕ) : S) = 0 := by
      have := (LawfulField.cast_eq_iff (F := S) (modulus S) 0).2 (by simp)
      simpa using this
    rw [this]; simp
  have hmod : ∀ a : ℕ, ((a % modulus S : ℕ) : S) = a := fun a =>
    (LawfulField.cast_eq_iff (F := S) _ _).2 (Nat.mod_mod _ _)
  unfold expandN expandChallenge
  have key : ∀ (l : List ℕ) (a : ℕ) (b : S), (a : S) = b →
    ((l.foldl (fun acc i =>
      let shouldNegate := (c >>> (i * 2)) &&& 1#128 == 1#128
      let shouldEndo := (c >>> (i * 2 + 1)) &&& 1#128 == 1#128
      let acc := (acc + acc) % modulus S
      let acc := if shouldNegate then acc + (modulus S - 1) else acc + 1
      if shouldEndo then acc * LawfulField.val (FieldApi.beta : S) % modulus S else acc) a : ℕ) : S) =
    l.foldl (fun acc i =>
      let shouldNegate := (c >>> (i * 2)) &&& 1#128 == 1#128
      let shouldEndo := (c >>> (i * 2 + 1)) &&& 1#128 == 1#128
      let acc := acc + acc
      let acc := if shouldNegate then acc - 1 else acc + 1
      if shouldEndo then acc * FieldApi.beta else acc) b := by
    intro l
    induction l with
    | nil => intro a b h; exact h
    | cons i l ih =>
      intro a b h
      rw [List.foldl_cons, List.foldl_cons]
      apply ih
      dsimp only
      split <;> split <;> simp [hmod, hm, h, LawfulField.val_cast, sub_eq_add_neg]
  exact key _ _ _ (by push_cast; norm_num)

end Proofs

/-- The scalar of the packed challenge `MAGIC` is a square in both scalar fields. -/
theorem IsHaloCurve.magic_check {E : CurveConsts} {m n : ℕ} (h : IsHaloCurve E m n) :
    ∃ y : ℕ, y * y % n =
      Proofs.expandN n (if n = Q then fqConsts.betaRaw.toNat else fpConsts.betaRaw.toNat) 12#128 % n := by
  cases h
  · exact ⟨10507042298835875209359860008709966058759983217865751431248756649280735204070, by decide +kernel⟩
  · exact ⟨25429100708490257883122176710174056263707015591911539330841888851340146777078, by decide +kernel⟩

/-- So is the one of the challenge `2^127 + 12`, which a transcript can give. -/
theorem IsHaloCurve.magic_check' {E : CurveConsts} {m n : ℕ} (h : IsHaloCurve E m n) :
    ∃ y : ℕ, y * y % n =
      Proofs.expandN n (if n = Q then fqConsts.betaRaw.toNat else fpConsts.betaRaw.toNat)
        (12#128 ||| (1#128 <<< 127)) % n := by
  cases h
  · exact ⟨12345633927388332288408435851563522923562800519858532648854158327652633596991, by decide +kernel⟩
  · exact ⟨21584282641352412410654123838656836957885464599086421158023383935037476056150, by decide +kernel⟩

namespace Proofs
open Util
variable {E : CurveConsts} {F : Type} [Field F] [LawfulField F] {S : Type} [Field S] [LawfulField S]

theorem expandN_square (h : HaloCurve E F S) (c : BitVec 128) {y : ℕ} (hy : y * y % modulus S =
      expandN (modulus S) (if modulus S = Q then fqConsts.betaRaw.toNat else fpConsts.betaRaw.toNat) c %
        modulus S) : IsSquare (expandChallenge c : S) := by
  rw [← h.betaScalar] at hy
  refine ⟨(y : S), ?_⟩
  rw [← expandN_cast, ← Nat.cast_mul, LawfulField.cast_eq_iff, hy]

theorem magic_square (h : HaloCurve E F S) : IsSquare (expandChallenge 12#128 : S) :=
  let ⟨_, hy⟩ := h.is.magic_check
  expandN_square h _ hy

theorem magic_square' (h : HaloCurve E F S) :
    IsSquare (expandChallenge (12#128 ||| (1#128 <<< 127)) : S) :=
  let ⟨_, hy⟩ := h.is.magic_check'
  expandN_square h _ hy

end Proofs
end Halo
