import Verif.Lemmas.Proofs.Challenge
/-!
# Batch inversion of field elements (C09)

The model has `batch_invert` twice: over limbs (`Fe.batchInvert`, C09_batch_invert) and over the
elements of any field, which is what the expansion of challenges uses.  This is C09 for the second.
-/
namespace Halo
variable {F : Type} [Field F] [DecidableEq F]

/-- the product of the entries that are not zero -/
private def nz (v : List F) : F := (v.filter (· ≠ 0)).prod

private theorem nz_cons (p : F) (v : List F) : nz (p :: v) = (if p = 0 then 1 else p) * nz v := by
  by_cases h : p = 0 <;> simp [nz, h]

private theorem nz_ne (v : List F) : nz v ≠ 0 := by
  induction v with
  | nil => simp [nz]
  | cons p v ih =>
    rw [nz_cons]
    refine mul_ne_zero ?_ ih
    split_ifs with h
    · exact one_ne_zero
    · exact h

private theorem nz_append (v w : List F) : nz (v ++ w) = nz v * nz w := by simp [nz]

private theorem nz_reverse (v : List F) : nz v.reverse = nz v := by
  simp [nz, List.filter_reverse, List.prod_reverse]

private theorem step_eq (p acc : F) : (if p = 0 then acc else acc * p) = acc * if p = 0 then 1 else p := by
  split_ifs <;> simp

private theorem forward_nz (v : List F) : ∀ acc : F, (batchForward v acc).2 = acc * nz v := by
  induction v with
  | nil => simp [batchForward, nz]
  | cons p v ih => intro acc; rw [batchForward, nz_cons]; simp only [ih, step_eq, mul_assoc]

private theorem backward_concat (l : List (F × F)) (p t : F) : ∀ acc : F,
    batchBackward (l ++ [(p, t)]) acc =
      batchBackward l acc ++ [if p = 0 then p else t * (acc * nz (l.map Prod.fst))] := by
  induction l with
  | nil => intro acc; simp [batchBackward, nz]
  | cons a l ih =>
    intro acc
    obtain ⟨q, s⟩ := a
    rw [List.cons_append, batchBackward, ih, batchBackward, List.map_cons, nz_cons, step_eq]
    simp [mul_assoc]

private theorem backward_eq (v : List F) : ∀ acc : F, acc ≠ 0 →
    (batchBackward (v.reverse.zip (batchForward v acc).1.reverse) (acc * nz v)⁻¹).reverse =
      v.map (·⁻¹) := by
  induction v with
  | nil => intro acc _; simp [batchForward, batchBackward]
  | cons p v ih =>
    intro acc hacc
    have hv := nz_ne v
    have hq : acc * (if p = 0 then 1 else p) ≠ 0 :=
      mul_ne_zero hacc (by split_ifs with h; exacts [one_ne_zero, h])
    rw [batchForward]
    simp only [List.reverse_cons, step_eq]
    rw [List.zip_append (by simp [batchForward_len]), List.zip_cons_cons, List.zip_nil_left,
      backward_concat, List.reverse_append, List.reverse_singleton, nz_cons,
      ← mul_assoc acc (if p = 0 then 1 else p), ih _ hq,
      List.map_fst_zip (by simp [batchForward_len]), List.map_cons, List.singleton_append, nz_reverse]
    congr 1
    by_cases h : p = 0
    · simp [h]
    · simp only [if_neg h]; field_simp

/-- **C09**, over the elements of a field: `batch_invert` inverts the entries that are not zero, leaves
the zeros, returns the product of the inverses of the entries that are not zero, and does not panic. -/
theorem C09_elements [LawfulField F] (v : List F) :
    batchInvert v = some (v.map fun x => if x = 0 then 0 else x⁻¹,
      ((v.filter (· ≠ 0)).map (·⁻¹)).prod) := by
  have hb := backward_eq v 1 one_ne_zero
  have hf : (fun x : F => if x = 0 then 0 else x⁻¹) = (·⁻¹) := by
    funext x; split_ifs with h <;> simp [h]
  unfold batchInvert
  simp only [forward_nz, one_mul] at hb ⊢
  rw [LawfulField.invert_eq _ (nz_ne v), hf]
  simp only [hb]
  rw [nz, List.prod_inv]

/-- A list with a zero between other entries: the zero stays, and the others are inverted. -/
example [LawfulField F] (h : (2 : F) ≠ 0) : batchInvert [(2 : F), 0, 1] = some ([2⁻¹, 0, 1], 2⁻¹) := by
  rw [C09_elements]
  simp [h]

end Halo
