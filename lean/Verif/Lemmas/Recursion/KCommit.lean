import Verif.Spec.RecursionCommit
import Verif.Spec.RecursionShape
import Verif.Spec.Proofs
import Verif.Lemmas.Gadget.EccMul
import Verif.Lemmas.Gadget.EccSound
import Verif.Lemmas.Proofs.Relation
import Verif.Lemmas.Recursion.Mode
/-!
# The commitment to the public inputs
-/
namespace Halo
namespace Recursion
open Circuit Proofs
open Circuit.Sha256 (foldProg index)

section sum
variable {G : Type} [AddCommGroup G] {g : ℕ → G}

theorem inputSum_nil : inputSum g [] = g 1 := by simp [inputSum]

theorem inputSum_concat (bits : List Bool) (b : Bool) :
    inputSum g (bits ++ [b]) = if b then inputSum g bits + g (bits.length + 2) else inputSum g bits := by
  have e : ∑ i ∈ Finset.range bits.length, (if (bits ++ [b]).getD i false then g (i + 2) else 0) =
      ∑ i ∈ Finset.range bits.length, if bits.getD i false then g (i + 2) else 0 := by
    apply Finset.sum_congr rfl
    intro i hi
    have hi := Finset.mem_range.1 hi
    simp [List.getD, hi, List.getElem?_append_left hi]
  rw [inputSum, List.length_append, List.length_singleton, Finset.sum_range_succ, e, inputSum]
  cases b <;> simp [List.getD, add_assoc]

theorem inputSum_take_succ {bits : List Bool} {i : ℕ} (hi : i < bits.length) :
    inputSum g (bits.take (i + 1)) =
      if bits[i] then inputSum g (bits.take i) + g (i + 2) else inputSum g (bits.take i) := by
  rw [List.take_succ_eq_append_getElem hi, inputSum_concat, List.length_take, min_eq_left hi.le]

variable {S : Type} [Field S] [Module S G]

omit [Module S G] [AddCommGroup G] in
theorem kPoly_range (vs : List S) : kPoly ((List.range' 1 vs.length).zip vs) = 0 :: vs := by
  induction vs using List.reverseRecOn with
  | nil => rfl
  | append_singleton vs v ih =>
    rw [List.length_append, List.length_singleton, List.range'_concat,
      List.zip_append (by simp), kPoly, List.foldl_append]
    show (resize (kPoly ((List.range' 1 vs.length).zip vs)) _).set _ _ = _
    rw [ih]
    simp [resize, add_comm 1]

theorem combine_inputs (bits : List Bool) :
    combine g 0 (kPoly ((List.range' 1 (bits.length + 1)).zip
      ((1 : S) :: bits.map fun b => if b then 1 else 0))) = inputSum g bits := by
  have := kPoly_range ((1 : S) :: bits.map fun b => if b then (1 : S) else 0)
  rw [List.length_cons, List.length_map] at this
  rw [this, combine_cons, combine_cons, zero_smul, zero_add, one_smul, inputSum, combine, List.length_map]
  congr 1
  apply Finset.sum_congr rfl
  intro i hi
  have hi := Finset.mem_range.1 hi
  simp only [List.getD, List.getElem?_map, List.getElem?_eq_getElem hi, Option.map_some, Option.getD_some]
  split <;> simp

end sum

variable {E : CurveConsts} {F : Type} [Field F] [DecidableEq F] [LawfulField F]

/-- The generators, with `z = 1` -/
def Gens (E : CurveConsts) (gens : List (Proj F)) (g : ℕ → Pt (E.b : F)) : Prop :=
  ∀ i, (h : i < gens.length) → gens[i].z = 1 ∧ Denotes (E.b : F) gens[i] (g i)

omit [DecidableEq F] [LawfulField F] in
theorem const_honest {w : Var → F} {p : Proj F} {A : Pt (E.b : F)} (hz : p.z = 1) (h : Denotes (E.b : F) p A) :
    (CurvePoint.const p.x p.y).Honest w A ∧ A ≠ 0 := by
  cases h with
  | zero hy => exact absurd hz.symm (by simp)
  | some hz' n =>
    simp only at hz
    subst hz
    simp only [mul_one]
    exact ⟨⟨⟨rfl, rfl, rfl⟩, rfl, rfl, rfl⟩, nofun⟩

omit [LawfulField F] in
/-- The native computation -/
theorem inputCommitment_eq (gc : GoodCurve F E) {gens : List (Proj F)} {g : ℕ → Pt (E.b : F)}
    (hg : ∀ i, (h : i < gens.length) → Denotes (E.b : F) gens[i] (g i)) (h2 : 2 ≤ gens.length)
    {bits : List Bool} (hl : bits.length ≤ gens.length - 2) :
    ∃ K, inputCommitment E gens bits = some K ∧ Denotes (E.b : F) K (inputSum g bits) := by
  rw [inputCommitment, List.getElem?_eq_getElem (by omega)]
  simp only [Option.bind_eq_bind, Option.bind_some]
  induction bits using List.reverseRecOn with
  | nil => exact ⟨_, rfl, by rw [inputSum_nil]; exact hg 1 _⟩
  | append_singleton bits b ih =>
    rw [List.length_append, List.length_singleton] at hl
    obtain ⟨K, hK, hd⟩ := ih (by omega)
    rw [List.zipIdx_append, List.foldlM_append, hK]
    simp only [Option.bind_eq_bind, Option.bind_some, List.zipIdx_cons, List.zipIdx_nil, List.foldlM_cons,
      List.foldlM_nil, zero_add]
    rw [inputSum_concat]
    cases b
    · exact ⟨K, by simp, by simpa using hd⟩
    · simp only [if_true]
      rw [List.getElem?_drop, List.getElem?_eq_getElem (by omega)]
      refine ⟨_, rfl, denotes_add gc hd ?_⟩
      have := hg (2 + bits.length) (by omega)
      rwa [show g (2 + bits.length) = g (bits.length + 2) by rw [add_comm]] at this

variable {w : Var → F} {one : Var}

/-- The circuit, with honest values -/
theorem kCommitment_complete (gc : GoodCurve F E) (h1 : w one = 1) {gens : List (Proj F)} {g : ℕ → Pt (E.b : F)}
    (hg : Gens E gens g) (h2 : 2 ≤ gens.length) {bits : List AllocatedBit} {vs : List Bool}
    (hb : List.Forall₂ (fun b v => b.Honest w v) bits vs) (hl : vs.length ≤ gens.length - 2)
    (ha : Apart g vs) : Complete w (kCommitment E one gens bits) fun R => R.Honest w (inputSum g vs) := by
  have hlen := hb.length_eq
  rw [kCommitment, index, List.getElem?_eq_getElem (by omega)]
  refine Complete.bind (P := fun r => r = gens[1]) (by exact rfl) ?_
  rintro _ rfl
  have := (Logic.complete w).foldProg (f := fun (acc : CurvePoint F) (e : AllocatedBit × Proj F) =>
      CurvePoint.addConditionallyIncomplete E one acc (.const e.2.x e.2.y) (Boolean.is e.1))
    (xs := bits.zip (gens.drop 2)) (s := .const gens[1].x gens[1].y)
    (fun i R => R.Honest w (inputSum g (vs.take i))) 0
    (by rw [List.take_zero, inputSum_nil]; exact (const_honest (hg 1 _).1 (hg 1 _).2).1) ?_
  · rwa [zero_add, List.length_zip, List.length_drop, hlen, min_eq_left hl, List.take_length] at this
  · intro i e R he hR
    rw [zero_add] at hR ⊢
    obtain ⟨hi, he⟩ := List.getElem?_eq_some_iff.1 he
    rw [List.length_zip, List.length_drop] at hi
    have hi' : i < vs.length := by omega
    rw [List.getElem_zip, List.getElem_drop] at he
    subst he
    rw [inputSum_take_succ hi']
    obtain ⟨hz, hd⟩ := hg (2 + i) (by omega)
    obtain ⟨hh, hne⟩ := const_honest (w := w) hz hd
    rw [show g (2 + i) = g (i + 2) by rw [add_comm]] at hh hne
    obtain ⟨a1, a2, a3⟩ := ha i hi'
    exact CurvePoint.addConditionallyIncomplete_complete gc h1 hR hh
      ((List.forall₂_iff_get.1 hb).2 i (by omega) hi') a1 hne a2 a3

/-- The circuit, with any satisfying values -/
theorem kCommitment_sound (gc : GoodCurve F E) (h1 : w one = 1) {gens : List (Proj F)} {g : ℕ → Pt (E.b : F)}
    (hg : Gens E gens g) (h2 : 2 ≤ gens.length) {bits : List AllocatedBit} {vs : List Bool}
    (hb : List.Forall₂ (fun b v => b.Means w v) bits vs) (hl : vs.length ≤ gens.length - 2)
    (ha : Apart g vs) : Sound w (kCommitment E one gens bits) fun R => R.Means w (inputSum g vs) := by
  have hlen := hb.length_eq
  rw [kCommitment, index, List.getElem?_eq_getElem (by omega)]
  refine Sound.bind (P := fun r => r = gens[1]) (by exact rfl) ?_
  rintro _ rfl
  have := (Logic.sound w).foldProg (f := fun (acc : CurvePoint F) (e : AllocatedBit × Proj F) =>
      CurvePoint.addConditionallyIncomplete E one acc (.const e.2.x e.2.y) (Boolean.is e.1))
    (xs := bits.zip (gens.drop 2)) (s := .const gens[1].x gens[1].y)
    (fun i R => R.Means w (inputSum g (vs.take i))) 0
    (by rw [List.take_zero, inputSum_nil]; exact (const_honest (hg 1 _).1 (hg 1 _).2).1.means) ?_
  · rwa [zero_add, List.length_zip, List.length_drop, hlen, min_eq_left hl, List.take_length] at this
  · intro i e R he hR
    rw [zero_add] at hR ⊢
    obtain ⟨hi, he⟩ := List.getElem?_eq_some_iff.1 he
    rw [List.length_zip, List.length_drop] at hi
    have hi' : i < vs.length := by omega
    rw [List.getElem_zip, List.getElem_drop] at he
    subst he
    rw [inputSum_take_succ hi']
    obtain ⟨hz, hd⟩ := hg (2 + i) (by omega)
    obtain ⟨hh, hne⟩ := const_honest (w := w) hz hd
    rw [show g (2 + i) = g (i + 2) by rw [add_comm]] at hh hne
    obtain ⟨a1, a2, a3⟩ := ha i hi'
    exact CurvePoint.addConditionallyIncomplete_sound gc h1 hR hh.means
      ((List.forall₂_iff_get.1 hb).2 i (by omega) hi') a1 hne a2

end Recursion
end Halo
