import Verif.Lemmas.Recursion.KCommit
import Verif.Lemmas.Gadget.EccFast
import Verif.Props.Curve
/-!
# The commitment to the public inputs (C59)

`Verif.Spec.RecursionCommit` says what is committed to (`inputSum`) and when the incomplete additions of
the circuit are never exceptional (`Apart`).
-/
namespace Halo
namespace Recursion
open Circuit Proofs
variable {E : CurveConsts} {F : Type} [Field F] [DecidableEq F] [LawfulField F]
variable (S : Type) [Field S] [LawfulField S]

/-- **C59**, native: the verifier's commitment to the public inputs is the sum of the generators for the
constant one and for the bits that are set; this is the commitment to the polynomial `k(Y)` of the proof
system for public inputs at the positions `1, 2, …`. -/
theorem C59_native_commitment [HaloCurve E F S] {gens : List (Proj F)} {g : ℕ → Pt (E.b : F)}
    (hg : ∀ i, (h : i < gens.length) → Denotes (E.b : F) gens[i] (g i)) (h2 : 2 ≤ gens.length)
    {bits : List Bool} (hl : bits.length ≤ gens.length - 2) :
    letI := HaloCurve.module (E := E) (F := F) (S := S)
    ∃ K, inputCommitment E gens bits = some K ∧ Denotes (E.b : F) K (inputSum g bits) ∧
      inputSum g bits = combine g 0 (kPoly ((List.range' 1 (bits.length + 1)).zip
        ((1 : S) :: bits.map fun b => if b then 1 else 0))) := by
  let := HaloCurve.module (E := E) (F := F) (S := S)
  obtain ⟨K, hK, hd⟩ := inputCommitment_eq (HaloCurve.good E F S) hg h2 hl
  exact ⟨K, hK, hd, (combine_inputs bits).symm⟩

variable {w : Var → F} {one : Var}

/-- **C59**, in the circuit: unless one of the incomplete additions is exceptional, the honest prover can
satisfy the constraints of the commitment, and the result is the verifier's commitment. -/
theorem C59_commitment_complete [HaloCurve E F S] (h1 : w one = 1) {gens : List (Proj F)}
    {g : ℕ → Pt (E.b : F)} (hg : Gens E gens g) (h2 : 2 ≤ gens.length) {bits : List AllocatedBit}
    {vs : List Bool} (hb : List.Forall₂ (fun b v => b.Honest w v) bits vs)
    (hl : vs.length ≤ gens.length - 2) (ha : Apart g vs) :
    Complete w (kCommitment E one gens bits) fun R => R.Honest w (inputSum g vs) :=
  kCommitment_complete (HaloCurve.good E F S) h1 hg h2 hb hl ha

/-- **C59**, in the circuit: under the same condition, no assignment that satisfies the constraints
gives another result. -/
theorem C59_commitment_sound [HaloCurve E F S] (h1 : w one = 1) {gens : List (Proj F)}
    {g : ℕ → Pt (E.b : F)} (hg : Gens E gens g) (h2 : 2 ≤ gens.length) {bits : List AllocatedBit}
    {vs : List Bool} (hb : List.Forall₂ (fun b v => b.Means w v) bits vs)
    (hl : vs.length ≤ gens.length - 2) (ha : Apart g vs) :
    Sound w (kCommitment E one gens bits) fun R => R.Means w (inputSum g vs) :=
  kCommitment_sound (HaloCurve.good E F S) h1 hg h2 hb hl ha

/-! ### An instance -/

/-- `2^20` times a point, and otherwise the point -/
def spread (A : Pt (E.b : F)) (i : ℕ) : Pt (E.b : F) := if i = 1 then 2 ^ 20 • A else A

omit [LawfulField F] in
theorem inputSum_spread (A : Pt (E.b : F)) (bits : List Bool) :
    inputSum (spread A) bits = (2 ^ 20 + bits.count true) • A := by
  induction bits using List.reverseRecOn with
  | nil => simp [inputSum_nil, spread]
  | append_singleton bits b ih =>
    rw [inputSum_concat, ih]
    cases b <;> simp [spread, add_smul, add_assoc]

theorem spread_apart [HaloCurve E F S] {A : Pt (E.b : F)} (hA : A ≠ 0) {bits : List Bool}
    (hl : bits.length < 2 ^ 250) : Apart (spread A) bits := by
  intro i hi
  have hc : (bits.take i).count true ≤ bits.length :=
    List.count_le_length.trans (by simp)
  have e : spread A (i + 2) = A := by simp [spread]
  rw [inputSum_spread, e]
  refine ⟨CurvePoint.nsmul_ne_zero_of_lt S hA (by positivity) (by omega), ?_, ?_⟩
  · refine (CurvePoint.nsmul_ne_one S hA (m := 2 ^ 20 + (bits.take i).count true) (by omega) false).2 fun h => ?_
    have := Nat.le_of_dvd (by simp only [Bool.false_eq_true, if_false]; omega) h
    have := (LawfulField.modulus_bound (F := S)).1
    simp only [Bool.false_eq_true, if_false] at *
    omega
  · refine (CurvePoint.nsmul_ne_one S hA (m := 2 ^ 20 + (bits.take i).count true) (by omega) true).2 fun h => ?_
    have := Nat.le_of_dvd (by simp) h
    have := (LawfulField.modulus_bound (F := S)).1
    simp only [if_true] at *
    omega

omit [DecidableEq F] [LawfulField F] in
/-- A nonzero point has a representative with `z = 1`. -/
theorem exists_affine {A : Pt (E.b : F)} (hA : A ≠ 0) : ∃ p : Proj F, p.z = 1 ∧ Denotes (E.b : F) p A := by
  cases A with
  | zero => exact absurd rfl hA
  | some x y h =>
    refine ⟨⟨x, y, 1⟩, rfl, ?_⟩
    have := Denotes.some (b := (E.b : F)) (z := 1) one_ne_zero h
    simpa using this

/-- Generators for which no addition is exceptional, whatever the bits are -/
theorem gens_example [HaloCurve E F S] (n : ℕ) : ∃ (gens : List (Proj F)) (g : ℕ → Pt (E.b : F)),
    gens.length = n ∧ Gens E gens g ∧ ∀ bits : List Bool, bits.length < 2 ^ 250 → Apart g bits := by
  obtain ⟨A, hA, h0⟩ := one_denotes (E := E) (F := F) (S := S)
  obtain ⟨p, hp, hd⟩ := exists_affine h0
  obtain ⟨q, hq, hd'⟩ := exists_affine (CurvePoint.nsmul_ne_zero_of_lt S h0 (m := 2 ^ 20) (by norm_num) (by norm_num))
  refine ⟨(List.range n).map fun i => if i = 1 then q else p, spread A, by simp, ?_,
    fun bits h => spread_apart S h0 h⟩
  intro i hi
  simp only [List.getElem_map, List.getElem_range, spread]
  split
  · exact ⟨hq, hd'⟩
  · exact ⟨hp, hd⟩

/-- The hypotheses of the theorems above are satisfied by these generators and any bits, for both curves;
here with 1022 bits. -/
example (vs : List Bool) (hv : vs.length = 1022) : ∃ (gens : List (Proj Fq)) (g : ℕ → Pt ((ec0.b : Fq))),
    gens.length = 1024 ∧ Gens ec0 gens g ∧ vs.length ≤ gens.length - 2 ∧ Apart g vs := by
  obtain ⟨gens, g, hl, hg, ha⟩ := gens_example (E := ec0) (F := Fq) Fp 1024
  exact ⟨gens, g, hl, hg, by omega, ha vs (by rw [hv]; norm_num)⟩

/-- The commitment to two bits -/
example {G : Type} [AddCommGroup G] (g : ℕ → G) : inputSum g [true, false, true] = g 1 + g 2 + g 4 := by
  simp [inputSum, Finset.sum_range_succ, add_assoc]

end Recursion
end Halo
