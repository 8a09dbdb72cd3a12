import Verif.Lemmas.Proofs.Inner
import Verif.Lemmas.CurveBytes
import Verif.Props.Proofs
import Verif.Props.Curve
/-!
# Public parameters (C55)
-/
namespace Halo
namespace Proofs
open Util Circuit
variable {E : CurveConsts} {F : Type} [Field F] [DecidableEq F] [LawfulField F]
  {S : Type} [Field S] [DecidableEq S] [LawfulField S]

/-- The point that the first of these strings that is the encoding of a point encodes. -/
def FirstPoint (b : F) (attempts : List (Vector (BitVec 8) 32)) (A : Pt b) : Prop :=
  ∃ pre bytes post, attempts = pre ++ bytes :: post ∧
    (∀ s ∈ pre, ∀ B : Pt b, encNat B ≠ leNat s.toList) ∧ encNat A = leNat bytes.toList

omit [LawfulField F] in
theorem fromBytes_z [LawfulField F] {bs : Vector (BitVec 8) 32} {P : Proj F}
    (h : Proj.fromBytes E bs = some P) {A : Pt (E.b : F)} (hA : Denotes (E.b : F) P A) :
    P.z = 1 ↔ A ≠ 0 := by
  constructor
  · rintro hz rfl
    cases hA
    exact zero_ne_one hz
  · intro h0
    simp only [Proj.fromBytes] at h
    cases hx : (FieldApi.fromBytes (bs.set 31 (bs[31] &&& 0b01111111#8)) : Option F) with
    | none => simp [hx] at h
    | some x =>
      simp only [hx, Option.bind_some] at h
      split at h
      · simp only [Option.some.injEq] at h
        subst h
        exact absurd (denotes_unique hA denotes_proj_zero) h0
      · cases hy : FieldApi.sqrt (x * x * x + (E.b : F)) with
        | none => simp [hy] at h
        | some y =>
          simp only [hy, Option.bind_some, Option.some.injEq] at h
          rw [← h]

theorem drawGenerator_some (g : GoodCurve F E) (hsq : ¬ IsSquare (E.b : F)) {attempts : List (Vector (BitVec 8) 32)} :
    (∀ P : Proj F, drawGenerator E attempts = some P →
      ∃ A, A ≠ 0 ∧ Denotes (E.b : F) P A ∧ FirstPoint (E.b : F) attempts A) ∧
    (∀ A, FirstPoint (E.b : F) attempts A → A ≠ 0 → ∃ P : Proj F, drawGenerator E attempts = some P) := by
  induction attempts with
  | nil =>
    refine ⟨fun P h => by simp [drawGenerator] at h, ?_⟩
    rintro A ⟨pre, bytes, post, h, -⟩
    simp at h
  | cons bs rest ih =>
    cases hb : (Proj.fromBytes E bs : Option (Proj F)) with
    | some P =>
      obtain ⟨A, hA, he⟩ := fromBytes_sound g hb
      have hz := fromBytes_z hb hA
      constructor
      · intro Q hQ
        simp only [drawGenerator, hb] at hQ
        split at hQ
        · cases hQ
          exact ⟨A, hz.1 ‹_›, hA, [], bs, rest, rfl, by simp, he⟩
        · simp at hQ
      · rintro B ⟨pre, bytes, post, h1, h2, h3⟩ h0
        cases pre with
        | nil =>
          simp only [List.nil_append, List.cons.injEq] at h1
          obtain ⟨rfl, rfl⟩ := h1
          have : B = A := encNat_inj g.no_two_torsion hsq (h3.trans he.symm)
          subst this
          exact ⟨P, by simp [drawGenerator, hb, hz.2 h0]⟩
        | cons c pre =>
          simp only [List.cons_append, List.cons.injEq] at h1
          exact absurd (h1.1 ▸ he) (h2 c (by simp) A)
    | none =>
      have hn : ∀ B : Pt (E.b : F), encNat B ≠ leNat bs.toList := fun B hB =>
        fromBytes_complete hB hb
      constructor
      · intro Q hQ
        simp only [drawGenerator, hb] at hQ
        obtain ⟨A, h0, hA, pre, bytes, post, h1, h2, h3⟩ := ih.1 Q hQ
        refine ⟨A, h0, hA, bs :: pre, bytes, post, by simp [h1], ?_, h3⟩
        intro s hs
        rcases List.mem_cons.1 hs with rfl | hs
        · exact hn
        · exact h2 s hs
      · rintro B ⟨pre, bytes, post, h1, h2, h3⟩ h0
        cases pre with
        | nil =>
          simp only [List.nil_append, List.cons.injEq] at h1
          exact absurd (h1.1 ▸ h3) (hn B)
        | cons c pre =>
          simp only [List.cons_append, List.cons.injEq] at h1
          obtain ⟨P, hP⟩ := ih.2 B ⟨pre, bytes, post, h1.2, fun s hs => h2 s (by simp [hs]), h3⟩ h0
          exact ⟨P, by simp [drawGenerator, hb, hP]⟩

omit [DecidableEq S] in
/-- **C55.** `Params::new(k)` returns only for `k > 3`. Then there are `2^k` generators and `2^(k-2)`
multiplication gates, and generator `i` is the point encoded by the first of the strings drawn for it
that encodes a point; it is not the identity. If the first point drawn for
each generator is not the identity, then it returns. -/
theorem C55_params [h : HaloCurve E F S] {k : ℕ} {attempts : ℕ → List (Vector (BitVec 8) 32)} :
    (∀ params, Params.new E F k attempts = some params → 3 < k ∧ params.k = k ∧
      ∃ g : ℕ → Pt (E.b : F), (k ≤ 30 → ValidParams (Denotes (E.b : F)) g params) ∧
        params.generators.length = 2 ^ k ∧ params.d = 2 ^ k ∧ 4 * params.n = 2 ^ k ∧
        ∀ i, (hi : i < params.generators.length) → Denotes (E.b : F) params.generators[i] (g i) ∧
          g i ≠ 0 ∧ FirstPoint (E.b : F) (attempts i) (g i)) ∧
    (3 < k → (∀ i < 2 ^ k, ∃ A, FirstPoint (E.b : F) (attempts i) A ∧ A ≠ 0) →
      ∃ params, Params.new E F k attempts = some params) := by
  have g : GoodCurve F E := (HaloCurve.is (E := E) (F := F) (S := S)).good rfl
  have hsq := (HaloCurve.is (E := E) (F := F) (S := S)).b_nonsquare (F := F) rfl
  unfold Params.new
  constructor
  · intro params hp
    by_cases hk : k > 3
    swap
    · simp [hk] at hp
    simp only [hk, not_true, if_false] at hp
    cases hm : (List.range (1 <<< k)).mapM fun i => (drawGenerator E (attempts i) : Option (Proj F)) with
    | none => simp [hm] at hp
    | some gens =>
      simp only [hm, Option.bind_eq_bind, Option.bind_some, Option.some.injEq] at hp
      subst hp
      rw [mapM_some_iff, List.forall₂_iff_get] at hm
      obtain ⟨hl, hm⟩ := hm
      have hl : gens.length = 2 ^ k := by rw [← hl, List.length_range, Nat.shiftLeft_eq, one_mul]
      have h4 : 4 * 2 ^ (k - 2) = 2 ^ k := by
        rw [show (4 : ℕ) = 2 ^ 2 by norm_num, ← pow_add]; congr 1; omega
      have hn : (1 <<< k) / 4 = 2 ^ (k - 2) := by
        rw [Nat.shiftLeft_eq, one_mul]; omega
      have key : ∀ i, ∃ A : Pt (E.b : F), (hi : i < gens.length) → Denotes (E.b : F) gens[i] A ∧
          A ≠ 0 ∧ FirstPoint (E.b : F) (attempts i) A := by
        intro i
        by_cases hi : i < gens.length
        · have := hm i (by rw [List.length_range, Nat.shiftLeft_eq, one_mul]; omega) hi
          simp only [List.get_eq_getElem, List.getElem_range] at this
          obtain ⟨A, h0, hA, hf⟩ := (drawGenerator_some g hsq).1 _ this
          exact ⟨A, fun _ => ⟨hA, h0, hf⟩⟩
        · exact ⟨0, fun h => absurd h hi⟩
      choose pts hpts using key
      refine ⟨hk, rfl, pts, fun hk' => ⟨hk, hk', by simp [Nat.shiftLeft_eq], hn, hl,
        fun i hi => (hpts i hi).1⟩, hl, by simp [Nat.shiftLeft_eq], ?_, fun i hi => hpts i hi⟩
      simp only [hn, h4]
  · intro hk hall
    have : ∃ gens, ((List.range (1 <<< k)).mapM fun i =>
        (drawGenerator E (attempts i) : Option (Proj F))) = some gens := by
      have hall' : ∀ i ∈ List.range (1 <<< k), ∃ P : Proj F, drawGenerator E (attempts i) = some P := by
        intro i hi
        rw [List.mem_range, Nat.shiftLeft_eq, one_mul] at hi
        obtain ⟨A, hA, h0⟩ := hall i hi
        exact (drawGenerator_some g hsq).2 A hA h0
      clear hall
      generalize List.range (1 <<< k) = l at *
      induction l with
      | nil => exact ⟨[], rfl⟩
      | cons i l ih =>
        obtain ⟨P, hP⟩ := hall' i (by simp)
        obtain ⟨gens, hg⟩ := ih fun j hj => hall' j (by simp [hj])
        exact ⟨P :: gens, by simp [hP, hg]⟩
    obtain ⟨gens, hg⟩ := this
    exact ⟨_, by simp only [gt_iff_lt, hk, not_true, if_false, hg]; rfl⟩

/-- draws of which the first is not an encoding of a point, as it exceeds the modulus, and the second
is the encoding of the generator `one` -/
example : ∃ attempts : ℕ → List (Vector (BitVec 8) 32),
    (∀ i, (attempts i).length = 2) ∧
    (∀ i < 2 ^ 4, ∃ A, FirstPoint ((ec0.b : ℕ) : Fq) (attempts i) A ∧ A ≠ 0) ∧
    ∃ params, Params.new ec0 Fq 4 attempts = some params := by
  obtain ⟨A, hA, h0⟩ := one_denotes (E := ec0) (F := Fq) (S := Fp)
  obtain ⟨bs, -, hbs, -⟩ := (C15_point_encoding (E := ec0) (F := Fq) Fp).1 _ A hA
  have h : ∀ i < 2 ^ 4, ∃ B, FirstPoint ((ec0.b : ℕ) : Fq)
      ((fun _ => [Vector.replicate 32 255#8, bs]) i) B ∧ B ≠ 0 := fun i _ => by
    refine ⟨A, ⟨[Vector.replicate 32 255#8], bs, [], rfl, ?_, hbs.symm⟩, h0⟩
    intro s hs B hB
    rw [List.mem_singleton.1 hs, show leNat (Vector.replicate 32 255#8).toList = 2 ^ 256 - 1 by
      decide +kernel] at hB
    have hm := (LawfulField.modulus_bound (F := Fq)).2
    cases B with
    | zero => simp [encNat] at hB
    | some x y hn =>
      have := LawfulField.val_lt x
      simp only [encNat] at hB
      omega
  exact ⟨_, fun _ => rfl, h, (C55_params (E := ec0) (F := Fq) (S := Fp)).2 (by norm_num) h⟩

end Proofs
end Halo
