import Verif.Lemmas.Proofs.Bytes
import Verif.Props.Proofs
import Verif.Spec.Small
/-!
# Properties of leftovers and deferred records (C45, C46)
-/
namespace Halo
namespace Proofs
open Util Circuit LawfulField
variable {E : CurveConsts} {F : Type} [Field F] [DecidableEq F] [LawfulField F]
  {S : Type} [Field S] [DecidableEq S] [LawfulField S]

/-! ### C45: the deferred checks -/

/-- **C45**, deferred records: `Deferred::verify` accepts exactly the true records. It panics exactly on
records that make no sense. -/
theorem C45_deferred (k : ℕ) (d : Deferred S) :
    (WellFormedDeferred k d → ∃ b, d.verify k = some b ∧ (b = true ↔ TrueDeferred k d)) ∧
    (¬ WellFormedDeferred k d → d.verify k = none) := ⟨verify_some, verify_none⟩

omit [DecidableEq F] [DecidableEq S] in
/-- The packed challenge `MAGIC` has a square root in both scalar fields. -/
theorem magic_roots [h : HaloCurve E F S] (k : ℕ) :
    ∃ us, Roots (List.replicate k (FieldApi.fromU64 MAGIC : S)) us ∧ us.length = k := by
  have : ∃ us, Roots (List.replicate k (FieldApi.fromU64 MAGIC : S)) us := by
    rw [roots_iff]
    intro p hp
    rw [List.eq_of_mem_replicate hp]
    have e : FieldApi.lower128 (FieldApi.fromU64 MAGIC : S) = 12#128 := by
      apply BitVec.eq_of_toNat_eq
      have hS := (modulus_bound (F := S)).1
      have : val ((MAGIC.toNat : ℕ) : S) = 12 := val_of_lt (by
        have : MAGIC.toNat = 12 := rfl
        omega)
      rw [lower128_val, fromU64_eq, this]; rfl
    rw [getChallengeScalar, e]
    exact magic_square h
  obtain ⟨us, hus⟩ := this
  exact ⟨us, hus, by simp [hus.length]⟩

omit [DecidableEq F] in
/-- The dummy record, and why it is accepted -/
theorem dummy_deferred [h : HaloCurve E F S] {k : ℕ} (hk : 2 ≤ k) :
    ∃ d, Deferred.dummy S k = some d ∧ WellFormedDeferred k d ∧ TrueDeferred k d := by
  obtain ⟨us, hus, hl⟩ := magic_roots (E := E) (F := F) (S := S) k
  have hne : us ≠ [] := by rw [← List.length_pos_iff]; omega
  have hpn : List.replicate k (FieldApi.fromU64 MAGIC : S) ≠ [] := by simp; omega
  refine ⟨_, by
    unfold Deferred.dummy
    simp only [expandChallenges_eq hus, Option.bind_eq_bind, Option.bind_some, computeB_eq _ _ hne]
    rfl, ⟨hk, one_ne_zero, one_ne_zero, hpn, hpn, (roots_iff _).1 ⟨us, hus⟩,
      (roots_iff _).1 ⟨us, hus⟩⟩, ⟨?_, ⟨us, hus, rfl⟩, ⟨us, hus, rfl, ?_, rfl, rfl, rfl⟩⟩⟩
  · simp [DeferredRelation]
  · simp

omit [DecidableEq F] in
/-- **C45**, deferred dummy: it passes its own check. -/
theorem C45_deferred_dummy [h : HaloCurve E F S] {k : ℕ} (hk : 2 ≤ k) :
    ∃ d, Deferred.dummy S k = some d ∧ d.verify k = some true := by
  obtain ⟨d, h1, h2, h3⟩ := dummy_deferred (E := E) (F := F) (S := S) hk
  obtain ⟨b, h4, h5⟩ := (C45_deferred k d).1 h2
  exact ⟨d, h1, by rw [h4, h5.2 h3]⟩

/-- the dummy record meets the hypothesis of C45 -/
example : ∃ d, Deferred.dummy Fp 11 = some d ∧ WellFormedDeferred 11 d ∧ TrueDeferred 11 d :=
  dummy_deferred (E := ec0) (F := Fq) (by norm_num)

/-! ### C45: the check of leftovers -/

omit [DecidableEq S] in
/-- What `Leftovers::verify` accepts: the recomputed points must be the recorded ones, *or the identity*. -/
theorem C45_leftovers_accepts [HaloCurve E F S] {cpus : ℕ} (hcpus : 0 < cpus) {lnCeil : ℕ → ℕ}
    (hln : ∀ n, 32 ≤ n → n < 2 ^ 32 → 1 ≤ lnCeil n ∧ lnCeil n ≤ 57)
    {params : Params (Proj F)} {g : ℕ → Pt (E.b : F)} (hp : ValidParams (Denotes (E.b : F)) g params)
    {α : Type} {circuit : Var → Prog S α} {lo : Leftovers (Proj F) S} {sx : List S}
    (hsx : computeSx params.n circuit lo.yNew = .ok sx)
    (hlen : lo.challengesSqPackedNew.length = params.k) {us : List S}
    (hus : Roots lo.challengesSqPackedNew us) {A B : Pt (E.b : F)}
    (hA : Denotes (E.b : F) lo.sNewCommitment A) (hB : Denotes (E.b : F) lo.gNew B) :
    letI := Proj.curveOps E F S
    letI := HaloCurve.module (E := E) (F := F) (S := S)
    ∃ b, lo.verify cpus lnCeil params circuit = .ok b ∧
      (b = true ↔ (collapse us g = 0 ∨ B = collapse us g) ∧
        (combine g 0 sx = 0 ∨ A = combine g 0 sx)) := by
  let := Proj.curveOps E F S
  let := HaloCurve.module (E := E) (F := F) (S := S)
  obtain ⟨b, h1, h2⟩ := leftovers_verify_eq (HaloCurve.lawfulOps (E := E) (F := F) (S := S)) hcpus hln hp
    hsx hlen hus hA hB
  exact ⟨b, h1, by rw [h2, eq_comm (a := B), eq_comm (a := A)]⟩

omit [DecidableEq S] in
/-- **C45**, leftovers, what holds: correct leftovers are accepted; and if neither of the recomputed
points is the identity, only correct ones are.  Missing, and false, see `C45_leftovers_false`: that only
correct leftovers are accepted in general. -/
theorem C45_leftovers_partial [HaloCurve E F S] {cpus : ℕ} (hcpus : 0 < cpus) {lnCeil : ℕ → ℕ}
    (hln : ∀ n, 32 ≤ n → n < 2 ^ 32 → 1 ≤ lnCeil n ∧ lnCeil n ≤ 57)
    {params : Params (Proj F)} {g : ℕ → Pt (E.b : F)} (hp : ValidParams (Denotes (E.b : F)) g params)
    {α : Type} {circuit : Var → Prog S α} {lo : Leftovers (Proj F) S} :
    letI := Proj.curveOps E F S
    letI := HaloCurve.module (E := E) (F := F) (S := S)
    (ValidLeftovers (Denotes (E.b : F)) g params circuit lo →
      lo.verify cpus lnCeil params circuit = .ok true) ∧
    ((∃ A, Denotes (E.b : F) lo.sNewCommitment A) → (∃ B, Denotes (E.b : F) lo.gNew B) →
      (∀ sx, computeSx params.n circuit lo.yNew = .ok sx → combine g 0 sx ≠ 0) →
      (∀ us, Roots lo.challengesSqPackedNew us → collapse us g ≠ 0) →
      lo.verify cpus lnCeil params circuit = .ok true →
        ValidLeftovers (Denotes (E.b : F)) g params circuit lo) := by
  let := Proj.curveOps E F S
  let := HaloCurve.module (E := E) (F := F) (S := S)
  constructor
  · rintro ⟨⟨sx, h1, h2⟩, h3, us, h4, h5⟩
    obtain ⟨b, h6, h7⟩ := C45_leftovers_accepts hcpus hln hp h1 h3 h4 h2 h5
    rw [h6, h7.2 ⟨Or.inr rfl, Or.inr rfl⟩]
  · rintro ⟨A, hA⟩ ⟨B, hB⟩ hs hg hv
    have hlen : lo.challengesSqPackedNew.length = params.k := by
      by_contra hne
      unfold Leftovers.verify at hv
      cases h1 : computeSx params.n circuit lo.yNew with
      | error e => rw [h1] at hv; simp [Except.bind_error] at hv
      | ok sx =>
        rw [h1, Except.bind_ok] at hv
        cases h2 : params.commit cpus lnCeil sx false with
        | none => rw [h2] at hv; simp [ofOption, Except.bind_error] at hv
        | some P =>
          rw [h2] at hv
          simp only [ofOption, Except.bind_ok, ne_eq, hne, not_false_eq_true, if_true] at hv
          cases hv
    cases h1 : computeSx params.n circuit lo.yNew with
    | error e => unfold Leftovers.verify at hv; rw [h1] at hv; simp [Except.bind_error] at hv
    | ok sx =>
      by_cases hr : ∃ us, Roots lo.challengesSqPackedNew us
      · obtain ⟨us, hus⟩ := hr
        obtain ⟨b, h6, h7⟩ := C45_leftovers_accepts hcpus hln hp h1 hlen hus hA hB
        rw [h6, Except.ok.injEq] at hv
        obtain ⟨h8, h9⟩ := h7.1 hv
        exact ⟨⟨sx, h1, by rw [← h9.resolve_left (hs sx h1)]; exact hA⟩, hlen, us, hus,
          by rw [← h8.resolve_left (hg us hus)]; exact hB⟩
      · exfalso
        unfold Leftovers.verify at hv
        rw [h1, Except.bind_ok] at hv
        cases h2 : params.commit cpus lnCeil sx false with
        | none => rw [h2] at hv; simp [ofOption, Except.bind_error] at hv
        | some P =>
          rw [h2] at hv
          simp only [ofOption, Except.bind_ok, hlen, ne_eq, not_true, if_false, foldlM_no_roots hr,
            Except.bind_error] at hv
          cases hv

omit [DecidableEq S] [LawfulField S] in
/-- Leftovers with `y = 0`: the vector of `s(X, 0)` is zero. -/
theorem computeSx_zero {α : Type} {n : ℕ} {circuit : Var → Prog S α} {sx : List S}
    (h : computeSx n circuit 0 = .ok sx) {G : Type} [AddCommGroup G] [Module S G] (g : ℕ → G) :
    combine g 0 sx = 0 := by
  obtain ⟨-, s, -, hsc, rfl⟩ := computeSx_ok h
  have hz : ∀ v, sCoeff s.lcs (0 : S) v = 0 := by
    intro v
    unfold sCoeff
    apply List.sum_eq_zero
    intro x hx
    rw [List.mem_mapIdx] at hx
    obtain ⟨i, hi, rfl⟩ := hx
    simp
  have hall : ∀ x ∈ sxVec n s.lcs (0 : S), x = 0 := by
    intro x hx
    simp only [sxVec, hz, col, List.mem_append, List.mem_reverse, List.mem_map, List.mem_range,
      List.mem_singleton] at hx
    rcases hx with ((⟨_, _, rfl⟩ | rfl) | ⟨_, _, rfl⟩) | ⟨_, _, rfl⟩ <;> rfl
  apply Finset.sum_eq_zero
  intro i hi
  have hi := Finset.mem_range.1 hi
  have : (sxVec n s.lcs (0 : S)).getD i 0 = 0 := by
    simp only [List.getD, List.getElem?_eq_getElem hi, Option.getD_some]
    exact hall _ (List.getElem_mem hi)
  rw [this, zero_smul]

omit [DecidableEq S] in
/-- **C45 is false for leftovers**: for all parameters and all circuits, the correct leftovers for `y = 0`
are still accepted if the commitment in them is replaced by any other point `P`. -/
theorem C45_leftovers_false [HaloCurve E F S] {cpus : ℕ} (hcpus : 0 < cpus) {lnCeil : ℕ → ℕ}
    (hln : ∀ n, 32 ≤ n → n < 2 ^ 32 → 1 ≤ lnCeil n ∧ lnCeil n ≤ 57)
    {params : Params (Proj F)} {g : ℕ → Pt (E.b : F)} (hp : ValidParams (Denotes (E.b : F)) g params)
    {α : Type} {circuit : Var → Prog S α} {lo : Leftovers (Proj F) S} (hy : lo.yNew = 0)
    {P : Proj F} {A : Pt (E.b : F)} (hP : Denotes (E.b : F) P A) (hA : A ≠ 0) :
    letI := Proj.curveOps E F S
    letI := HaloCurve.module (E := E) (F := F) (S := S)
    ValidLeftovers (Denotes (E.b : F)) g params circuit lo →
      { lo with sNewCommitment := P }.verify cpus lnCeil params circuit = .ok true ∧
      ¬ ValidLeftovers (Denotes (E.b : F)) g params circuit { lo with sNewCommitment := P } := by
  let := Proj.curveOps E F S
  let := HaloCurve.module (E := E) (F := F) (S := S)
  rintro ⟨⟨sx, h1, h2⟩, h3, us, h4, h5⟩
  have hz := computeSx_zero (hy ▸ h1) g
  constructor
  · obtain ⟨b, h6, h7⟩ := C45_leftovers_accepts (lo := { lo with sNewCommitment := P }) hcpus hln hp h1
      h3 h4 hP h5
    rw [h6, h7.2 ⟨Or.inr rfl, Or.inl hz⟩]
  · rintro ⟨⟨sx', h6, h7⟩, -⟩
    have := h1.symm.trans h6
    cases this
    rw [hz] at h7
    exact hA (denotes_unique hP h7)

/-- **C45**, leftovers dummy: for all parameters and all circuits that can be synthesized, the dummy
leftovers are correct, so they pass their own check. -/
theorem C45_leftovers_dummy [HaloCurve E F S] {cpus : ℕ} (hcpus : 0 < cpus) {lnCeil : ℕ → ℕ}
    (hln : ∀ n, 32 ≤ n → n < 2 ^ 32 → 1 ≤ lnCeil n ∧ lnCeil n ≤ 57)
    {params : Params (Proj F)} {g : ℕ → Pt (E.b : F)} (hp : ValidParams (Denotes (E.b : F)) g params)
    {α : Type} {circuit : Var → Prog S α} {sx : List S}
    (hsx : computeSx params.n circuit 0 = .ok sx) :
    letI := Proj.curveOps E F S
    letI := HaloCurve.module (E := E) (F := F) (S := S)
    ∃ lo, Leftovers.dummy cpus lnCeil params = some lo ∧ lo.yNew = (0 : S) ∧
      ValidLeftovers (Denotes (E.b : F)) g params circuit lo ∧
      lo.verify cpus lnCeil params circuit = .ok true := by
  let := Proj.curveOps E F S
  let := HaloCurve.module (E := E) (F := F) (S := S)
  have L := HaloCurve.lawfulOps (E := E) (F := F) (S := S)
  obtain ⟨us, hus, hl⟩ := magic_roots (E := E) (F := F) (S := S) params.k
  have hk := hp.k_le
  obtain ⟨G, h1, h2⟩ := computeG_rep L.toLawfulCurve hcpus hln hus.ne (by omega)
    (by rw [hp.length, hl]) hp.gens
  have hv : ValidLeftovers (Denotes (E.b : F)) g params circuit
      ⟨CurveApi.zero, 0, G, List.replicate params.k (FieldApi.fromU64 MAGIC : S)⟩ :=
    ⟨⟨sx, hsx, by rw [computeSx_zero hsx]; exact L.zero⟩, by simp, us, hus, h2⟩
  refine ⟨_, ?_, rfl, hv, (C45_leftovers_partial hcpus hln hp).1 hv⟩
  unfold Leftovers.dummy
  simp only [expandChallenges_eq hus, Option.bind_eq_bind, Option.bind_some, h1]

omit [DecidableEq S] [LawfulField S] in
theorem sCoef_ne_zero : ∀ {us : List S} (_ : ∀ u ∈ us, u ≠ 0) (i : ℕ), sCoef us i ≠ 0
  | [], _, _ => one_ne_zero
  | u :: us, h, i => by
    have hu := h u (by simp)
    have := sCoef_ne_zero (fun v hv => h v (List.mem_cons_of_mem _ hv)) i
    rw [sCoef]
    split
    · exact mul_ne_zero hu this
    · exact mul_ne_zero (inv_ne_zero hu) this

/-- Correct leftovers with `y = 0` exist, as does a point to replace their commitment by -/
example {cpus : ℕ} (hcpus : 0 < cpus) {lnCeil : ℕ → ℕ}
    (hln : ∀ n, 32 ≤ n → n < 2 ^ 32 → 1 ≤ lnCeil n ∧ lnCeil n ≤ 57) :
    letI := Proj.curveOps ec0 Fq Fp
    letI := HaloCurve.module (E := ec0) (F := Fq) (S := Fp)
    ∃ (params : Params (Proj Fq)) (g : ℕ → Pt ((ec0.b : ℕ) : Fq)) (lo : Leftovers (Proj Fq) Fp),
    ValidParams (Denotes _) g params ∧ lo.yNew = 0 ∧
    ValidLeftovers (Denotes _) g params (fun _ => (.pure () : Prog Fp Unit)) lo ∧
    ∃ (P : Proj Fq) (A : Pt ((ec0.b : ℕ) : Fq)), Denotes _ P A ∧ A ≠ 0 := by
  let := Proj.curveOps ec0 Fq Fp
  let := HaloCurve.module (E := ec0) (F := Fq) (S := Fp)
  obtain ⟨params, g, hp, -⟩ := params_example (E := ec0) (F := Fq) (S := Fp) (k := 4) (by norm_num)
    (by norm_num)
  obtain ⟨lo, -, h1, h2, -⟩ := C45_leftovers_dummy (S := Fp) hcpus hln hp
    (circuit := fun _ => (.pure () : Prog Fp Unit)) rfl
  exact ⟨params, g, lo, hp, h1, h2, _, one_denotes (E := ec0) (F := Fq) (S := Fp)⟩

/-- Correct leftovers for which neither of the recomputed points is the identity -/
example :
    letI := Proj.curveOps ec0 Fq Fp
    letI := HaloCurve.module (E := ec0) (F := Fq) (S := Fp)
    ∃ (params : Params (Proj Fq)) (g : ℕ → Pt ((ec0.b : ℕ) : Fq)) (lo : Leftovers (Proj Fq) Fp),
    ValidParams (Denotes _) g params ∧
    ValidLeftovers (Denotes _) g params (fun _ => (.pure () : Prog Fp Unit)) lo ∧
    (∀ sx, computeSx params.n (fun _ => (.pure () : Prog Fp Unit)) lo.yNew = .ok sx →
      combine g 0 sx ≠ 0) ∧
    ∀ us, Roots lo.challengesSqPackedNew us → collapse us g ≠ 0 := by
  let := Proj.curveOps ec0 Fq Fp
  let := HaloCurve.module (E := ec0) (F := Fq) (S := Fp)
  obtain ⟨A, hA, h0⟩ := one_denotes (E := ec0) (F := Fq) (S := Fp)
  obtain ⟨us, hus, hl⟩ := magic_roots (E := ec0) (F := Fq) (S := Fp) 4
  let g : ℕ → Pt ((ec0.b : ℕ) : Fq) := fun i => if i = 3 then A else 0
  let params : Params (Proj Fq) :=
    ⟨16, 4, 4, (List.range 16).map fun i => if i = 3 then Proj.one ec0 else Proj.zero⟩
  have hp : ValidParams (Denotes _) g params := by
    refine ⟨by norm_num [params], by norm_num [params], rfl, rfl, by simp [params], fun i hi => ?_⟩
    simp only [params, List.getElem_map, List.getElem_range, g]
    split
    · exact hA
    · exact denotes_proj_zero
  have hs : computeSx params.n (fun _ => (.pure () : Prog Fp Unit)) 1 = .ok (sxVec 4 [⟨[(.A 1, .one)]⟩] 1) :=
    (computeSx_of 4 (1 : Fp) (circuit := fun _ => (.pure () : Prog Fp Unit)) (s := _) rfl rfl).1
  obtain ⟨P, hP⟩ := exists_denotes
    (combine g 0 (sxVec 4 [⟨[(.A 1, .one)]⟩] (1 : Fp)))
  obtain ⟨Q, hQ⟩ := exists_denotes (collapse us g)
  refine ⟨params, g, ⟨P, 1, Q, List.replicate 4 (FieldApi.fromU64 MAGIC)⟩, hp,
    ⟨⟨_, hs, hP⟩, rfl, us, hus, hQ⟩, ?_, ?_⟩
  · intro sx hsx
    cases hs.symm.trans hsx
    have hlen : (sxVec 4 [⟨[(.A 1, .one)]⟩] (1 : Fp)).length = 13 := by simp [sxVec_length]
    rw [combine, hlen, Finset.sum_eq_single 3]
    · simpa [g, sxVec, col, sCoeff, List.range_succ, LC.eval, ind] using h0
    · intro i _ hi
      simp [g, hi]
    · simp
  · intro vs hvs
    rw [collapse_eq, Finset.sum_eq_single 3]
    · simp only [g, if_true]
      exact smul_ne_zero (sCoef_ne_zero hvs.ne 3) h0
    · intro i _ hi
      simp [g, hi]
    · rw [show vs.length = 4 by have := hvs.length; simp at this; exact this]; simp

/-! ### C46: encodings -/

omit [DecidableEq F] [DecidableEq S] in
/-- **C46**, lengths -/
theorem C46_lengths {C : Type} [CurveOps C F S] (lo : Leftovers C S) (d : Deferred S) :
    lo.toBytes.length = 144 + 16 * lo.challengesSqPackedNew.length ∧
    d.toBytes.length =
      448 + 16 * d.challengesSqPackedOld.length + 16 * d.challengesSqPackedNew.length := by
  constructor
  · simp only [Leftovers.toBytes, List.length_append, pointBytes_length, bytes16_length,
      flatMap16_length]
  · simp only [Deferred.toBytes, List.length_append, bytes16_length, bytes32_length, flatMap16_length]
    ring

/-- The low 16 bytes of two numbers are the same. -/
def Low (a b : S) : Prop := val a % 2 ^ 128 = val b % 2 ^ 128

omit [DecidableEq S] in
/-- What the encoding of leftovers determines -/
theorem C46_leftovers_iff [HaloCurve E F S] {lo lo' : Leftovers (Proj F) S}
    {A A' B B' : Pt (E.b : F)} (hA : Denotes (E.b : F) lo.sNewCommitment A)
    (hA' : Denotes (E.b : F) lo'.sNewCommitment A') (hB : Denotes (E.b : F) lo.gNew B)
    (hB' : Denotes (E.b : F) lo'.gNew B') :
    letI := Proj.curveOps E F S
    lo.toBytes = lo'.toBytes ↔ A = A' ∧ Low lo.yNew lo'.yNew ∧ B = B' ∧
      List.Forall₂ Low lo.challengesSqPackedNew lo'.challengesSqPackedNew := by
  let := Proj.curveOps E F S
  let := HaloCurve.module (E := E) (F := F) (S := S)
  have L := HaloCurve.lawfulOps (E := E) (F := F) (S := S)
  by_cases hlen : lo.challengesSqPackedNew.length = lo'.challengesSqPackedNew.length
  · simp only [Leftovers.toBytes]
    rw [append_iff (by simp), append_iff (by simp), append_iff (by simp), pointBytes_inj L hA hA',
      pointBytes_inj L hB hB', bytes16_inj, flatMap16_inj hlen]
    simp only [and_assoc]
    exact Iff.rfl
  · refine ⟨fun h => ?_, fun h => absurd h.2.2.2.length_eq hlen⟩
    have := congrArg List.length h
    rw [(C46_lengths lo ⟨0, 0, 0, 0, 0, 0, 0, 0, 0, 0, [], 0, [], 0, 0, 0, 0, 0⟩).1,
      (C46_lengths lo' ⟨0, 0, 0, 0, 0, 0, 0, 0, 0, 0, [], 0, [], 0, 0, 0, 0, 0⟩).1] at this
    omega

omit [DecidableEq S] in
/-- What the encoding of a deferred record determines, if the number of old challenges is known -/
theorem C46_deferred_iff {d d' : Deferred S}
    (hlen : d.challengesSqPackedOld.length = d'.challengesSqPackedOld.length) :
    d.toBytes = d'.toBytes ↔
      (Low d.x d'.x ∧ Low d.yOld d'.yOld ∧ Low d.yCur d'.yCur ∧ Low d.yNew d'.yNew) ∧
      (d.kyOpening = d'.kyOpening ∧ d.txPositiveOpening = d'.txPositiveOpening ∧
        d.txNegativeOpening = d'.txNegativeOpening ∧ d.sxCurOpening = d'.sxCurOpening ∧
        d.rxOpening = d'.rxOpening ∧ d.rxyOpening = d'.rxyOpening) ∧
      List.Forall₂ Low d.challengesSqPackedOld d'.challengesSqPackedOld ∧
      d.gxOldOpening = d'.gxOldOpening ∧
      List.Forall₂ Low d.challengesSqPackedNew d'.challengesSqPackedNew ∧
      d.bX = d'.bX ∧ d.bXy = d'.bXy ∧ d.bYOld = d'.bYOld ∧ d.bYCur = d'.bYCur ∧
        d.bYNew = d'.bYNew := by
  by_cases hlen' : d.challengesSqPackedNew.length = d'.challengesSqPackedNew.length
  · simp only [Deferred.toBytes]
    repeat rw [append_iff (by simp [hlen, hlen'])]
    rw [flatMap16_inj hlen, flatMap16_inj hlen']
    simp only [and_assoc, bytes16_inj, bytes32_inj]
    exact Iff.rfl
  · refine ⟨fun h => ?_, fun h => absurd h.2.2.2.2.1.length_eq hlen'⟩
    have := congrArg List.length h
    simp only [Deferred.toBytes, List.length_append, bytes16_length, bytes32_length,
      flatMap16_length] at this
    omega

omit [DecidableEq S] in
theorem low_iff {a b : S} (ha : val a < 2 ^ 128) (hb : val b < 2 ^ 128) : Low a b ↔ a = b := by
  rw [Low, Nat.mod_eq_of_lt ha, Nat.mod_eq_of_lt hb]
  exact ⟨fun h => by rw [← val_cast a, ← val_cast b, h], fun h => by rw [h]⟩

omit [DecidableEq S] in
theorem forall₂_low_iff : ∀ {l l' : List S}, (∀ a ∈ l, val a < 2 ^ 128) →
    (∀ a ∈ l', val a < 2 ^ 128) → (List.Forall₂ Low l l' ↔ l = l')
  | [], [], _, _ => by simp
  | a :: l, b :: l', h, h' => by
    rw [List.forall₂_cons, low_iff (h a (by simp)) (h' b (by simp)),
      forall₂_low_iff (fun x hx => h x (List.mem_cons_of_mem _ hx))
        (fun x hx => h' x (List.mem_cons_of_mem _ hx)), List.cons.injEq]
  | [], _ :: _, _, _ => by simp
  | _ :: _, [], _, _ => by simp

omit [DecidableEq S] in
/-- **C46**, leftovers, what holds: leftovers whose challenges are 128-bit numbers have the same encoding
exactly if they have the same challenges, and the same points of the curve. Missing, and false, see
`C46_leftovers_false`: that this holds of leftovers with any challenges. -/
theorem C46_leftovers_partial [HaloCurve E F S] {lo lo' : Leftovers (Proj F) S} (h : lo.Small)
    (h' : lo'.Small) {A A' B B' : Pt (E.b : F)} (hA : Denotes (E.b : F) lo.sNewCommitment A)
    (hA' : Denotes (E.b : F) lo'.sNewCommitment A') (hB : Denotes (E.b : F) lo.gNew B)
    (hB' : Denotes (E.b : F) lo'.gNew B') :
    letI := Proj.curveOps E F S
    lo.toBytes = lo'.toBytes ↔ A = A' ∧ lo.yNew = lo'.yNew ∧ B = B' ∧
      lo.challengesSqPackedNew = lo'.challengesSqPackedNew := by
  rw [C46_leftovers_iff hA hA' hB hB', low_iff h.1 h'.1, forall₂_low_iff h.2 h'.2]

omit [DecidableEq S] in
/-- **C46**, deferred records, what holds: records for the same number of old challenges whose
challenges are 128-bit numbers have the same encoding only if they are equal. Missing, and false, see
`C46_deferred_false`: that this holds of all records. -/
theorem C46_deferred_partial {d d' : Deferred S} (h : d.Small) (h' : d'.Small)
    (hlen : d.challengesSqPackedOld.length = d'.challengesSqPackedOld.length) :
    d.toBytes = d'.toBytes ↔ d = d' := by
  rw [C46_deferred_iff hlen, low_iff h.1.1 h'.1.1, low_iff h.1.2.1 h'.1.2.1,
    low_iff h.1.2.2.1 h'.1.2.2.1, low_iff h.1.2.2.2 h'.1.2.2.2, forall₂_low_iff h.2.1 h'.2.1,
    forall₂_low_iff h.2.2 h'.2.2]
  obtain ⟨⟩ := d
  obtain ⟨⟩ := d'
  simp only [Deferred.mk.injEq, and_assoc]

omit [DecidableEq S] in
theorem two_pow_128 : val ((2 ^ 128 : ℕ) : S) = 2 ^ 128 := by
  apply val_of_lt
  have := (modulus_bound (F := S)).1
  exact lt_trans (by norm_num) this

omit [DecidableEq F] [DecidableEq S] in
/-- **C46 is false of leftovers**: for any leftovers there are others with the same encoding but another
challenge `y`. -/
theorem C46_leftovers_false {C : Type} [CurveOps C F S] (lo : Leftovers C S) :
    ∃ y, y ≠ lo.yNew ∧ { lo with yNew := y }.toBytes = lo.toBytes := by
  obtain ⟨y, hy, hl⟩ : ∃ y, y ≠ lo.yNew ∧ Low y lo.yNew := by
    have hm := (modulus_bound (F := S)).1
    have e : ∀ n : ℕ, n < 2 ^ 254 → val ((n : ℕ) : S) = n := fun n hn => val_of_lt (hn.trans hm)
    by_cases h : val lo.yNew < 2 ^ 128
    · refine ⟨((val lo.yNew + 2 ^ 128 : ℕ) : S), fun h' => ?_, ?_⟩
      · have := congrArg val h'
        rw [e _ (by omega)] at this
        omega
      · rw [Low, e _ (by omega)]
        omega
    · refine ⟨((val lo.yNew % 2 ^ 128 : ℕ) : S), fun h' => ?_, ?_⟩
      · have := congrArg val h'
        rw [e _ (by omega)] at this
        omega
      · rw [Low, e _ (by omega)]
        omega
  refine ⟨y, hy, ?_⟩
  simp only [Leftovers.toBytes]
  rw [bytes16_inj.2 hl]

omit [DecidableEq S] in
/-- **C46 is false of deferred records**: there are two with different challenges and the same encoding;
and there are two with different numbers of challenges. -/
theorem C46_deferred_false :
    (∃ d d' : Deferred S, d.x ≠ d'.x ∧ d.toBytes = d'.toBytes) ∧
    ∃ d d' : Deferred S, d.Small ∧ d'.Small ∧
      d.challengesSqPackedOld.length ≠ d'.challengesSqPackedOld.length ∧ d.toBytes = d'.toBytes := by
  have h0 : val (0 : S) = 0 := val_zero
  have h1 : bytes16 (((2 ^ 128 : ℕ) : ℕ) : S) = bytes16 (0 : S) := by
    rw [bytes16_inj, two_pow_128, h0]; norm_num
  have h2 : (bytes32 (0 : S)) = bytes16 (0 : S) ++ bytes16 (0 : S) := by
    apply Fe.leNat_inj (by simp)
    have e : leNat (bytes16 (0 : S)) = 0 := by
      rw [bytes16, bytes32, Util.leNat_take, toBytes_val, h0, Nat.zero_mod]
    rw [Fe.leNat_append, e, bytes32, toBytes_val, h0, Nat.mul_zero]
  refine ⟨⟨⟨(2 ^ 128 : ℕ), 0, 0, 0, 0, 0, 0, 0, 0, 0, [], 0, [], 0, 0, 0, 0, 0⟩,
    ⟨0, 0, 0, 0, 0, 0, 0, 0, 0, 0, [], 0, [], 0, 0, 0, 0, 0⟩, ?_, ?_⟩,
    ⟨0, 0, 0, 0, 0, 0, 0, 0, 0, 0, [0], 0, [], 0, 0, 0, 0, 0⟩,
    ⟨0, 0, 0, 0, 0, 0, 0, 0, 0, 0, [], 0, [0], 0, 0, 0, 0, 0⟩, ?_, ?_, ?_, ?_⟩
  · intro h
    have := congrArg val h
    simp only at this
    rw [two_pow_128, h0] at this
    norm_num at this
  · simp only [Deferred.toBytes]
    rw [h1]
  · simp [Deferred.Small, h0]
  · simp [Deferred.Small, h0]
  · simp
  · simp only [Deferred.toBytes, h2, List.flatMap_cons, List.flatMap_nil, List.append_nil,
      List.append_assoc]

/-- dummy leftovers and a dummy record have 128-bit challenges -/
example : (∀ P Q : Proj Fq, (⟨P, 0, Q, List.replicate 11 (FieldApi.fromU64 MAGIC)⟩ :
      Leftovers (Proj Fq) Fp).Small) ∧
    ∃ d, Deferred.dummy Fp 11 = some d ∧ d.Small := by
  have h12 : val (FieldApi.fromU64 MAGIC : Fp) = 12 := by
    have : val ((MAGIC.toNat : ℕ) : Fp) = 12 := val_of_lt (by
      have : MAGIC.toNat = 12 := rfl
      have := (modulus_bound (F := Fp)).1
      omega)
    rw [fromU64_eq, this]
  have h1 : val (1 : Fp) = 1 := by
    have := (modulus_bound (F := Fp)).1
    simpa using val_of_lt (F := Fp) (n := 1) (by omega)
  refine ⟨fun P Q => ⟨by simp [val_zero], fun a ha => ?_⟩, ?_⟩
  · rw [List.eq_of_mem_replicate ha, h12]; norm_num
  · obtain ⟨us, hus, hl⟩ := magic_roots (E := ec0) (F := Fq) (S := Fp) 11
    have hne : us ≠ [] := by rw [← List.length_pos_iff]; omega
    refine ⟨_, by
      unfold Deferred.dummy
      simp only [expandChallenges_eq hus, Option.bind_eq_bind, Option.bind_some,
        computeB_eq _ _ hne]
      rfl, ⟨by simp [h1], fun a ha => ?_, fun a ha => ?_⟩⟩ <;>
    · rw [List.eq_of_mem_replicate ha, h12]; norm_num

end Proofs
end Halo
