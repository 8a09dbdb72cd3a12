import Verif.Lemmas.Proofs.Commit
import Verif.Lemmas.Proofs.Deferred
import Verif.Props.Circuit
import Verif.Props.Util
/-!
# Properties of the proof system (C42–C46, C54–C56)

The group is Mathlib's group of rational points, as a module over the scalar field: `s • A` is
`val s • A`, a multiple of `A` by a natural number (`HaloCurve.module`).  `combine`, `offset`,
`ValidClaim`, `ValidParams`, `Roots`, … are in `Verif.Spec.Proofs`.
-/
namespace Halo
namespace Proofs
open Util Circuit
variable {E : CurveConsts} {F : Type} [Field F] [DecidableEq F] [LawfulField F]
  {S : Type} [Field S] [DecidableEq S] [LawfulField S]

omit [DecidableEq F] [DecidableEq S] in
/-- Instances of the hypotheses of the theorems below: parameters with `2^k` generators, none of
which is the identity. -/
theorem params_example [h : HaloCurve E F S] {k : ℕ} (hk : 3 < k) (hk' : k ≤ 30) :
    ∃ (params : Params (Proj F)) (g : ℕ → Pt (E.b : F)), ValidParams (Denotes (E.b : F)) g params ∧
      params.k = k ∧ ∀ i, g i ≠ 0 := by
  obtain ⟨A, hA, h0⟩ := one_denotes (E := E) (F := F) (S := S)
  refine ⟨⟨2 ^ k, 2 ^ (k - 2), k, List.replicate (2 ^ k) (Proj.one E)⟩, fun _ => A,
    ⟨hk, hk', rfl, rfl, by simp, fun i hi => ?_⟩, rfl, fun _ => h0⟩
  simpa using hA

/-! ### C42: commitments -/

omit [DecidableEq S] in
/-- **C42**, values: a commitment to a vector is the sum of its coefficients times the generators it is
aligned with. It depends on nothing else, in particular not on the number of cores; it panics exactly
when there are too many coefficients. -/
theorem C42_commit [HaloCurve E F S] {params : Params (Proj F)} {g : ℕ → Pt (E.b : F)}
    (hg : ∀ i, (h : i < params.generators.length) → Denotes (E.b : F) params.generators[i] (g i))
    (hsize : params.generators.length < 2 ^ 32) {cpus : ℕ} (hcpus : 0 < cpus) {lnCeil : ℕ → ℕ}
    (hln : ∀ n, 32 ≤ n → n < 2 ^ 32 → 1 ≤ lnCeil n ∧ lnCeil n ≤ 57) (v : List S) (rightEdge : Bool) :
    letI := Proj.curveOps E F S
    letI := HaloCurve.module (E := E) (F := F) (S := S)
    (params.generators.length < v.length → params.commit cpus lnCeil v rightEdge = none) ∧
    (v.length ≤ params.generators.length → ∃ P, params.commit cpus lnCeil v rightEdge = some P ∧
      Denotes (E.b : F) P (combine g (offset params.generators.length rightEdge v) v)) := by
  let := Proj.curveOps E F S
  let := HaloCurve.module (E := E) (F := F) (S := S)
  exact ⟨commit_none, fun h => commit_rep
    (HaloCurve.lawfulOps (E := E) (F := F) (S := S)).toLawfulCurve hcpus hln hsize hg h rightEdge⟩

omit [DecidableEq S] in
/-- **C42**, linearity: the commitment to a sum is the sum of the commitments, and the commitment to a
multiple is the multiple of the commitment. -/
theorem C42_linear [HaloCurve E F S] {params : Params (Proj F)} {g : ℕ → Pt (E.b : F)}
    (hg : ∀ i, (h : i < params.generators.length) → Denotes (E.b : F) params.generators[i] (g i))
    (hsize : params.generators.length < 2 ^ 32) {cpus : ℕ} (hcpus : 0 < cpus) {lnCeil : ℕ → ℕ}
    (hln : ∀ n, 32 ≤ n → n < 2 ^ 32 → 1 ≤ lnCeil n ∧ lnCeil n ≤ 57) (rightEdge : Bool) (c : S)
    (a b : List S) (hab : a.length = b.length) (hlen : a.length ≤ params.generators.length) :
    letI := Proj.curveOps E F S
    ∃ P Q R T A B, params.commit cpus lnCeil a rightEdge = some P ∧
      params.commit cpus lnCeil b rightEdge = some Q ∧
      params.commit cpus lnCeil (List.zipWith (· + ·) a b) rightEdge = some R ∧
      params.commit cpus lnCeil (a.map (c * ·)) rightEdge = some T ∧
      Denotes (E.b : F) P A ∧ Denotes (E.b : F) Q B ∧ Denotes (E.b : F) R (A + B) ∧
      Denotes (E.b : F) T (LawfulField.val c • A) := by
  let := Proj.curveOps E F S
  let := HaloCurve.module (E := E) (F := F) (S := S)
  have key := fun v : List S => (C42_commit hg hsize hcpus hln v rightEdge).2
  obtain ⟨P, p1, p2⟩ := key a hlen
  obtain ⟨Q, q1, q2⟩ := key b (by omega)
  obtain ⟨R, r1, r2⟩ := key (List.zipWith (· + ·) a b) (by simp; omega)
  obtain ⟨T, t1, t2⟩ := key (a.map (c * ·)) (by simpa)
  have ho : ∀ v : List S, v.length = a.length → offset params.generators.length rightEdge v =
      offset params.generators.length rightEdge a := fun v hv => by simp [offset, hv]
  refine ⟨P, Q, R, T, _, _, p1, q1, r1, t1, p2, q2, ?_, ?_⟩
  · convert r2 using 1
    rw [ho (List.zipWith (· + ·) a b) (by simp [hab]), ho b hab.symm]
    simp only [combine, List.length_zipWith, ← hab, min_self]
    rw [← Finset.sum_add_distrib]
    apply Finset.sum_congr rfl
    intro i hi
    have hi := Finset.mem_range.1 hi
    have hi' : i < b.length := by omega
    simp [List.getD, hi, hi', add_smul]
  · convert t2 using 1
    rw [ho (a.map (c * ·)) (by simp)]
    show c • combine g (offset params.generators.length rightEdge a) a = _
    simp only [combine, List.length_map, Finset.smul_sum]
    apply Finset.sum_congr rfl
    intro i hi
    have hi := Finset.mem_range.1 hi
    simp [List.getD, hi, mul_smul]

omit [DecidableEq S] in
/-- **C42**, alignment: zeros appended on the free side do not change the commitment. -/
theorem C42_alignment [HaloCurve E F S] {params : Params (Proj F)} {g : ℕ → Pt (E.b : F)}
    (hg : ∀ i, (h : i < params.generators.length) → Denotes (E.b : F) params.generators[i] (g i))
    (hsize : params.generators.length < 2 ^ 32) {cpus : ℕ} (hcpus : 0 < cpus) {lnCeil : ℕ → ℕ}
    (hln : ∀ n, 32 ≤ n → n < 2 ^ 32 → 1 ≤ lnCeil n ∧ lnCeil n ≤ 57) (v : List S) (m : ℕ)
    (hlen : m + v.length ≤ params.generators.length) :
    letI := Proj.curveOps E F S
    (∃ P Q A, params.commit cpus lnCeil v false = some P ∧
      params.commit cpus lnCeil (v ++ List.replicate m 0) false = some Q ∧
      Denotes (E.b : F) P A ∧ Denotes (E.b : F) Q A) ∧
    (∃ P Q A, params.commit cpus lnCeil v true = some P ∧
      params.commit cpus lnCeil (List.replicate m 0 ++ v) true = some Q ∧
      Denotes (E.b : F) P A ∧ Denotes (E.b : F) Q A) := by
  let := Proj.curveOps E F S
  let := HaloCurve.module (E := E) (F := F) (S := S)
  have key := fun r (v : List S) => (C42_commit hg hsize hcpus hln v r).2
  constructor
  · obtain ⟨P, p1, p2⟩ := key false v (by omega)
    obtain ⟨Q, q1, q2⟩ := key false (v ++ List.replicate m 0) (by simp; omega)
    refine ⟨P, Q, _, p1, q1, p2, ?_⟩
    convert q2 using 1
    simp only [combine, offset, Bool.false_eq_true, if_false, List.length_append, List.length_replicate,
      Finset.sum_range_add]
    refine Eq.symm ((add_eq_left.2 ?_).trans ?_)
    · apply Finset.sum_eq_zero
      intro i hi
      have hi := Finset.mem_range.1 hi
      simp [List.getD, hi]
    · apply Finset.sum_congr rfl
      intro i hi
      have hi := Finset.mem_range.1 hi
      simp [List.getD, List.getElem?_append, hi]
  · obtain ⟨P, p1, p2⟩ := key true v (by omega)
    obtain ⟨Q, q1, q2⟩ := key true (List.replicate m 0 ++ v) (by simp; omega)
    refine ⟨P, Q, _, p1, q1, p2, ?_⟩
    convert q2 using 1
    simp only [combine, offset, if_true, List.length_append, List.length_replicate,
      Finset.sum_range_add]
    refine Eq.symm ((add_eq_right.2 ?_).trans ?_)
    · apply Finset.sum_eq_zero
      intro i hi
      have hi := Finset.mem_range.1 hi
      simp [List.getD, List.getElem?_append, hi]
    · apply Finset.sum_congr rfl
      intro i hi
      have e : m + i + (params.generators.length - (m + v.length)) =
        i + (params.generators.length - v.length) := by omega
      simp [List.getD, List.getElem?_append, e]

/-- 16 generators and three coefficients -/
example : ∃ (params : Params (Proj Fq)) (g : ℕ → Pt ((ec0.b : ℕ) : Fq)),
    (∀ i, (h : i < params.generators.length) → Denotes _ params.generators[i] (g i)) ∧
    params.generators.length < 2 ^ 32 ∧ 2 + ([1, -2, 3] : List Fp).length ≤ params.generators.length ∧
    ∀ i, g i ≠ 0 := by
  obtain ⟨params, g, hp, hk, h0⟩ := params_example (E := ec0) (F := Fq) (S := Fp) (k := 4) (by norm_num)
    (by norm_num)
  refine ⟨params, g, hp.gens, ?_, ?_, h0⟩ <;> rw [hp.length, hk] <;> norm_num

/-! ### C43: openings -/

/-- **C43.** For every transcript, every number of rounds `k`, every list of polynomials with true claims
about their openings: if the prover returns, then the verifier accepts from the same transcript state,
ends in the same state with the same packed challenges and generator; and this generator passes the
check that is left over, that is, it is what one gets by folding all generators.

The prover must need at most 256 attempts for each challenge, since the verifier counts them in a `u8`. -/
theorem C43_opening [HaloCurve E F S] {T : Type} {tr : Transcript T F} {cpus : ℕ} (hcpus : 0 < cpus)
    {lnCeil : ℕ → ℕ} (hln : ∀ n, 32 ≤ n → n < 2 ^ 32 → 1 ≤ lnCeil n ∧ lnCeil n ≤ 57) {fuel : ℕ}
    (hfuel : fuel ≤ 256) {k : ℕ} (hk : 1 ≤ k) (hk' : k < 32) {gens : List (Proj F)}
    {g : ℕ → Pt (E.b : F)} (hlen : gens.length = 2 ^ k)
    (hg : ∀ i, (h : i < gens.length) → Denotes (E.b : F) gens[i] (g i)) :
    letI := Proj.curveOps E F S
    letI := HaloCurve.module (E := E) (F := F) (S := S)
    ∀ {instances : List (PolynomialOpening (Proj F) S × List S)}
      (_ : ∀ i ∈ instances, ValidClaim (Denotes (E.b : F)) g k i.1 i.2) {t t' : T} {proof packed gNew}
      (_ : MultiPolynomialOpening.newProof tr fuel cpus lnCeil instances gens k t =
        some (proof, packed, gNew, t')),
    (∃ forks, proof.verifyProof tr (instances.map Prod.fst) k t =
        some (true, packed, gNew, forks, t') ∧ forks.length = k) ∧
    ∃ us, Roots packed us ∧ us.length = k ∧ Denotes (E.b : F) gNew (collapse us g) ∧
      ∃ G, computeG cpus lnCeil gens (us.map (· ^ 2)) (us.map (·⁻¹)).prod = some G ∧
        Proj.ctEq G gNew = true := by
  let := Proj.curveOps E F S
  let := HaloCurve.module (E := E) (F := F) (S := S)
  have L := HaloCurve.lawfulOps (E := E) (F := F) (S := S)
  intro instances hv t t' proof packed gNew h
  obtain ⟨forks, us, h1, h2, h3, h4, h5, -⟩ := newProof_verify L.toReflOps hcpus hln hfuel hk hk'.le hlen hg hv h
  have hl := h4.length.trans h2
  obtain ⟨G, h6, h7⟩ := computeG_rep L.toLawfulCurve hcpus hln h4.ne (by omega) (by rw [hlen, hl]) hg
  exact ⟨⟨forks, h1, h3⟩, us, h4, hl, h5, G, h6, (ctEq_iff h7 h5).2 (Or.inr rfl)⟩

/-- **C43**, the prover: with true claims, the only thing that can keep it from returning is a round in which it does not
find a challenge that is a square. -/
theorem C43_prover [HaloCurve E F S] {T : Type} {tr : Transcript T F} {cpus : ℕ} (hcpus : 0 < cpus)
    {lnCeil : ℕ → ℕ} (hln : ∀ n, 32 ≤ n → n < 2 ^ 32 → 1 ≤ lnCeil n ∧ lnCeil n ≤ 57) {fuel : ℕ}
    (hfuel : fuel ≤ 256) {k : ℕ} (hk' : k < 32) {gens : List (Proj F)}
    {g : ℕ → Pt (E.b : F)} (hlen : gens.length = 2 ^ k)
    (hg : ∀ i, (h : i < gens.length) → Denotes (E.b : F) gens[i] (g i)) :
    letI := Proj.curveOps E F S
    letI := HaloCurve.module (E := E) (F := F) (S := S)
    ∀ {instances : List (PolynomialOpening (Proj F) S × List S)}
      (_ : ∀ i ∈ instances, ValidClaim (Denotes (E.b : F)) g k i.1 i.2) (t : T),
    (∃ r, MultiPolynomialOpening.newProof tr fuel cpus lnCeil instances gens k t = some r) ↔
      ¬ StuckOpening tr fuel cpus lnCeil instances gens k t := by
  let := Proj.curveOps E F S
  let := HaloCurve.module (E := E) (F := F) (S := S)
  exact fun {_} hv t => newProof_some_iff (HaloCurve.lawfulOps (E := E) (F := F) (S := S)).toReflOps hcpus hln hfuel
    hk'.le hlen hg hv t

/-- A transcript for the examples: it ignores what it absorbs and always squeezes 12. -/
def constTranscript (F : Type) [Field F] : Transcript Unit F where
  new := ()
  absorb _ _ := ()
  squeeze _ := some (12, ())

omit [DecidableEq F] [DecidableEq S] in
theorem getChallenge_const [HaloCurve E F S] :
    ∃ c : S, getChallenge S (constTranscript F) () = some (c, ()) ∧ c ≠ 0 ∧
      IsSquare (getChallengeScalar c : S) := by
  have hF := (LawfulField.modulus_bound (F := F)).1
  have hS := (LawfulField.modulus_bound (F := S)).1
  have e : FieldApi.lower128 (12 : F) = 12#128 := by
    apply BitVec.eq_of_toNat_eq
    have : LawfulField.val ((12 : ℕ) : F) = 12 := LawfulField.val_of_lt (by omega)
    push_cast at this
    rw [LawfulField.lower128_val, this]; rfl
  have e2 : LawfulField.val ((((12#128 ||| (1#128 <<< 127)) : BitVec 128).toNat : ℕ) : S) =
      ((12#128 ||| (1#128 <<< 127)) : BitVec 128).toNat :=
    LawfulField.val_of_lt (lt_of_lt_of_le (BitVec.isLt _) (by
      have : (2 : ℕ) ^ 128 ≤ 2 ^ 254 := Nat.pow_le_pow_right (by norm_num) (by norm_num)
      omega))
  refine ⟨FieldApi.fromU128 (12#128 ||| (1#128 <<< 127)), ?_, ?_, ?_⟩
  · simp only [getChallenge, constTranscript, e, Option.bind_eq_bind, Option.bind_some]
  · rw [LawfulField.fromU128_eq]
    intro h0
    rw [h0, LawfulField.val_zero] at e2
    exact absurd e2 (by decide)
  · rw [getChallengeScalar]
    have : FieldApi.lower128 (FieldApi.fromU128 (12#128 ||| (1#128 <<< 127)) : S) =
        12#128 ||| (1#128 <<< 127) := by
      apply BitVec.eq_of_toNat_eq
      rw [LawfulField.lower128_val, LawfulField.fromU128_eq, e2]
      exact Nat.mod_eq_of_lt (BitVec.isLt _)
    rw [this]
    exact magic_square' ‹_›

omit [DecidableEq F] in
/-- With this transcript every challenge is found at the first attempt. -/
theorem squareChallenge_const [HaloCurve E F S] (t : Unit) :
    ∃ r, squareChallenge S (constTranscript F) 1 t = some r := by
  obtain ⟨c, h1, -, h2⟩ := getChallenge_const (E := E) (F := F) (S := S)
  obtain ⟨u, hu, huu⟩ := LawfulField.sqrt_some _ h2
  have hu0 : u ≠ 0 := by
    rintro rfl
    rw [mul_zero] at huu
    exact Circuit.CurvePoint.expandChallenge_ne_zero _ huu.symm
  have ha : ∀ f : F, (constTranscript F).absorb f t = () := fun _ => rfl
  refine ⟨_, by
    simp only [squareChallenge, forkLoop, ha, h1, Option.bind_eq_bind, Option.bind_some, hu,
      if_true, LawfulField.invert_eq _ hu0]
    rfl⟩

/-- 16 generators, and the true claims about two polynomials, one aligned to the right, at different
points: the prover returns a proof for this transcript. -/
example : ∃ (params : Params (Proj Fq)) (g : ℕ → Pt ((ec0.b : ℕ) : Fq)) (P Q : Proj Fq),
    letI := Proj.curveOps ec0 Fq Fp
    letI := HaloCurve.module (E := ec0) (F := Fq) (S := Fp)
    let v : List Fp := [1, -2, 3]
    let claim1 : PolynomialOpening (Proj Fq) Fp := ⟨P, 1 + -2 * 5 + 3 * 5 ^ 2, 5, false⟩
    let claim2 : PolynomialOpening (Proj Fq) Fp := ⟨Q, 1 * 7 ^ 13 + -2 * 7 ^ 14 + 3 * 7 ^ 15, 7, true⟩
    ValidClaim (Denotes _) g 4 claim1 v ∧ ValidClaim (Denotes _) g 4 claim2 v ∧
    ∃ r, MultiPolynomialOpening.newProof (constTranscript Fq) 1 4 (fun _ => 3)
      [(claim1, v), (claim2, v)] params.generators 4 () = some r := by
  obtain ⟨params, g, hp, hk, -⟩ := params_example (E := ec0) (F := Fq) (S := Fp) (k := 4) (by norm_num)
    (by norm_num)
  let := Proj.curveOps ec0 Fq Fp
  let := HaloCurve.module (E := ec0) (F := Fq) (S := Fp)
  have hl : params.generators.length = 2 ^ 4 := by rw [hp.length, hk]
  obtain ⟨P, -, hP⟩ := (C42_commit (S := Fp) hp.gens (by rw [hl]; norm_num) (cpus := 4) (by norm_num)
    (lnCeil := fun _ => 3) (by simp) [1, -2, 3] false).2 (by rw [hl]; simp)
  obtain ⟨Q, -, hQ⟩ := (C42_commit (S := Fp) hp.gens (by rw [hl]; norm_num) (cpus := 4) (by norm_num)
    (lnCeil := fun _ => 3) (by simp) [1, -2, 3] true).2 (by rw [hl]; simp)
  rw [hl] at hP hQ
  have h1 : ValidClaim (Denotes ((ec0.b : ℕ) : Fq)) g 4
      (⟨P, 1 + -2 * 5 + 3 * 5 ^ 2, 5, false⟩ : PolynomialOpening (Proj Fq) Fp) [1, -2, 3] := by
    refine ⟨by simp, hP, ?_⟩
    simp [combine, offset, Finset.sum_range_succ]
  have h2 : ValidClaim (Denotes ((ec0.b : ℕ) : Fq)) g 4
      (⟨Q, 1 * 7 ^ 13 + -2 * 7 ^ 14 + 3 * 7 ^ 15, 7, true⟩ : PolynomialOpening (Proj Fq) Fp)
      [1, -2, 3] := by
    refine ⟨by simp, hQ, ?_⟩
    simp [combine, offset, Finset.sum_range_succ]
  refine ⟨params, g, P, Q, h1, h2, ?_⟩
  refine (C43_prover (by norm_num) (by simp) (by norm_num) (by norm_num) hl
    (fun i hi => hp.gens i hi) ?_ ()).2 fun ⟨_, _, h⟩ => not_stuck (squareChallenge_const (E := ec0)) h
  simp only [List.mem_cons, List.not_mem_nil, or_false, forall_eq_or_imp, forall_eq]
  exact ⟨h1, h2⟩

end Proofs
end Halo
