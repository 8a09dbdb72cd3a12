import Verif.Props.RecursionVerdict
import Verif.Lemmas.Proofs.Acceptance
/-!
# Which proofs the verifiers accept (C78)
-/
namespace Halo
namespace Proofs
open Util Circuit
variable {T : Type} {E : CurveConsts} {F : Type} [Field F] [DecidableEq F] [LawfulField F]
  {S : Type} [Field S] [DecidableEq S] [LawfulField S] {tr : Transcript T F}

omit [LawfulField F] in
theorem pointOf_spec {p : Proj F} (h : ∃ A, Denotes (E.b : F) p A) : Denotes (E.b : F) p (pointOf E p) := by
  rw [pointOf, dif_pos h]
  exact h.choose_spec

omit [LawfulField F] in
theorem pointOf_eq {p : Proj F} {A : Pt (E.b : F)} (h : Denotes (E.b : F) p A) : pointOf E p = A :=
  denotes_unique (pointOf_spec ⟨A, h⟩) h

/-- **C78**, proofs. Take any transcript, parameters, circuit, public inputs, and any proof whose points are on the curve. The
verifier accepts exactly if there is a public input for each one that the circuit exposes, the challenges of the old leftovers
are squares, and the proof passes: it has `k` rounds, the transcript yields challenges, and the five claims that it reduces
the statement to are opened. What it leaves over is given by the proof and the challenges. -/
theorem C78_proof [HaloCurve E F S] {cpus : ℕ} {lnCeil : ℕ → ℕ} {α : Type}
    {st : Statement (Proj F) S α} {g : ℕ → Pt (E.b : F)} (hp : ValidParams (Denotes (E.b : F)) g st.params)
    {gates : ℕ} {lcs : List (LC S)} {positions : List ℕ} (hs : HasShape false st.circuit gates lcs positions)
    {π : Proof (Proj F) S} (hπ : π.Points (Denotes (E.b : F)) (pointOf E))
    (hold : ∃ A, Denotes (E.b : F) st.old.sNewCommitment A) (hg : ∃ A, Denotes (E.b : F) st.old.gNew A)
    {new : Leftovers (Proj F) S} {d : Deferred S} {forks : List ℕ} :
    letI := Proj.curveOps E F S
    letI := HaloCurve.module (E := E) (F := F) (S := S)
    (∀ K, st.kCommitment.or (st.params.commit cpus lnCeil (kPoly (positions.zip (1 :: st.inputs))) false) = some K →
      ∃ A, Denotes (E.b : F) K A) →
    (π.verify tr cpus lnCeil st.old st.params st.circuit st.inputs st.kCommitment = .ok (true, new, d, forks) ↔
      st.inputs.length + 1 = positions.length ∧
      ∃ K uso c,
        st.kCommitment.or (st.params.commit cpus lnCeil (kPoly (positions.zip (1 :: st.inputs))) false) = some K ∧
        π.Passes tr (pointOf E) st.params.k st.old (kPoly (positions.zip (1 :: st.inputs))) K uso c ∧
        new = π.newLeftovers c ∧
        d = π.newDeferred st.old (combine (c.y ^ ·) 0 (kPoly (positions.zip (1 :: st.inputs)))) (collapse uso (c.x ^ ·)) c ∧
        forks = c.rounds.map (·.fork)) := by
  let := Proj.curveOps E F S
  let := HaloCurve.module (E := E) (F := F) (S := S)
  have L := HaloCurve.lawfulOps (E := E) (F := F) (S := S)
  have hk := hp.k_gt
  obtain ⟨a, s, hsys, rfl, rfl, rfl, hw⟩ := hs
  have hshape : Shape st.circuit s.gates s := ⟨⟨a, hsys⟩, hw, le_rfl⟩
  obtain ⟨-, i, hi⟩ := first_constraint hsys
  have hpos : 0 < s.inputs.length := by rw [hi]; simp
  have hor : ∀ ky, st.kCommitment.or (st.params.commit cpus lnCeil ky false) = kOf cpus lnCeil st ky := by
    intro ky
    unfold kOf
    cases st.kCommitment <;> rfl
  rw [List.length_map, hor]
  intro hK'
  have hv := fun (K : Proj F) (hK : ∃ A, Denotes (E.b : F) K A) => verify_iff (tr := tr) L (cpus := cpus) (lnCeil := lnCeil)
    hshape (π := π) (by omega) hπ (pointOf_spec hold) (pointOf_spec hg) (pointOf_spec hK) (new := new) (d := d) (forks := forks)
  constructor
  · intro h
    obtain ⟨K, hK, h⟩ := verify_given hshape h
    obtain ⟨h1, h2, h3, h4, uso, c, _, _, h5, rfl, rfl, h6, h7, h8⟩ := (hv K (hK' K hK)).1 h
    exact ⟨by omega, K, uso, c, hK, ⟨h3, h4, h2, h5, h6, h7⟩, h8⟩
  · rintro ⟨h1, K, uso, c, hK, h2, h3⟩
    exact verify_of_given hshape hK ((hv K (hK' K hK)).2 ⟨by omega, h2.old_ne, h2.rounds, h2.last, uso, c, _, _, h2.old_roots,
      rfl, rfl, h2.yields, h2.opens, h3⟩)

omit [DecidableEq S] in
/-- **C78**, leftovers -/
theorem C78_leftovers [HaloCurve E F S] {cpus : ℕ} (hcpus : 0 < cpus) {lnCeil : ℕ → ℕ}
    (hln : ∀ n, 32 ≤ n → n < 2 ^ 32 → 1 ≤ lnCeil n ∧ lnCeil n ≤ 57)
    {params : Params (Proj F)} {g : ℕ → Pt (E.b : F)} (hp : ValidParams (Denotes (E.b : F)) g params)
    {α : Type} {circuit : Var → Prog S α} {lo : Leftovers (Proj F) S}
    (hA : ∃ A, Denotes (E.b : F) lo.sNewCommitment A) (hB : ∃ B, Denotes (E.b : F) lo.gNew B) :
    letI := Proj.curveOps E F S
    letI := HaloCurve.module (E := E) (F := F) (S := S)
    lo.verify cpus lnCeil params circuit = .ok true ↔ lo.Passes (pointOf E) g params circuit := by
  let := Proj.curveOps E F S
  let := HaloCurve.module (E := E) (F := F) (S := S)
  constructor
  · intro h
    obtain ⟨sx, hsx⟩ : ∃ sx, computeSx params.n circuit lo.yNew = .ok sx := by
      unfold Leftovers.verify at h
      rw [bind_eq_ok] at h
      obtain ⟨sx, hsx, -⟩ := h
      exact ⟨sx, hsx⟩
    obtain ⟨hlen, us, hus⟩ := (C71_leftovers hcpus hln hp ⟨sx, hsx⟩ hA hB).1 ⟨_, h⟩
    obtain ⟨b, h1, h2⟩ := C45_leftovers_accepts hcpus hln hp hsx hlen hus (pointOf_spec hA) (pointOf_spec hB)
    rw [h] at h1
    obtain ⟨h3, h4⟩ := h2.1 (Except.ok.inj h1).symm
    exact ⟨hlen, ⟨us, hus, h3⟩, sx, hsx, h4⟩
  · rintro ⟨hlen, ⟨us, hus, h3⟩, sx, hsx, h4⟩
    obtain ⟨b, h1, h2⟩ := C45_leftovers_accepts hcpus hln hp hsx hlen hus (pointOf_spec hA) (pointOf_spec hB)
    rw [h1, h2.2 ⟨h3, h4⟩]

omit [DecidableEq F] in
theorem roundsYield_replicate [CurveOps (Proj F) F S] {ch : Challenge S} {m : ℕ} {r : InnerProductRound (Proj F) S}
    {es} (hes : r.entries m = some es) (hch : squareChallenge S (constTranscript F) 256 () = some (ch, ())) :
    ∀ k, RoundsYield (constTranscript F) m (List.replicate k r) () (List.replicate k ch)
  | 0 => .nil ()
  | k + 1 => .cons hes hch (roundsYield_replicate hes hch k)

/-- A round that consists of the point `O` and zeros -/
def flatRound (O : Proj F) : InnerProductRound (Proj F) S :=
  ⟨List.replicate 5 O, List.replicate 5 O, List.replicate 5 0, List.replicate 5 0⟩

/-- A proof that consists of the point `O` and zeros, except for the opening of `r(x, y)`, and the first of the last scalars -/
def flatProof (O : Proj F) (rxy : S) : Proof (Proj F) S :=
  ⟨O, O, O, O, O, O, 0, rxy, 0, 0, 0, 0, 0, ⟨List.replicate 5 (flatRound O), [1, 0, 0, 0, 0], O⟩⟩

/-- The statement that it is for -/
def flatStatement (params : Params (Proj F)) (O : Proj F) (y : S) (packed : S) : Statement (Proj F) S Unit :=
  ⟨params, cubeCircuit 3, [-y⁻¹ ^ 5], some O, ⟨O, 0, O, List.replicate 5 packed⟩⟩

theorem getD_zeros {M : Type} [Zero M] (n j : ℕ) : (List.replicate n (0 : M)).getD j 0 = 0 := by
  rw [List.getD_eq_getElem?_getD, List.getElem?_replicate]
  split <;> rfl

omit [LawfulField F] [DecidableEq S] [LawfulField S] in
theorem flatProof_points {O : Proj F} (hO : Denotes (E.b : F) O 0) (a : S) :
    (flatProof O a).Points (Denotes (E.b : F)) (pointOf E) := by
  have h : Denotes (E.b : F) O (pointOf E O) := pointOf_spec ⟨0, hO⟩
  have hl : ∀ p ∈ List.replicate 5 O, Denotes (E.b : F) p (pointOf E p) := by
    intro p hp
    rw [List.eq_of_mem_replicate hp]
    exact h
  refine ⟨h, h, h, h, h, h, fun q hq => ?_, h⟩
  rw [List.eq_of_mem_replicate hq]
  exact ⟨hl, hl⟩

omit [DecidableEq S] in
theorem flat_folded [HaloCurve E F S] {O : Proj F} (hO : Denotes (E.b : F) O 0) (k j : ℕ) (us : List S) :
    letI := HaloCurve.module (E := E) (F := F) (S := S)
    foldedCommitment (pointOf E) j (List.replicate k (flatRound O)) us 0 = 0 := by
  let := HaloCurve.module (E := E) (F := F) (S := S)
  rw [foldedCommitment, zero_add]
  refine List.sum_eq_zero fun q hq => ?_
  obtain ⟨⟨r', u⟩, he, rfl⟩ := List.mem_map.1 hq
  obtain rfl := List.eq_of_mem_replicate (List.of_mem_zip he).1
  simp only [flatRound, List.map_replicate, pointOf_eq hO, getD_zeros, smul_zero, add_zero]

omit [Field F] [DecidableEq F] [LawfulField F] [DecidableEq S] [LawfulField S] in
theorem flat_value {O : Proj F} (k j : ℕ) (us : List S) (v : S) : foldedValue j (List.replicate k (flatRound O)) us v = v := by
  rw [foldedValue, List.sum_eq_zero, add_zero]
  intro q hq
  obtain ⟨⟨r', u⟩, he, rfl⟩ := List.mem_map.1 hq
  obtain rfl := List.eq_of_mem_replicate (List.of_mem_zip he).1
  simp only [flatRound, getD_zeros, mul_zero, add_zero]

omit [DecidableEq S] [LawfulField S] in
theorem flat_ky {y : S} : combine (y ^ ·) 0 (kPoly (([1, 6] : List ℕ).zip (1 :: [-y⁻¹ ^ 5]))) = 0 := by
  have e : kPoly (([1, 6] : List ℕ).zip (1 :: [-y⁻¹ ^ 5])) = [0, 1, 0, 0, 0, 0, -y⁻¹ ^ 5] := rfl
  rw [e]
  simp only [combine, List.length_cons, List.length_nil, Finset.sum_range_succ, Finset.sum_range_zero, smul_eq_mul]
  simp
  field_simp
  ring

theorem flat_passes [HaloCurve E F S] {O : Proj F} (hO : Denotes (E.b : F) O 0) {y : S} {ch : Challenge S}
    {params : Params (Proj F)} (hk : params.k = 5) :
    letI := Proj.curveOps E F S
    letI := HaloCurve.module (E := E) (F := F) (S := S)
    getChallenge S (constTranscript F) () = some (y, ()) →
    squareChallenge S (constTranscript F) 256 () = some (ch, ()) →
    (flatProof O (0 : S)).Passes (constTranscript F) (pointOf E) params.k (flatStatement params O y ch.challengeSqPacked).old
      (kPoly (([1, 6] : List ℕ).zip (1 :: [-y⁻¹ ^ 5]))) O (List.replicate 5 ch.challenge)
      ⟨y, y, y, getChallengeScalar y, List.replicate 5 ch⟩ := by
  let := Proj.curveOps E F S
  let := HaloCurve.module (E := E) (F := F) (S := S)
  intro hy hch
  have hgood : ch.Good := squareChallenge_good hch
  have hroots : Roots (List.replicate 5 ch.challengeSqPacked) (List.replicate 5 ch.challenge) := by
    have := good_roots (chs := List.replicate 5 ch) (fun c hc => by rw [List.eq_of_mem_replicate hc]; exact hgood)
    simpa using this
  refine ⟨by simp [flatProof, hk], by simp [flatProof], by simp [flatStatement], hroots,
    ⟨y, (), (), (), (), hy, hy, hy, hy, rfl, roundsYield_replicate (entries_some_iff.2 (by simp [flatRound])).choose_spec hch 5⟩, ?_⟩
  rw [flat_ky]
  have key : ∀ (j : ℕ) (claim : PointClaim (Pt (E.b : F)) S), claim.commitment = 0 →
      claim.value = (flatProof O (0 : S)).innerProduct.a.getD j 0 * collapse (List.replicate 5 ch.challenge) (claim.point ^ ·) →
      claim.Opens (pointOf E) j (flatProof O (0 : S)).innerProduct (List.replicate 5 ch.challenge) := fun j claim h1 h2 =>
    ⟨.inl (by rw [h1]; exact flat_folded hO 5 j _), by rw [← h2]; exact flat_value 5 j _ _⟩
  have hus : RunChallenges.us ⟨y, y, y, getChallengeScalar y, List.replicate 5 ch⟩ = List.replicate 5 ch.challenge := by
    simp [RunChallenges.us]
  rw [hus]
  rintro (_ | _ | _ | _ | _ | j) claim hc <;>
    simp only [Proof.claims, List.getElem?_cons_succ, List.getElem?_cons_zero, List.getElem?_nil, Option.some.injEq,
      reduceCtorEq] at hc
  all_goals
    subst hc
    refine key _ _ ?_ ?_
    · simp [flatProof, flatStatement, pointOf_eq hO]
    · simp [flatProof]

/-- What the verifier says for both of them -/
theorem flat_verdicts [HaloCurve E F S] {O : Proj F} (hO : Denotes (E.b : F) O 0) {y : S} {ch : Challenge S}
    {params : Params (Proj F)} {g : ℕ → Pt (E.b : F)} (hp : ValidParams (Denotes (E.b : F)) g params) (hk : params.k = 5) :
    letI := Proj.curveOps E F S
    getChallenge S (constTranscript F) () = some (y, ()) →
    squareChallenge S (constTranscript F) 256 () = some (ch, ()) →
    let st := flatStatement params O y ch.challengeSqPacked
    (∃ new d forks, (flatProof O (0 : S)).verify (constTranscript F) 4 (fun _ => 3) st.old st.params st.circuit st.inputs
      st.kCommitment = .ok (true, new, d, forks)) ∧
    ¬ ∃ new d forks, (flatProof O (1 : S)).verify (constTranscript F) 4 (fun _ => 3) st.old st.params st.circuit st.inputs
      st.kCommitment = .ok (true, new, d, forks) := by
  let := Proj.curveOps E F S
  let := HaloCurve.module (E := E) (F := F) (S := S)
  intro hy hch st
  have hK : ∀ K, st.kCommitment.or (st.params.commit 4 (fun _ => 3) (kPoly (([1, 6] : List ℕ).zip (1 :: st.inputs))) false) =
      some K → ∃ A, Denotes (E.b : F) K A := by
    rintro _ ⟨⟩
    exact ⟨0, hO⟩
  have key := fun a new d forks => C78_proof (tr := constTranscript F) (st := st) hp (cube_shape false 3)
    (flatProof_points hO a) ⟨0, hO⟩ ⟨0, hO⟩ (new := new) (d := d) (forks := forks) hK
  constructor
  · exact ⟨_, _, _, (key _ _ _ _).2 ⟨rfl, O, _, _, rfl, flat_passes hO hk hy hch, rfl, rfl, rfl⟩⟩
  · rintro ⟨new, d, forks, h⟩
    obtain ⟨-, K, uso, c, -, h, -⟩ := (key _ _ _ _).1 h
    have := (h.opens 1 _ rfl).value
    have e : foldedValue 1 (List.replicate 5 (flatRound O)) c.us (1 : S) = (0 : S) * _ := this
    rw [flat_value, zero_mul] at e
    exact one_ne_zero e

/-- Examples: the cube circuit, and a proof that consists of the identity and zeros, except for the first of the last scalars.
For a transcript whose challenges are always the same, and a public input that is made up for it, the verifier accepts
it; with another opening of `r(x, y)` it does not. (The commitment to the public inputs is made up, too.) -/
example : letI := Proj.curveOps ec0 Fq Fp
    ∃ (st : Statement (Proj Fq) Fp Unit) (g : ℕ → Pt ((ec0.b : ℕ) : Fq)) (π π' : Proof (Proj Fq) Fp),
      ValidParams (Denotes _) g st.params ∧ HasShape false st.circuit 4 (cubeLcs Fp) [1, 6] ∧
      π.Points (Denotes _) (pointOf ec0) ∧ (∃ A, Denotes ((ec0.b : ℕ) : Fq) st.old.sNewCommitment A) ∧
      (∃ A, Denotes ((ec0.b : ℕ) : Fq) st.old.gNew A) ∧
      (∀ K, st.kCommitment.or (st.params.commit 4 (fun _ => 3) (kPoly (([1, 6] : List ℕ).zip (1 :: st.inputs))) false) =
        some K → ∃ A, Denotes ((ec0.b : ℕ) : Fq) K A) ∧
      (∃ new d forks, π.verify (constTranscript Fq) 4 (fun _ => 3) st.old st.params st.circuit st.inputs st.kCommitment =
        .ok (true, new, d, forks)) ∧
      ¬ ∃ new d forks, π'.verify (constTranscript Fq) 4 (fun _ => 3) st.old st.params st.circuit st.inputs st.kCommitment =
        .ok (true, new, d, forks) := by
  obtain ⟨params, g, hp, hk, -⟩ := params_example (E := ec0) (F := Fq) (S := Fp) (k := 5) (by norm_num)
    (by norm_num)
  let := Proj.curveOps ec0 Fq Fp
  let := HaloCurve.module (E := ec0) (F := Fq) (S := Fp)
  have L := HaloCurve.lawfulOps (E := ec0) (F := Fq) (S := Fp)
  obtain ⟨y, hy, -, -⟩ := getChallenge_const (E := ec0) (F := Fq) (S := Fp)
  obtain ⟨⟨ch, ⟨⟩⟩, hch⟩ := squareChallenge_const (E := ec0) (F := Fq) (S := Fp) ()
  have hch := squareChallenge_mono (fuel' := 256) (by norm_num) hch
  have hO := L.zero
  obtain ⟨h1, h2⟩ := flat_verdicts hO hp hk hy hch
  refine ⟨_, g, _, _, hp, cube_shape false 3, flatProof_points hO 0, ⟨0, hO⟩, ⟨0, hO⟩, ?_, h1, h2⟩
  rintro _ ⟨⟩
  exact ⟨0, hO⟩

end Proofs

namespace Recursion
open Circuit Proofs Util
variable {E1 E2 : CurveConsts} {B S : Type} [Field B] [DecidableEq B] [LawfulField B] [Field S] [DecidableEq S]
  [LawfulField S] [HaloCurve E1 B S] [HaloCurve E2 S B] {s : Setup E1 E2 B S}

/-- **C78**. Take a setup and a recursive proof, which may come from anybody, with points on the curves. Its verifier accepts
it exactly if
- the four lists of challenges have `4k` elements in all,
- the deferred record that it carries is well formed and true,
- the leftovers for the other curve pass,
- the proof itself passes, for the bits of everything that it carries as public inputs,
- the deferred relation holds between the openings of the proof,
- and the new leftovers, the last generator and the new commitment of the proof, pass. -/
theorem C78_recursive (hs : s.Good) {cpus : ℕ} (hcpus : 0 < cpus) {lnCeil : ℕ → ℕ}
    (hln : ∀ n, 32 ≤ n → n < 2 ^ 32 → 1 ≤ lnCeil n ∧ lnCeil n ≤ 57) {i1 : RecursiveCircuit S} {i2 : RecursiveCircuit B}
    (h1 : s.user1 i1) {p : RecursiveProof B S} (hp : s.admitted p.payload)
    (hπ : p.proof.Points (Denotes (E1.b : B)) (pointOf E1)) (hs1 : OnCurve E1 p.oldproof1.sNewCommitment)
    (hg1 : OnCurve E1 p.oldproof1.gNew) (hs2 : OnCurve E2 p.oldproof2.sNewCommitment) (hg2 : OnCurve E2 p.oldproof2.gNew) :
    letI := Proj.curveOps E1 B S
    letI := Proj.curveOps E2 S B
    letI := HaloCurve.module (E := E1) (F := B) (S := S)
    letI := HaloCurve.module (E := E2) (F := S) (S := B)
    p.verify E1 E2 cpus lnCeil s.params1 s.params2 i1 i2 = .ok true ↔
      p.oldproof1.challengesSqPackedNew.length + p.oldproof2.challengesSqPackedNew.length +
        p.deferred.challengesSqPackedOld.length + p.deferred.challengesSqPackedNew.length = 4 * s.params1.k ∧
      WellFormedDeferred s.params2.k p.deferred ∧ TrueDeferred s.params2.k p.deferred ∧
      p.oldproof2.Passes (pointOf E2) s.g2 s.params2
        ((blankCircuit s.params1 i2 p.payload : VerificationCircuit B S).synthesize E2 E1) ∧
      ∃ (K : Proj B) (uso : List S) (c : RunChallenges S), inputCommitment E1 s.params1.generators (bytesBits (p.inputBytes E1 E2)) = some K ∧
        p.proof.Passes Transcript.rescue (pointOf E1) s.params1.k p.oldproof1
          (0 :: 1 :: (bytesBits (p.inputBytes E1 E2)).map fun b => if b then 1 else 0) K uso c ∧
        DeferredRelation (2 ^ (s.params1.k - 2)) (p.proof.newDeferred p.oldproof1
          (combine (c.y ^ ·) 0 (0 :: 1 :: (bytesBits (p.inputBytes E1 E2)).map fun b => if b then 1 else 0 : List S))
          (collapse uso (c.x ^ ·)) c) ∧
        (p.proof.newLeftovers c).Passes (pointOf E1) s.g1 s.params1
          ((blankCircuit s.params2 i1 p.payload : VerificationCircuit S B).synthesize E1 E2) := by
  let := Proj.curveOps E1 B S
  let := Proj.curveOps E2 S B
  let := HaloCurve.module (E := E1) (F := B) (S := S)
  let := HaloCurve.module (E := E2) (F := S) (S := B)
  obtain ⟨gates, lcs, hshape⟩ := blank_shape hs h1 hp
  have hlen := inputBits_length (E1 := E1) (E2 := E2) hs hp
  have hgl := hs.one.valid.length
  have hroom := hs.one.room
  have hk4 := hs.one.valid.k_gt
  have hgens : ¬ s.params1.generators.length < 2 := by omega
  have hlo2 := C78_leftovers hcpus hln hs.two.valid (circuit := (blankCircuit s.params1 i2 p.payload :
    VerificationCircuit B S).synthesize E2 E1) hs2 hg2
  have hlo1 := fun c : RunChallenges S => C78_leftovers hcpus hln hs.one.valid (circuit := (blankCircuit s.params2 i1 p.payload :
    VerificationCircuit S B).synthesize E1 E2) (lo := p.proof.newLeftovers c) ⟨_, hπ.sNew⟩ ⟨_, hπ.g⟩
  let st (K : Proj B) : Statement (Proj B) S Unit := ⟨s.params1,
    (blankCircuit s.params2 i1 p.payload : VerificationCircuit S B).synthesize E1 E2,
    (bytesBits (p.inputBytes E1 E2)).map fun b => if b then 1 else 0, some K, p.oldproof1⟩
  have key : ∀ (K : Proj B) (hK : ∃ A, Denotes (E1.b : B) K A) new d forks,
      p.proof.verify Transcript.rescue cpus lnCeil (st K).old (st K).params (st K).circuit
        (st K).inputs (st K).kCommitment = .ok (true, new, d, forks) ↔ _ := fun K hK new d forks =>
    C78_proof (st := st K) hs.one.valid hshape hπ hs1 hg1 (by rintro _ ⟨⟩; exact hK)
  simp only [st, List.length_range', List.length_map, Nat.add_right_cancel_iff, hlen, Option.some_or, Option.some.injEq,
    exists_eq_left', exists_and_left] at key
  have hk : p.oldproof1.challengesSqPackedNew.length + p.oldproof2.challengesSqPackedNew.length +
        p.deferred.challengesSqPackedOld.length + p.deferred.challengesSqPackedNew.length = 4 * s.params1.k →
      kPoly ((List.range' 1 (s.bits + 1)).zip (1 :: (bytesBits (p.inputBytes E1 E2)).map fun b => if b then 1 else 0)) =
        (0 :: 1 :: (bytesBits (p.inputBytes E1 E2)).map fun b => if b then 1 else 0 : List S) := fun h => by
    rw [← kPoly_range, List.length_cons, List.length_map, hlen.2 h]
  have hKd : p.oldproof1.challengesSqPackedNew.length + p.oldproof2.challengesSqPackedNew.length +
        p.deferred.challengesSqPackedOld.length + p.deferred.challengesSqPackedNew.length = 4 * s.params1.k →
      ∃ K, inputCommitment E1 s.params1.generators (bytesBits (p.inputBytes E1 E2)) = some K ∧
        ∃ A, Denotes (E1.b : B) K A := fun h => by
    have := hlen.2 h
    obtain ⟨K, hK, hd⟩ := inputCommitment_eq (HaloCurve.good (E := E1) (F := B) (S := S)) hs.one.valid.gens (by omega)
      (bits := bytesBits (p.inputBytes E1 E2)) (by omega)
    exact ⟨K, hK, _, hd⟩
  -- the first constraint that is checked is the number of inputs
  have hcount : ∀ K r, p.proof.verify Transcript.rescue cpus lnCeil (st K).old (st K).params (st K).circuit
      (st K).inputs (st K).kCommitment = .ok r →
      p.oldproof1.challengesSqPackedNew.length + p.oldproof2.challengesSqPackedNew.length +
        p.deferred.challengesSqPackedOld.length + p.deferred.challengesSqPackedNew.length = 4 * s.params1.k := by
    intro K r h
    obtain ⟨a, t, hsys, rfl, rfl, hpos, hw⟩ := hshape
    obtain ⟨h, -⟩ := verify_draws (st := st K) ⟨⟨a, hsys⟩, hw, le_rfl⟩ h
    have hl : t.inputs.length = s.bits + 1 := by
      rw [← List.length_map (f := fun p => p.1), hpos, List.length_range']
    rw [hl] at h
    exact hlen.1 (by simpa [st] using h)
  unfold RecursiveProof.verify RecursiveProof.verifyInner
  simp only [bind_eq_ok, ofOption_eq_ok, if_neg hgens, Except.ok.injEq]
  constructor
  · rintro ⟨v, ⟨K, hK, ⟨w, new, d, forks⟩, hr, b2, hb2, rfl⟩, d1, hd1, d2, hd2, b3, hb3, b4, -, hb⟩
    have hc := hcount K _ hr
    obtain ⟨K', hK', hKd⟩ := hKd hc
    obtain rfl := Option.some.inj (hK'.symm.trans hK)
    simp only [Bool.and_eq_true] at hb
    obtain ⟨⟨⟨⟨⟨rfl, rfl⟩, rfl⟩, rfl⟩, rfl⟩, -⟩ := hb
    obtain ⟨-, uso, c, hP, rfl, rfl, rfl⟩ := (key _ hKd _ _ _).1 hr
    rw [hk hc] at hP hd2
    have hw1 : WellFormedDeferred s.params2.k p.deferred := by
      by_contra hno
      rw [(C45_deferred _ _).2 hno] at hd1
      cases hd1
    obtain ⟨e1, k1, k2⟩ := (C45_deferred _ _).1 hw1
    rw [hd1] at k1
    obtain ⟨e2, k3, k4⟩ := (C45_deferred _ _).1 (hP.wellFormed (by omega))
    rw [hd2] at k3
    exact ⟨hc, hw1, k2.1 (Option.some.inj k1).symm, hlo2.1 hb2, K', uso, c, hK, hP,
      (k4.1 (Option.some.inj k3).symm).relation, (hlo1 c).1 hb3⟩
  · rintro ⟨hc, hw1, ht1, hl2, K, uso, c, hK, hP, hrel, hl1⟩
    obtain ⟨K', hK', hKd⟩ := hKd hc
    obtain rfl := Option.some.inj (hK'.symm.trans hK)
    obtain ⟨e1, k1, k2⟩ := (C45_deferred _ _).1 hw1
    obtain ⟨e2, k3, k4⟩ := (C45_deferred _ _).1 (hP.wellFormed (by omega))
    rw [k2.2 ht1] at k1
    rw [k4.2 (hP.true hrel)] at k3
    have hr := (key _ hKd _ _ _).2 ⟨hc, uso, c, (hk hc).symm ▸ hP, rfl, rfl, rfl⟩
    rw [hk hc] at hr
    exact ⟨_, ⟨K', hK, _, hr, true, hlo2.2 hl2, rfl⟩, true, k1, true, k3, true, (hlo1 c).2 hl1, true, hlo2.2 hl2, rfl⟩

/-- An example, in the setup of C60 for the curves of the code: a made-up proof meets the hypotheses of C78. It is rejected,
because the final scalars of its proof are zero, and the openings are not. -/
example : ∃ (s : Setup ec0 ec1 Fq Fp) (p : RecursiveProof Fq Fp), s.Good ∧ s.user1 firstBit ∧ s.admitted p.payload ∧
    p.proof.Points (Denotes _) (pointOf ec0) ∧ OnCurve ec0 p.oldproof1.sNewCommitment ∧ OnCurve ec0 p.oldproof1.gNew ∧
    OnCurve ec1 p.oldproof2.sNewCommitment ∧ OnCurve ec1 p.oldproof2.gNew ∧
    p.verify ec0 ec1 4 (fun _ => 3) s.params1 s.params2 firstBit firstBit ≠ .ok true := by
  obtain ⟨s, hs, hk, h1, h2, hb, ha⟩ := setup_example (E1 := ec0) (E2 := ec1) (B := Fq) (S := Fp) (k := 22) (by norm_num)
    (by norm_num)
  have he : Env.Good ⟨4, fun _ => 3, 1⟩ := ⟨by norm_num, by simp, by norm_num⟩
  obtain ⟨l1, -, -, k1⟩ := dummy_leftovers hs h1 he.cpus he.ln
  obtain ⟨l2, -, -, k2⟩ := dummy_leftovers hs.swap h2 he.cpus he.ln
  have hk2 : 2 ≤ s.params2.k := by rw [← hs.k_eq, hk]; norm_num
  obtain ⟨d, -, hw, ht, hsm, e5, e6, -⟩ := dummy_record (E := ec1) (F := Fp) (S := Fq) hk2
  obtain ⟨a1, ⟨us, a2⟩, a3, a4⟩ := k1.returns hs h1
  obtain ⟨b1, b2, b3, b4⟩ := k2.returns hs.swap h2
  have hp : s.admitted [2#8] := (hb _).2 rfl
  let := Proj.curveOps ec0 Fq Fp
  let := Proj.curveOps ec1 Fp Fq
  let := HaloCurve.module (E := ec0) (F := Fq) (S := Fp)
  let := HaloCurve.module (E := ec1) (F := Fp) (S := Fq)
  have hO : Denotes ((ec0.b : ℕ) : Fq) Proj.zero 0 :=
    (HaloCurve.lawfulOps (E := ec0) (F := Fq) (S := Fp)).zero
  have hpts := flatProof_points hO (1 : Fp)
  refine ⟨s, ⟨flatProof Proj.zero 1, l1, l2, d, [2#8]⟩, hs, h1, hp, hpts, a3, a4, b3, b4, fun h => ?_⟩
  rw [C78_recursive hs he.cpus he.ln h1 hp hpts a3 a4 b3 b4] at h
  obtain ⟨-, -, -, -, K, uso, c, -, hP, -⟩ := h
  have := (hP.opens 1 _ rfl).value
  have e : foldedValue 1 (List.replicate 5 (flatRound Proj.zero)) c.us (1 : Fp) = (0 : Fp) * _ := this
  rw [flat_value, zero_mul] at e
  exact one_ne_zero e

end Recursion
end Halo
