import Verif.Lemmas.Proofs.Heavy
import Verif.Lemmas.Proofs.Scripted
import Verif.Props.Soundness
/-!
# The soundness error (C68)
-/
namespace Halo
namespace Proofs
open Util Circuit
variable {E : CurveConsts} {F : Type} [Field F] [DecidableEq F] [LawfulField F]
  {S : Type} [Field S] [DecidableEq S] [LawfulField S]

/-- **C68**. Let the challenges be drawn from any sets. If the verifier accepts with a probability above the soundness
error, there are few challenges from whose answers the extractor of C66 finds a satisfying assignment, or two
vectors with the same commitment. -/
theorem C68_soundness_error [HaloCurve E F S] {cpus : ℕ} (hcpus : 0 < cpus) {lnCeil : ℕ → ℕ}
    (hln : ∀ n, 32 ≤ n → n < 2 ^ 32 → 1 ≤ lnCeil n ∧ lnCeil n ≤ 57) {α : Type}
    {st : Statement (Proj F) S α} {g : ℕ → Pt (E.b : F)} (hp : ValidParams (Denotes (E.b : F)) g st.params)
    {gates : ℕ} {lcs : List (LC S)} {positions : List ℕ} (hs : HasShape false st.circuit gates lcs positions)
    (hgates : gates ≤ st.params.n) (hlcs : lcs.length < 2 ^ st.params.k)
    (hso : ∃ A, Denotes (E.b : F) st.old.sNewCommitment A) (hgo : ∃ A, Denotes (E.b : F) st.old.gNew A)
    (hlen : st.old.challengesSqPackedNew.length = st.params.k) {P : Prover (Proj F) S}
    (hP : P.OnCurve (Denotes (E.b : F))) {sp : Spaces S}
    (hu : ∀ u ∈ sp.u, ∀ v ∈ sp.u, u ^ 2 = v ^ 2 → u = v) :
    letI := Proj.curveOps E F S
    letI := HaloCurve.module (E := E) (F := F) (S := S)
    ∀ (_ : ∀ c, st.kCommitment = some c →
        Denotes (E.b : F) c (combine g 0 (kPoly (positions.zip (1 :: st.inputs)))))
      (_ : sp.error st.params.k lcs.length < fraction (sp.outcomes st.params.k) fun c =>
        st.Accepts (F := F) cpus lnCeil P c.1 c.2.1 c.2.2.1 c.2.2.2.1 c.2.2.2.2),
      ∃ ch : Challenges S, ch.Few sp st.params.k lcs.length ∧ (Binding g st P ch positions →
        (∃ v, Found st P ch positions v ∧
          Denotes (E.b : F) P.r (∑ m ∈ Finset.range (2 ^ st.params.k), v m • g m) ∧
          ∃ a s, circuitSystem false st.circuit = .ok (a, s) ∧ s.Satisfied (wires st.params.n v) st.inputs ∧
            st.inputs.length + 1 = s.inputs.length) ∧
        ValidLeftovers (Denotes (E.b : F)) g st.params st.circuit st.old) := by
  let := Proj.curveOps E F S
  let := HaloCurve.module (E := E) (F := F) (S := S)
  intro hk hf
  have hk3 := hp.k_gt
  obtain ⟨ch, h1, h2, h3⟩ := heavy_tree (by omega) hu hf
  exact ⟨ch, h1, fun hb => C66_knowledge_soundness hcpus hln hp hs hgates hlcs hso hgo hlen hP h2 hk h3 hb⟩

/-- **C68**, contrapositive: if the circuit cannot be satisfied for the public inputs, or the old leftovers are not
right, no prover is accepted with a probability above the soundness error, unless an extractor gets two vectors with the
same commitment from the answers of the prover to few challenges. -/
theorem C68_false_statement [HaloCurve E F S] {cpus : ℕ} (hcpus : 0 < cpus) {lnCeil : ℕ → ℕ}
    (hln : ∀ n, 32 ≤ n → n < 2 ^ 32 → 1 ≤ lnCeil n ∧ lnCeil n ≤ 57) {α : Type}
    {st : Statement (Proj F) S α} {g : ℕ → Pt (E.b : F)} (hp : ValidParams (Denotes (E.b : F)) g st.params)
    {gates : ℕ} {lcs : List (LC S)} {positions : List ℕ} (hs : HasShape false st.circuit gates lcs positions)
    (hgates : gates ≤ st.params.n) (hlcs : lcs.length < 2 ^ st.params.k)
    (hso : ∃ A, Denotes (E.b : F) st.old.sNewCommitment A) (hgo : ∃ A, Denotes (E.b : F) st.old.gNew A)
    (hlen : st.old.challengesSqPackedNew.length = st.params.k) {P : Prover (Proj F) S}
    (hP : P.OnCurve (Denotes (E.b : F))) {sp : Spaces S}
    (hu : ∀ u ∈ sp.u, ∀ v ∈ sp.u, u ^ 2 = v ^ 2 → u = v) :
    letI := Proj.curveOps E F S
    letI := HaloCurve.module (E := E) (F := F) (S := S)
    ∀ (_ : ∀ c, st.kCommitment = some c →
        Denotes (E.b : F) c (combine g 0 (kPoly (positions.zip (1 :: st.inputs)))))
      (_ : ∀ ch : Challenges S, ch.Few sp st.params.k lcs.length → Binding g st P ch positions)
      (_ : (∀ a s w, circuitSystem false st.circuit = .ok (a, s) → ¬ s.Satisfied w st.inputs) ∨
        ¬ ValidLeftovers (Denotes (E.b : F)) g st.params st.circuit st.old),
      fraction (sp.outcomes st.params.k) (fun c =>
        st.Accepts (F := F) cpus lnCeil P c.1 c.2.1 c.2.2.1 c.2.2.2.1 c.2.2.2.2) ≤
      sp.error st.params.k lcs.length := by
  let := Proj.curveOps E F S
  let := HaloCurve.module (E := E) (F := F) (S := S)
  intro hk hb hfalse
  by_contra hlt
  obtain ⟨ch, h1, h2⟩ := C68_soundness_error hcpus hln hp hs hgates hlcs hso hgo hlen hP hu hk (not_le.1 hlt)
  obtain ⟨⟨v, -, -, a, s, h3, h4, -⟩, h5⟩ := h2 (hb ch h1)
  rcases hfalse with h | h
  · exact h a s _ h3 h4
  · exact h h5

omit [DecidableEq F] in
/-- **C68**, the sets from which the code draws: a challenge is given by 127 of the bits that the transcript provides, and
different bits give different challenges. -/
theorem C68_challenges {T : Type} {tr : Transcript T F} {t t' : T} {c : S} (h : getChallenge S tr t = some (c, t')) :
    (∃ r, tr.squeeze t = some (r, t') ∧ c = ((2 ^ 127 + (FieldApi.lower128 r).toNat % 2 ^ 127 : ℕ) : S)) ∧
    c ∈ challengeSpace S := by
  obtain ⟨r, h1, rfl⟩ := getChallenge_eq h
  exact ⟨⟨r, h1, rfl⟩, Finset.mem_image.2 ⟨_, Finset.mem_range.2 (Nat.mod_lt _ (by positivity)), rfl⟩⟩

/-- **C68**, the size of these sets: four challenges stand for the same scalar. Different square roots have different
squares. -/
theorem C68_spaces : (challengeSpace S).card = 2 ^ 127 ∧ (scalarSpace S).card = 2 ^ 125 ∧
    (∀ i j : ℕ, i < 2 ^ 127 → j < 2 ^ 127 →
      ((getChallengeScalar ((2 ^ 127 + i : ℕ) : S) : S) = getChallengeScalar ((2 ^ 127 + j : ℕ) : S) ↔ i / 4 = j / 4)) ∧
    ∀ u ∈ rootSpace S, ∀ v ∈ rootSpace S, u ^ 2 = v ^ 2 → u = v :=
  ⟨challengeSpace_card, scalarSpace_card, fun _ _ => scalar_iff, rootSpace_unique⟩

/-- **C68**, the soundness error for these sets: below `2^(k-123)` plus what the rounds contribute. The number of
square roots is left open. -/
theorem C68_error {k Q : ℕ} (hk : 3 ≤ k) (hQ : Q < 2 ^ k) :
    (Spaces.code S).error k Q ≤ 2 ^ k / 2 ^ 123 + 4 * k / (rootSpace S).card := by
  obtain ⟨h1, h2, -, -⟩ := C68_spaces (S := S)
  simp only [Spaces.error, Spaces.code, h1, h2]
  have h8 : (8 : ℚ) ≤ 2 ^ k := by
    have : 2 ^ 3 ≤ 2 ^ k := Nat.pow_le_pow_right (by norm_num) hk
    exact_mod_cast this
  have hQ' : (Q : ℚ) ≤ 2 ^ k := by exact_mod_cast hQ.le
  push_cast
  have : (2 ^ k + 3 * Q : ℚ) / 2 ^ 127 + 3 * 2 ^ k / 2 ^ 127 + (2 ^ k + 2 * Q) / 2 ^ 127 + 12 / 2 ^ 125 ≤ 2 ^ k / 2 ^ 123 := by
    rw [show (2 : ℚ) ^ 127 = 2 ^ 123 * 16 by norm_num, show (2 : ℚ) ^ 125 = 2 ^ 123 * 4 by norm_num]
    have hp : (0 : ℚ) < 2 ^ 123 := by positivity
    generalize (2 : ℚ) ^ 123 = w at hp
    field_simp
    linarith
  linarith

section
attribute [local irreducible] challengeSpace scalarSpace rootSpace

/-- **C68**, real runs are outcomes: whatever transcript the verifier uses, if it accepts a proof, there are challenges in
the sets from which the code draws for which any prover that sends this proof is accepted, in particular the one that
always sends it. -/
theorem C68_transcript [HaloCurve E F S] {T : Type} {tr : Transcript T F} {cpus : ℕ} {lnCeil : ℕ → ℕ} {α : Type}
    {st : Statement (Proj F) S α} {gates : ℕ} {lcs : List (LC S)} {positions : List ℕ}
    (hs : HasShape false st.circuit gates lcs positions) (hgates : gates ≤ st.params.n)
    {π : Proof (Proj F) S} {new : Leftovers (Proj F) S} {d : Deferred S} {forks : List ℕ} :
    letI := Proj.curveOps E F S
    ∀ (_ : π.verify tr cpus lnCeil st.old st.params st.circuit st.inputs st.kCommitment = .ok (true, new, d, forks))
      (_ : d.verify st.params.k = some true) (_ : new.verify cpus lnCeil st.params st.circuit = .ok true),
      ∃ y x yNew z us, (y, x, yNew, z, us) ∈ (Spaces.code S).outcomes st.params.k ∧
        (∀ P : Prover (Proj F) S, P.proof y x yNew z us = π → st.Accepts (F := F) cpus lnCeil P y x yNew z us) ∧
        (Prover.fixed π).proof y x yNew z us = π := by
  let := Proj.curveOps E F S
  intro hv hd hn
  obtain ⟨a, s, hsys, rfl, rfl, rfl, hw⟩ := hs
  have hshape : Shape st.circuit st.params.n s := ⟨⟨a, hsys⟩, hw, hgates⟩
  obtain ⟨K, hK, hv⟩ := verify_given hshape hv
  obtain ⟨y, x, yNew, z', us, f, forks', hr, hl, m1, m2, m3, m4, m5, hus, c0, c1, c2, c3, hv⟩ := verify_scripted hshape hv
  refine ⟨y, x, yNew, getChallengeScalar z', us,
    mem_outcomes m1 m2 m3 (mem_scalarSpace m4) hl m5, fun P hP => ?_, fixed_proof π _ _ _ _ _ (hl.trans hr.symm)⟩
  exact ⟨f, z', new, d, forks', c0, c1, c2, c3, rfl, hP ▸ verify_of_given hshape hK hv, hus, hd, hn⟩

/-- an accepted run: the cube circuit with an honest prover -/
example : letI := Proj.curveOps ec0 Fq Fp
    ∃ (st : Statement (Proj Fq) Fp Unit) (π : Proof (Proj Fq) Fp) (new : Leftovers (Proj Fq) Fp) (d : Deferred Fp)
      (forks : List ℕ), HasShape false st.circuit 4 (cubeLcs Fp) [1, 6] ∧ 4 ≤ st.params.n ∧
      π.verify (constTranscript Fq) 4 (fun _ => 3) st.old st.params st.circuit st.inputs st.kCommitment =
        .ok (true, new, d, forks) ∧
      d.verify st.params.k = some true ∧ new.verify 4 (fun _ => 3) st.params st.circuit = .ok true := by
  obtain ⟨params, g, hp, hk, -⟩ := params_example (E := ec0) (F := Fq) (S := Fp) (k := 5) (by norm_num)
    (by norm_num)
  let := Proj.curveOps ec0 Fq Fp
  let := HaloCurve.module (E := ec0) (F := Fq) (S := Fp)
  have h1 := cube_shape true (3 : Fp)
  have h2 := cube_shape false (3 : Fp)
  have hn : 4 < params.n := by rw [hp.n_eq, hk]; norm_num
  have hd : (cubeLcs Fp).length < params.d := by rw [hp.d_eq, hk]; simp [cubeLcs]
  have hget : ∀ t, ∃ r, getChallenge Fp (constTranscript Fq) t = some r := fun t => by
    obtain ⟨c, h, -⟩ := getChallenge_const (E := ec0) (F := Fq) (S := Fp)
    exact ⟨_, h⟩
  have hsq : ∀ t, ∃ r, squareChallenge Fp (constTranscript Fq) 1 t = some r :=
    squareChallenge_const (E := ec0)
  obtain ⟨a, s, e1, -, -, -, e5⟩ := id h2
  obtain ⟨old, -, -, hold, -⟩ := C45_leftovers_dummy (E := ec0) (S := Fp) (cpus := 4) (by norm_num)
    (lnCeil := fun _ => 3) (by simp) hp (computeSx_of params.n (0 : Fp) e1 e5).1
  have hsat := cube_satisfied (3 : Fp)
  obtain ⟨π, new, hnew⟩ := C44_prover_returns (E := ec0) (constTranscript Fq) (fuel := 1) (cpus := 4)
    (lnCeil := fun _ => 3) (by norm_num) hget hsq (by norm_num) (by simp) hp h1 h2 hn hd hsat hold
  obtain ⟨d, forks, v1, v2, v3, -⟩ := C44_honest_proof_verifies (constTranscript Fq) (by norm_num) (cpus' := 4)
    (by norm_num) (by norm_num) (lnCeil' := fun _ => 3) (by simp) (by simp) hp h1 h2 h2 hsat hold hnew
    (kCommitment := none) (by simp)
  exact ⟨⟨params, cubeCircuit 3, [3 * 3 * 3], none, old⟩, π, new, d, forks, h2, hn.le, v1, v2, v3⟩

end

/-- the sets of a pool -/
def Pool.spaces {N : ℕ} (p : Pool F S N) : Spaces S :=
  ⟨Finset.univ.image p.pk, Finset.univ.image p.pk, Finset.univ.image p.pk,
    Finset.univ.image fun i => getChallengeScalar (p.pk i), Finset.univ.image p.root⟩

/-- A concrete case: the cube circuit over the first curve, with an honest prover and challenges from sets with 240
elements. The prover is accepted with probability 1, the soundness error is 227/240, and there are no two vectors with
the same commitment. -/
example : letI := Proj.curveOps ec0 Fq Fp
    letI := HaloCurve.module (E := ec0) (F := Fq) (S := Fp)
    ∃ (st : Statement (Proj Fq) Fp Unit) (g : ℕ → Pt (ec0.b : Fq)) (P : Prover (Proj Fq) Fp) (sp : Spaces Fp),
      st.circuit = cubeCircuit 3 ∧ st.inputs = [27] ∧
      ValidParams (Denotes (ec0.b : Fq)) g st.params ∧ HasShape false st.circuit 4 (cubeLcs Fp) [1, 6] ∧
      4 ≤ st.params.n ∧ (cubeLcs Fp).length < 2 ^ st.params.k ∧
      (∃ A, Denotes (ec0.b : Fq) st.old.sNewCommitment A) ∧ (∃ A, Denotes (ec0.b : Fq) st.old.gNew A) ∧
      st.old.challengesSqPackedNew.length = st.params.k ∧ P.OnCurve (Denotes (ec0.b : Fq)) ∧
      (∀ u ∈ sp.u, ∀ v ∈ sp.u, u ^ 2 = v ^ 2 → u = v) ∧
      (∀ c, st.kCommitment = some c →
        Denotes (ec0.b : Fq) c (combine g 0 (kPoly (([1, 6] : List ℕ).zip (1 :: st.inputs))))) ∧
      sp.error st.params.k (cubeLcs Fp).length = 227 / 240 ∧
      fraction (sp.outcomes st.params.k) (fun c =>
        st.Accepts (F := Fq) 4 (fun _ => 4) P c.1 c.2.1 c.2.2.1 c.2.2.2.1 c.2.2.2.2) = 1 ∧
      ∀ ch : Challenges Fp, ch.Few sp st.params.k (cubeLcs Fp).length → Binding g st P ch [1, 6] := by
  let := Proj.curveOps ec0 Fq Fp
  let := HaloCurve.module (E := ec0) (F := Fq) (S := Fp)
  obtain ⟨p⟩ := exists_pool
  have hsat := cube_satisfied (3 : Fp)
  rw [show (3 * 3 * 3 : Fp) = 27 by norm_num] at hsat
  obtain ⟨st, g, P, e1, e2, e3, e4, e5, hp, hold, hP, -, hacc, hb⟩ := honest_session (E := ec0) p
    (cube_shape true (3 : Fp)) (cube_shape false 3) (by norm_num) (by simp [cubeLcs]) hsat (cpus := 4)
    (by norm_num) (lnCeil := fun _ => 4) (fun _ _ _ => ⟨by norm_num, by norm_num⟩)
  have hs : HasShape false st.circuit 4 (cubeLcs Fp) [1, 6] := e1 ▸ cube_shape false 3
  obtain ⟨⟨sx, -, hso⟩, hlen, us, -, hgo⟩ := id hold
  refine ⟨st, g, P, p.spaces, e1, e2, hp, hs, by rw [e5]; norm_num, by rw [e4]; simp [cubeLcs], ⟨_, hso⟩, ⟨_, hgo⟩, hlen, hP,
    p.root_eq, fun c hc => ?_, ?_, ?_, fun ch h => h.binding hb⟩
  · rw [e3] at hc
    exact absurd hc (by simp)
  · simp only [Spaces.error, Pool.spaces, p.card_pk, p.card_z, p.card_root, e4, cubeLcs]
    norm_num
  · refine fraction_outcomes ?_ ?_ ?_ ?_ ?_ hacc
    all_goals simp only [Pool.spaces, p.card_pk, p.card_z, p.card_root]; norm_num

end Proofs
end Halo
