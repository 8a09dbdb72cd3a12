import Verif.Lemmas.Proofs.Total
import Verif.Lemmas.Proofs.Scripted
import Verif.Props.Honest
/-!
# The verifier returns a verdict (C69)
-/
namespace Halo
namespace Proofs
open Util Circuit
variable {E : CurveConsts} {F : Type} [Field F] [DecidableEq F] [LawfulField F]
  {S : Type} [Field S] [DecidableEq S] [LawfulField S] {T : Type} {tr : Transcript T F}

/-- **C69**. Take valid parameters, a circuit, which may be too large for them, and a proof with at least five final scalars, which may come
from anybody. The verifier returns a verdict if the number of public inputs is right, the challenges of the old
leftovers are squares and there is one of them, the proof has `k` rounds, and the transcript, fed with the messages of the
proof, yields challenges (so that each round must have five entries). Otherwise it panics. -/
theorem C69_verdict [HaloCurve E F S] {cpus : ℕ} {lnCeil : ℕ → ℕ} {α : Type}
    {st : Statement (Proj F) S α} {g : ℕ → Pt (E.b : F)} (hp : ValidParams (Denotes (E.b : F)) g st.params)
    {gates : ℕ} {lcs : List (LC S)} {positions : List ℕ} (hs : HasShape false st.circuit gates lcs positions)
    {π : Proof (Proj F) S} (hπ : 5 ≤ π.innerProduct.a.length) :
    letI := Proj.curveOps E F S
    (∃ r, π.verify tr cpus lnCeil st.old st.params st.circuit st.inputs st.kCommitment = .ok r) ↔
      st.inputs.length + 1 = positions.length ∧ st.old.challengesSqPackedNew ≠ [] ∧
      π.innerProduct.rounds.length = st.params.k ∧
      ∃ us K, Roots st.old.challengesSqPackedNew us ∧
        st.kCommitment.or (st.params.commit cpus lnCeil (kPoly (positions.zip (1 :: st.inputs))) false) = some K ∧
        π.Draws tr K (kPoly (positions.zip (1 :: st.inputs))) us := by
  let := Proj.curveOps E F S
  let := HaloCurve.module (E := E) (F := F) (S := S)
  have hk := hp.k_gt
  obtain ⟨a, s, hsys, rfl, rfl, rfl, hw⟩ := hs
  have hshape : Shape st.circuit s.gates s := ⟨⟨a, hsys⟩, hw, le_rfl⟩
  obtain ⟨-, i, hi⟩ := first_constraint hsys
  have hpos : 0 < s.inputs.length := by rw [hi]; simp
  have hor : ∀ ky, st.kCommitment.or (st.params.commit cpus lnCeil ky false) = kOf cpus lnCeil st ky := by
    intro ky
    unfold kOf
    cases st.kCommitment <;> rfl
  rw [List.length_map, hor]
  constructor
  · rintro ⟨r, h⟩
    obtain ⟨K, hK, h⟩ := verify_given hshape h
    obtain ⟨h1, h2, h3, us, h4, h5⟩ := verify_draws hshape h
    exact ⟨by omega, h2, h3, us, K, h4, hK, h5⟩
  · rintro ⟨h1, h2, h3, us, K, h4, hK, h5⟩
    obtain ⟨b, new, d, forks, h, -⟩ := verify_total (cpus := cpus) (lnCeil := lnCeil) hshape (by omega) h4
      (by rw [← List.length_pos_iff, h4.length, List.length_pos_iff]; exact h2) (by omega) h3 hπ h5
    exact ⟨_, verify_of_given hshape hK h⟩

/-- **C69**, what is left over: when the verifier returns, then so do the two checks of what it leaves over. -/
theorem C69_leftovers [HaloCurve E F S] {cpus : ℕ} (hcpus : 0 < cpus) {lnCeil : ℕ → ℕ}
    (hln : ∀ n, 32 ≤ n → n < 2 ^ 32 → 1 ≤ lnCeil n ∧ lnCeil n ≤ 57) {α : Type}
    {st : Statement (Proj F) S α} {g : ℕ → Pt (E.b : F)} (hp : ValidParams (Denotes (E.b : F)) g st.params)
    {gates : ℕ} {lcs : List (LC S)} {positions : List ℕ} (hs : HasShape false st.circuit gates lcs positions)
    {π : Proof (Proj F) S} (hπ : 5 ≤ π.innerProduct.a.length)
    (hsNew : ∃ A, Denotes (E.b : F) π.sNewCommitment A) (hg : ∃ A, Denotes (E.b : F) π.innerProduct.g A)
    {b : Bool} {new : Leftovers (Proj F) S} {d : Deferred S} {forks : List ℕ} :
    letI := Proj.curveOps E F S
    π.verify tr cpus lnCeil st.old st.params st.circuit st.inputs st.kCommitment = .ok (b, new, d, forks) →
      (∃ b', d.verify st.params.k = some b') ∧ ∃ b', new.verify cpus lnCeil st.params st.circuit = .ok b' := by
  let := Proj.curveOps E F S
  let := HaloCurve.module (E := E) (F := F) (S := S)
  have L := HaloCurve.lawfulOps (E := E) (F := F) (S := S)
  intro h
  have hk := hp.k_gt
  obtain ⟨a, s, hsys, rfl, rfl, rfl, hw⟩ := hs
  have hshape : Shape st.circuit s.gates s := ⟨⟨a, hsys⟩, hw, le_rfl⟩
  obtain ⟨K, hK, h⟩ := verify_given hshape h
  obtain ⟨k1, hold, k3, us, k4, k5⟩ := verify_draws hshape h
  obtain ⟨b', new', d', forks', h1, h2, h3, h4, h5, h6, h7, h8, us', h9⟩ := verify_total (cpus := cpus) (lnCeil := lnCeil)
    hshape k1 k4 (by rw [← List.length_pos_iff, k4.length, List.length_pos_iff]; exact hold) (by omega) k3 hπ k5
  rw [h] at h1
  simp only [Except.ok.injEq, Prod.mk.injEq] at h1
  obtain ⟨-, rfl, rfl, -⟩ := h1
  constructor
  · have hne : d.challengesSqPackedNew ≠ [] := by
      rw [h5, ← List.length_pos_iff, h6]; omega
    obtain ⟨b', h, -⟩ := verify_some (k := st.params.k) (d := d) ⟨by omega, h2, h3, h4 ▸ hold, hne,
      h4 ▸ (roots_iff _).1 ⟨us, k4⟩, h5 ▸ (roots_iff _).1 ⟨us', h9⟩⟩
    exact ⟨b', h⟩
  · obtain ⟨A, hA⟩ := hsNew
    obtain ⟨B, hB⟩ := hg
    obtain ⟨b', h, -⟩ := leftovers_verify_eq L hcpus hln hp (computeSx_of st.params.n new.yNew hsys hw).1 h6 h9
      (h7 ▸ hA) (h8 ▸ hB)
    exact ⟨b', h⟩

omit [DecidableEq F] [DecidableEq S] in
/-- **C69**, the transcript of the code: it always yields the challenges `y`, `x`, `yNew` and `z`. Thus the only challenges
that it can fail to yield are those of the rounds. -/
theorem C69_rescue (t : Rescue F) : ∃ r, getChallenge S Transcript.rescue t = some r := by
  have out : ∀ s : Vector F Rescue.M, ∃ r, Rescue.takeFirst (Rescue.output s) 0 = some r := fun s => by
    rw [Rescue.takeFirst, dif_pos (by norm_num)]
    simp [Rescue.output]
  have absorbing : ∀ fuel input s, ∃ r, Rescue.squeezeLoop (F := F) (fuel + 2) ⟨.absorbing input, s⟩ = some r :=
    fun fuel input s => by
      obtain ⟨r, h⟩ := out (Rescue.duplexState s input)
      simp only [Rescue.squeezeLoop, h]
      exact ⟨_, rfl⟩
  obtain ⟨r, h⟩ : ∃ r, Rescue.squeeze t = some r := by
    obtain ⟨sponge, s⟩ := t
    unfold Rescue.squeeze
    cases sponge with
    | absorbing input => exact absorbing 1 input s
    | squeezing o =>
      rw [Rescue.squeezeLoop]
      cases h : Rescue.takeFirst o 0 with
      | none => simpa only [h] using absorbing 0 _ s
      | some r => simp only [h]; exact ⟨_, rfl⟩
  unfold getChallenge
  rw [show Transcript.rescue.squeeze t = some r from h]
  exact ⟨_, rfl⟩

omit [DecidableEq F] in
theorem draws_of_forall [CurveOps (Proj F) F S] (hsq : ∀ t, ∃ r, squareChallenge S tr 256 t = some r) {m : ℕ} :
    ∀ (rounds : List (InnerProductRound (Proj F) S)),
    (∀ r ∈ rounds, m ≤ r.L.length ∧ m ≤ r.R.length ∧ m ≤ r.l.length ∧ m ≤ r.r.length) → ∀ t, Draws tr m rounds t
  | [], _, t => .nil t
  | r :: rounds, h, t => by
    obtain ⟨es, hes⟩ := entries_some_iff.2 (h r (by simp))
    obtain ⟨⟨ch, t1⟩, hch⟩ := hsq (appendRound tr es t)
    exact .cons hes hch (draws_of_forall hsq rounds (fun r hr => h r (by simp [hr])) t1)

omit [DecidableEq F] in
theorem proof_draws_of_forall [CurveOps (Proj F) F S] (hget : ∀ t, ∃ r, getChallenge S tr t = some r)
    (hsq : ∀ t, ∃ r, squareChallenge S tr 256 t = some r) {π : Proof (Proj F) S} {k : ℕ} (hπ : π.WellFormed k)
    (K : Proj F) (ky us : List S) : π.Draws tr K ky us := by
  obtain ⟨⟨y, t1⟩, h1⟩ := hget (appendPoint tr π.rCommitment (appendPoint tr K tr.new))
  obtain ⟨⟨x, t2⟩, h2⟩ := hget (appendPoint tr π.tNegativeCommitment (appendPoint tr π.tPositiveCommitment
      (appendPoint tr π.sCurCommitment t1)))
  obtain ⟨⟨yn, t3⟩, h3⟩ := hget (appendPoint tr π.cCommitment t2)
  obtain ⟨⟨z, t4⟩, h4⟩ := hget ([combine (y ^ ·) 0 ky, π.rxOpening, π.rxyOpening, π.sxOldOpening, π.sxCurOpening,
      π.txPositiveOpening, π.txNegativeOpening, π.sxNewOpening, collapse us (x ^ ·)].foldl
        (fun t s => appendScalar (Proj F) tr s t) (appendPoint tr π.sNewCommitment t3))
  exact ⟨y, x, yn, z, t1, t2, t3, t4, h1, h2, h3, h4, draws_of_forall hsq _ hπ.entries t4⟩

/-- an example: the cube circuit, and a proof that consists of nothing but identities and zeros -/
example : letI := Proj.curveOps ec0 Fq Fp
    ∃ (st : Statement (Proj Fq) Fp Unit) (g : ℕ → Pt ((ec0.b : ℕ) : Fq)) (π : Proof (Proj Fq) Fp),
      ValidParams (Denotes _) g st.params ∧ HasShape false st.circuit 4 (cubeLcs Fp) [1, 6] ∧
      st.inputs.length + 1 = ([1, 6] : List ℕ).length ∧
      st.old.challengesSqPackedNew ≠ [] ∧ π.WellFormed st.params.k ∧
      (∃ us K, Roots st.old.challengesSqPackedNew us ∧
        st.kCommitment.or (st.params.commit 4 (fun _ => 3) (kPoly (([1, 6] : List ℕ).zip (1 :: st.inputs))) false) = some K ∧
        π.Draws (constTranscript Fq) K (kPoly (([1, 6] : List ℕ).zip (1 :: st.inputs))) us) ∧
      (∃ A, Denotes ((ec0.b : ℕ) : Fq) π.sNewCommitment A) ∧ ∃ A, Denotes ((ec0.b : ℕ) : Fq) π.innerProduct.g A := by
  obtain ⟨params, g, hp, hk, -⟩ := params_example (E := ec0) (F := Fq) (S := Fp) (k := 5) (by norm_num)
    (by norm_num)
  let := Proj.curveOps ec0 Fq Fp
  let := HaloCurve.module (E := ec0) (F := Fq) (S := Fp)
  have L := HaloCurve.lawfulOps (E := ec0) (F := Fq) (S := Fp)
  obtain ⟨us, hus, -⟩ := magic_roots (E := ec0) (F := Fq) (S := Fp) 5
  let O : Proj Fq := CurveApi.zero (S := Fp)
  have hget : ∀ t, ∃ r, getChallenge Fp (constTranscript Fq) t = some r := fun t => by
    obtain ⟨c, h, -⟩ := getChallenge_const (E := ec0) (F := Fq) (S := Fp)
    exact ⟨_, h⟩
  have hsq : ∀ t, ∃ r, squareChallenge Fp (constTranscript Fq) 256 t = some r := fun t => by
    obtain ⟨r, h⟩ := squareChallenge_const (E := ec0) (F := Fq) (S := Fp) t
    exact ⟨r, squareChallenge_mono (by norm_num) h⟩
  let π : Proof (Proj Fq) Fp := ⟨O, O, O, O, O, O, 0, 0, 0, 0, 0, 0, 0,
    ⟨List.replicate 5 ⟨[O, O, O, O, O], [O, O, O, O, O], [0, 0, 0, 0, 0], [0, 0, 0, 0, 0]⟩, [0, 0, 0, 0, 0], O⟩⟩
  have hπ : π.WellFormed 5 := ⟨by simp [π], fun r hr => by
    rw [List.eq_of_mem_replicate hr]
    exact ⟨le_rfl, le_rfl, le_rfl, le_rfl⟩, le_rfl⟩
  refine ⟨⟨params, cubeCircuit 3, [5], some O, ⟨O, 0, O, List.replicate 5 (FieldApi.fromU64 MAGIC)⟩⟩, g, π, hp,
    cube_shape false 3, rfl, by simp, by rw [hk]; exact hπ,
    ⟨us, O, hus, rfl, proof_draws_of_forall hget hsq hπ _ _ _⟩, ⟨0, L.zero⟩, ⟨0, L.zero⟩⟩

end Proofs
end Halo
