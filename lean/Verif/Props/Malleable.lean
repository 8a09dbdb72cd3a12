import Verif.Props.Acceptance
import Verif.Lemmas.Proofs.Malleable
/-!
# What the verifiers do not look at (C79)
-/
namespace Halo
namespace Proofs
open Util Circuit
variable {T : Type} {E : CurveConsts} {F : Type} [Field F] [DecidableEq F] [LawfulField F]
  {S : Type} [Field S] [DecidableEq S] [LawfulField S] {tr : Transcript T F}

/-- **C79**, proofs. Take any transcript, parameters, circuit and public inputs, and two proofs that differ only in the
encodings of their points and in what comes after the first five entries of the lists in them, for old leftovers that differ
only in the encodings of the points and in the upper halves of the packed challenges. If the verifier accepts one of them,
it accepts the other, and what is left over differs only in the same way. -/
theorem C79_proof [HaloCurve E F S] {cpus : ℕ} {lnCeil : ℕ → ℕ} {α : Type}
    {st : Statement (Proj F) S α} {g : ℕ → Pt (E.b : F)} (hp : ValidParams (Denotes (E.b : F)) g st.params)
    {gates : ℕ} {lcs : List (LC S)} {positions : List ℕ} (hs : HasShape false st.circuit gates lcs positions)
    {π π' : Proof (Proj F) S} (hπ : π.Points (Denotes (E.b : F)) (pointOf E)) (hπ' : π'.Points (Denotes (E.b : F)) (pointOf E))
    {old' : Leftovers (Proj F) S}
    (h1 : ∃ A, Denotes (E.b : F) st.old.sNewCommitment A) (h2 : ∃ A, Denotes (E.b : F) st.old.gNew A)
    (h3 : ∃ A, Denotes (E.b : F) old'.sNewCommitment A) (h4 : ∃ A, Denotes (E.b : F) old'.gNew A)
    (ha : π.Alike (pointOf E) π') (ho : st.old.Alike (pointOf E) old')
    {new : Leftovers (Proj F) S} {d : Deferred S} {forks : List ℕ} :
    letI := Proj.curveOps E F S
    (∀ K, st.kCommitment.or (st.params.commit cpus lnCeil (kPoly (positions.zip (1 :: st.inputs))) false) = some K →
      ∃ A, Denotes (E.b : F) K A) →
    π.verify tr cpus lnCeil st.old st.params st.circuit st.inputs st.kCommitment = .ok (true, new, d, forks) →
    ∃ new' d', new.Alike (pointOf E) new' ∧ d.Alike d' ∧
      π'.verify tr cpus lnCeil old' st.params st.circuit st.inputs st.kCommitment = .ok (true, new', d', forks) := by
  let := Proj.curveOps E F S
  let := HaloCurve.module (E := E) (F := F) (S := S)
  have L := HaloCurve.lawfulOps (E := E) (F := F) (S := S)
  intro hK h
  obtain ⟨k1, K, uso, c, k2, k3, rfl, rfl, rfl⟩ := (C78_proof hp hs hπ h1 h2 hK).1 h
  refine ⟨π'.newLeftovers c, π'.newDeferred old' _ _ c, ⟨ha.sNew, rfl, ha.g, rfl⟩, ⟨?_, ho.packed, rfl⟩,
    (C78_proof (st := { st with old := old' }) hp hs hπ' h3 h4 hK).2
      ⟨k1, K, uso, c, k2, k3.alike L ha ho hπ hπ', rfl, rfl, rfl⟩⟩
  unfold Proof.newDeferred
  rw [ho.y, ha.rx, ha.rxy, ha.sxCur, ha.txPositive, ha.txNegative]

/-- The proof with more scalars after the last ones -/
def Proof.padded (π : Proof (Proj F) S) (vs : List S) : Proof (Proj F) S :=
  { π with innerProduct := { π.innerProduct with a := π.innerProduct.a ++ vs } }

/-- Another element with the same lower half: `v + 2^128`, or the lower half itself if `v` has an upper half -/
def otherHalf (v : S) : S :=
  ((LawfulField.val v % 2 ^ 128 + if LawfulField.val v < 2 ^ 128 then 2 ^ 128 else 0 : ℕ) : S)

omit [DecidableEq S] in
theorem otherHalf_spec (v : S) : FieldApi.lower128 (otherHalf v) = FieldApi.lower128 v ∧ otherHalf v ≠ v := by
  obtain ⟨hm, -⟩ := LawfulField.modulus_bound (F := S)
  have hval : LawfulField.val (otherHalf v) =
      LawfulField.val v % 2 ^ 128 + if LawfulField.val v < 2 ^ 128 then 2 ^ 128 else 0 := by
    rw [otherHalf, LawfulField.val_natCast, Nat.mod_eq_of_lt]
    have : LawfulField.val v % 2 ^ 128 < 2 ^ 128 := Nat.mod_lt _ (by norm_num)
    split <;> omega
  constructor
  · apply BitVec.eq_of_toNat_eq
    rw [LawfulField.lower128_val, LawfulField.lower128_val, hval]
    split <;> omega
  · intro h
    rw [h] at hval
    split at hval <;> omega

omit [DecidableEq S] in
theorem alike_otherHalf (l : List S) : AlikePacked l (l.map otherHalf) := by
  rw [AlikePacked, List.map_map]
  exact List.map_congr_left fun v _ => (otherHalf_spec v).1.symm

omit [DecidableEq S] in
theorem otherHalf_ne {l : List S} (h : l ≠ []) : l.map otherHalf ≠ l := by
  cases l with
  | nil => exact absurd rfl h
  | cons v l => simp [(otherHalf_spec v).2]

omit [LawfulField F] [Field S] [DecidableEq S] [LawfulField S] in
theorem padded_points {π : Proof (Proj F) S} (h : π.Points (Denotes (E.b : F)) (pointOf E)) (vs : List S) :
    (π.padded vs).Points (Denotes (E.b : F)) (pointOf E) := by
  obtain ⟨h1, h2, h3, h4, h5, h6, h7, h8⟩ := h
  exact ⟨h1, h2, h3, h4, h5, h6, h7, h8⟩

omit [LawfulField F] [Field S] [DecidableEq S] [LawfulField S] in
theorem padded_alike {π : Proof (Proj F) S} (h : 5 ≤ π.innerProduct.a.length) (vs : List S) :
    π.Alike (pointOf E) (π.padded vs) := by
  refine ⟨rfl, rfl, rfl, rfl, rfl, rfl, rfl, rfl, rfl, rfl, rfl, rfl, rfl, List.forall₂_same.2 fun _ _ => ⟨rfl, rfl, rfl, rfl⟩, ?_, rfl⟩
  show _ = (π.innerProduct.a ++ vs).take 5
  rw [List.take_append_of_le_length h]

theorem flat_padded [HaloCurve E F S] {O : Proj F} (hO : Denotes (E.b : F) O 0) {y : S} {ch : Challenge S}
    {params : Params (Proj F)} {g : ℕ → Pt (E.b : F)} (hp : ValidParams (Denotes (E.b : F)) g params) (hk : params.k = 5) :
    letI := Proj.curveOps E F S
    getChallenge S (constTranscript F) () = some (y, ()) →
    squareChallenge S (constTranscript F) 256 () = some (ch, ()) →
    let st := flatStatement params O y ch.challengeSqPacked
    ∃ (π π' : Proof (Proj F) S) (old' : Leftovers (Proj F) S),
      π.Points (Denotes (E.b : F)) (pointOf E) ∧ π'.Points (Denotes (E.b : F)) (pointOf E) ∧ π.Alike (pointOf E) π' ∧
      (∃ A, Denotes (E.b : F) st.old.sNewCommitment A) ∧ (∃ A, Denotes (E.b : F) st.old.gNew A) ∧
      st.old.Alike (pointOf E) old' ∧ π.innerProduct.a ≠ π'.innerProduct.a ∧
      st.old.challengesSqPackedNew ≠ old'.challengesSqPackedNew ∧
      (∃ r, π.verify (constTranscript F) 4 (fun _ => 3) st.old st.params st.circuit st.inputs st.kCommitment = .ok (true, r)) ∧
      ∃ r, π'.verify (constTranscript F) 4 (fun _ => 3) old' st.params st.circuit st.inputs st.kCommitment = .ok (true, r) := by
  let := Proj.curveOps E F S
  intro hy hch st
  obtain ⟨⟨new, d, forks, h1⟩, -⟩ := flat_verdicts hO hp hk hy hch
  have hpts := flatProof_points hO (0 : S)
  have ha := padded_alike (E := E) (π := flatProof O (0 : S)) (by simp [flatProof]) [1, 1]
  have ho : st.old.Alike (pointOf E) { st.old with challengesSqPackedNew := st.old.challengesSqPackedNew.map otherHalf } :=
    ⟨rfl, rfl, rfl, alike_otherHalf _⟩
  obtain ⟨new', d', -, -, h2⟩ := C79_proof (st := st) hp (cube_shape false 3) hpts (padded_points hpts [1, 1]) ⟨0, hO⟩ ⟨0, hO⟩
    ⟨0, hO⟩ ⟨0, hO⟩ ha ho (by rintro _ ⟨⟩; exact ⟨0, hO⟩) h1
  exact ⟨_, _, _, hpts, padded_points hpts [1, 1], ha, ⟨0, hO⟩, ⟨0, hO⟩, ho, by simp [Proof.padded],
    (otherHalf_ne (by simp [st, flatStatement])).symm, ⟨_, h1⟩, ⟨_, h2⟩⟩

/-- An example: the accepted proof of C78 for the cube circuit, and the same proof with two more scalars, for old leftovers
with other challenges. It is accepted as well. -/
example : letI := Proj.curveOps ec0 Fq Fp
    ∃ (st : Statement (Proj Fq) Fp Unit) (g : ℕ → Pt ((ec0.b : ℕ) : Fq)), ValidParams (Denotes _) g st.params ∧
      HasShape false st.circuit 4 (cubeLcs Fp) [1, 6] ∧
      ∃ (π π' : Proof (Proj Fq) Fp) (old' : Leftovers (Proj Fq) Fp),
      π.Points (Denotes _) (pointOf ec0) ∧ π'.Points (Denotes _) (pointOf ec0) ∧ π.Alike (pointOf ec0) π' ∧
      (∃ A, Denotes ((ec0.b : ℕ) : Fq) st.old.sNewCommitment A) ∧ (∃ A, Denotes ((ec0.b : ℕ) : Fq) st.old.gNew A) ∧
      st.old.Alike (pointOf ec0) old' ∧ π.innerProduct.a ≠ π'.innerProduct.a ∧
      st.old.challengesSqPackedNew ≠ old'.challengesSqPackedNew ∧
      (∃ r, π.verify (constTranscript Fq) 4 (fun _ => 3) st.old st.params st.circuit st.inputs st.kCommitment = .ok (true, r)) ∧
      ∃ r, π'.verify (constTranscript Fq) 4 (fun _ => 3) old' st.params st.circuit st.inputs st.kCommitment = .ok (true, r) := by
  obtain ⟨params, g, hp, hk, -⟩ := params_example (E := ec0) (F := Fq) (S := Fp) (k := 5) (by norm_num)
    (by norm_num)
  let := Proj.curveOps ec0 Fq Fp
  let := HaloCurve.module (E := ec0) (F := Fq) (S := Fp)
  have L := HaloCurve.lawfulOps (E := ec0) (F := Fq) (S := Fp)
  obtain ⟨y, hy, -, -⟩ := getChallenge_const (E := ec0) (F := Fq) (S := Fp)
  obtain ⟨⟨ch, ⟨⟩⟩, hch⟩ := squareChallenge_const (E := ec0) (F := Fq) (S := Fp) ()
  have hch := squareChallenge_mono (fuel' := 256) (by norm_num) hch
  exact ⟨_, g, hp, cube_shape false 3, flat_padded L.zero hp hk hy hch⟩

end Proofs

namespace Recursion
open Circuit Proofs Util
variable {E1 E2 : CurveConsts} {B S : Type} [Field B] [DecidableEq B] [LawfulField B] [Field S] [DecidableEq S]
  [LawfulField S] [HaloCurve E1 B S] [HaloCurve E2 S B] {s : Setup E1 E2 B S}

omit [HaloCurve E1 B S] [HaloCurve E2 S B] in
theorem RecursiveProof.Alike.symm {p p' : RecursiveProof B S} (h : p.Alike E1 E2 p') : p'.Alike E1 E2 p :=
  ⟨h.proof.symm, h.oldproof1.symm, h.oldproof2.symm, h.deferred.symm, h.payload.symm⟩

theorem inputBytes_alike {p p' : RecursiveProof B S} (h : p.Alike E1 E2 p') (hp : p.Points E1 E2) (hp' : p'.Points E1 E2) :
    p.inputBytes E1 E2 = p'.inputBytes E1 E2 := by
  let := HaloCurve.module (E := E1) (F := B) (S := S)
  let := HaloCurve.module (E := E2) (F := S) (S := B)
  have e1 := @leftovers_bytes_alike _ _ _ _ _ _ _ _ _ _ _ (Proj.curveOps E1 B S) _ _
    (HaloCurve.lawfulOps (E := E1) (F := B) (S := S)) _ _ h.oldproof1 (pointOf_spec hp.s1) (pointOf_spec hp.g1)
    (pointOf_spec hp'.s1) (pointOf_spec hp'.g1)
  have e2 := @leftovers_bytes_alike _ _ _ _ _ _ _ _ _ _ _ (Proj.curveOps E2 S B) _ _
    (HaloCurve.lawfulOps (E := E2) (F := S) (S := B)) _ _ h.oldproof2 (pointOf_spec hp.s2) (pointOf_spec hp.g2)
    (pointOf_spec hp'.s2) (pointOf_spec hp'.g2)
  unfold RecursiveProof.inputBytes
  rw [h.payload, e1, e2, h.deferred.bytes]

/-- One direction -/
theorem accepts_alike (hs : s.Good) {cpus : ℕ} (hcpus : 0 < cpus) {lnCeil : ℕ → ℕ}
    (hln : ∀ n, 32 ≤ n → n < 2 ^ 32 → 1 ≤ lnCeil n ∧ lnCeil n ≤ 57) {i1 : RecursiveCircuit S} {i2 : RecursiveCircuit B}
    (h1 : s.user1 i1) {p p' : RecursiveProof B S} (hadm : s.admitted p.payload) (hp : p.Points E1 E2) (hp' : p'.Points E1 E2)
    (ha : p.Alike E1 E2 p') (h : p.verify E1 E2 cpus lnCeil s.params1 s.params2 i1 i2 = .ok true) :
    p'.verify E1 E2 cpus lnCeil s.params1 s.params2 i1 i2 = .ok true := by
  let := Proj.curveOps E1 B S
  let := Proj.curveOps E2 S B
  let := HaloCurve.module (E := E1) (F := B) (S := S)
  let := HaloCurve.module (E := E2) (F := S) (S := B)
  have L := HaloCurve.lawfulOps (E := E1) (F := B) (S := S)
  rw [C78_recursive hs hcpus hln h1 hadm hp.proof hp.s1 hp.g1 hp.s2 hp.g2] at h
  obtain ⟨k1, k2, k3, k4, K, uso, c, k5, k6, k7, k8⟩ := h
  rw [C78_recursive hs hcpus hln h1 (ha.payload ▸ hadm) hp'.proof hp'.s1 hp'.g1 hp'.s2 hp'.g2]
  have hb := inputBytes_alike ha hp hp'
  rw [ha.payload] at k4 k8
  rw [hb] at k5 k6 k7
  refine ⟨?_, ha.deferred.wellFormed k2, ha.deferred.true k3, k4.alike ha.oldproof2, K, uso, c, k5,
    k6.alike L ha.proof ha.oldproof1 hp.proof hp'.proof, ?_, k8.alike ⟨ha.proof.sNew, rfl, ha.proof.g, rfl⟩⟩
  · rw [← ha.oldproof1.packed.length, ← ha.oldproof2.packed.length, ← ha.deferred.old.length, ← ha.deferred.new.length]
    exact k1
  · unfold DeferredRelation Proof.newDeferred at k7 ⊢
    rw [← ha.proof.rx, ← ha.proof.rxy, ← ha.proof.sxCur, ← ha.proof.txPositive, ← ha.proof.txNegative]
    exact k7

/-- **C79**. Take two recursive proofs that differ only in the encodings of the points, in what comes after the first five
entries of the lists in the inner proof, and in the upper halves of the packed challenges. The verifier accepts both or none. -/
theorem C79_recursive (hs : s.Good) {cpus : ℕ} (hcpus : 0 < cpus) {lnCeil : ℕ → ℕ}
    (hln : ∀ n, 32 ≤ n → n < 2 ^ 32 → 1 ≤ lnCeil n ∧ lnCeil n ≤ 57) {i1 : RecursiveCircuit S} {i2 : RecursiveCircuit B}
    (h1 : s.user1 i1) {p p' : RecursiveProof B S} (hadm : s.admitted p.payload) (hp : p.Points E1 E2) (hp' : p'.Points E1 E2)
    (ha : p.Alike E1 E2 p') :
    p.verify E1 E2 cpus lnCeil s.params1 s.params2 i1 i2 = .ok true ↔
      p'.verify E1 E2 cpus lnCeil s.params1 s.params2 i1 i2 = .ok true :=
  ⟨accepts_alike hs hcpus hln h1 hadm hp hp' ha, accepts_alike hs hcpus hln h1 (ha.payload ▸ hadm) hp' hp ha.symm⟩

/-- **C79**, proofs are malleable. From every recursive proof that is accepted, anybody can make others that are accepted for
the same payload: by appending scalars to the last ones, and by exchanging the upper halves of the packed challenges. -/
theorem C79_malleable (hs : s.Good) {cpus : ℕ} (hcpus : 0 < cpus) {lnCeil : ℕ → ℕ}
    (hln : ∀ n, 32 ≤ n → n < 2 ^ 32 → 1 ≤ lnCeil n ∧ lnCeil n ≤ 57) {i1 : RecursiveCircuit S} {i2 : RecursiveCircuit B}
    (h1 : s.user1 i1) {p : RecursiveProof B S} (hadm : s.admitted p.payload) (hp : p.Points E1 E2)
    (h : p.verify E1 E2 cpus lnCeil s.params1 s.params2 i1 i2 = .ok true) :
    (∀ vs : List S, ({ p with proof := p.proof.padded vs } : RecursiveProof B S).verify E1 E2 cpus lnCeil s.params1 s.params2
      i1 i2 = .ok true) ∧
    ∃ d : Deferred B, d.challengesSqPackedNew ≠ p.deferred.challengesSqPackedNew ∧
      ({ p with deferred := d } : RecursiveProof B S).verify E1 E2 cpus lnCeil s.params1 s.params2 i1 i2 = .ok true := by
  let := Proj.curveOps E1 B S
  let := Proj.curveOps E2 S B
  let := HaloCurve.module (E := E1) (F := B) (S := S)
  let := HaloCurve.module (E := E2) (F := S) (S := B)
  have hrefl : ∀ {C S G : Type} [FieldApi S] (pt : C → G) (lo : Leftovers C S), lo.Alike pt lo := fun _ _ => ⟨rfl, rfl, rfl, rfl⟩
  have h' := h
  rw [C78_recursive hs hcpus hln h1 hadm hp.proof hp.s1 hp.g1 hp.s2 hp.g2] at h'
  obtain ⟨-, k2, -, -, K, uso, c, -, k6, -⟩ := h'
  constructor
  · intro vs
    refine accepts_alike hs hcpus hln h1 hadm hp ⟨padded_points hp.proof vs, hp.s1, hp.g1, hp.s2, hp.g2⟩
      ⟨padded_alike k6.last vs, hrefl _ _, hrefl _ _, ⟨rfl, rfl, rfl⟩, rfl⟩ h
  · refine ⟨{ p.deferred with challengesSqPackedNew := p.deferred.challengesSqPackedNew.map otherHalf }, otherHalf_ne k2.new_ne,
      accepts_alike hs hcpus hln h1 hadm hp ⟨hp.proof, hp.s1, hp.g1, hp.s2, hp.g2⟩ ⟨?_, hrefl _ _, hrefl _ _,
        ⟨rfl, rfl, alike_otherHalf _⟩, rfl⟩ h⟩
    have := padded_alike (E := E1) k6.last ([] : List S)
    rwa [Proof.padded, List.append_nil] at this

/-- The proofs of honest histories have points on the curves. -/
theorem made_points (hs : s.Good) {i2 : RecursiveCircuit B} (h2 : s.user2 i2) {p : RecursiveProof B S} (h : Made s (.inl p)) :
    p.Points E1 E2 := by
  have hv := (made_valid hs h).1 p rfl
  obtain ⟨-, -, b3, b4⟩ := hv.old2.returns hs.swap h2
  have hsh := hv.shape
  exact ⟨⟨pointOf_spec hsh.r, pointOf_spec hsh.sCur, pointOf_spec hsh.tPositive, pointOf_spec hsh.tNegative, pointOf_spec hsh.c,
    pointOf_spec hsh.sNew, fun r hr => ⟨fun q hq => pointOf_spec ((hsh.points r hr).1 q hq),
      fun q hq => pointOf_spec ((hsh.points r hr).2 q hq)⟩, pointOf_spec hsh.g⟩, hsh.sOld, hsh.gOld, b3, b4⟩

/-- Examples: all proofs of the histories of honest participants (see C60 and C61) meet the hypotheses. -/
example (hs : s.Good) {e : Env} (he : e.Good) {i1 : RecursiveCircuit S} {i2 : RecursiveCircuit B} (h1 : s.user1 i1)
    (h2 : s.user2 i2) {p : RecursiveProof B S} (h : Made s (.inl p)) : s.admitted p.payload ∧ p.Points E1 E2 ∧
      p.verify E1 E2 e.cpus e.lnCeil s.params1 s.params2 i1 i2 = .ok true :=
  ⟨((made_valid hs h).1 p rfl).admitted, made_points hs h2 h, (C60_honest_history_verifies hs he h1 h2).1 p h⟩

/-- In the setup of C60, for the curves of the code, a made-up proof and another one with a different deferred record and more
scalars meet the hypotheses of `C79_recursive`. -/
example : ∃ (s : Setup ec0 ec1 Fq Fp) (p p' : RecursiveProof Fq Fp), s.Good ∧ s.user1 firstBit ∧ s.admitted p.payload ∧
    p.Points ec0 ec1 ∧ p'.Points ec0 ec1 ∧ p.Alike ec0 ec1 p' ∧
    p.deferred.challengesSqPackedNew ≠ p'.deferred.challengesSqPackedNew ∧
    p.proof.innerProduct.a ≠ p'.proof.innerProduct.a := by
  obtain ⟨s, hs, hk, h1, h2, hb, ha⟩ := setup_example (E1 := ec0) (E2 := ec1) (B := Fq) (S := Fp) (k := 22) (by norm_num)
    (by norm_num)
  have he : Env.Good ⟨4, fun _ => 3, 1⟩ := ⟨by norm_num, by simp, by norm_num⟩
  obtain ⟨l1, -, -, k1⟩ := dummy_leftovers hs h1 he.cpus he.ln
  obtain ⟨l2, -, -, k2⟩ := dummy_leftovers hs.swap h2 he.cpus he.ln
  have hk2 : 2 ≤ s.params2.k := by rw [← hs.k_eq, hk]; norm_num
  obtain ⟨d, -, hw, -⟩ := dummy_record (E := ec1) (F := Fp) (S := Fq) hk2
  obtain ⟨-, -, a3, a4⟩ := k1.returns hs h1
  obtain ⟨-, -, b3, b4⟩ := k2.returns hs.swap h2
  let := Proj.curveOps ec0 Fq Fp
  let := HaloCurve.module (E := ec0) (F := Fq) (S := Fp)
  have hO : Denotes ((ec0.b : ℕ) : Fq) Proj.zero 0 :=
    (HaloCurve.lawfulOps (E := ec0) (F := Fq) (S := Fp)).zero
  have hpts := flatProof_points hO (1 : Fp)
  exact ⟨s, ⟨flatProof Proj.zero 1, l1, l2, d, [2#8]⟩, ⟨(flatProof Proj.zero 1).padded [1], l1, l2,
    { d with challengesSqPackedNew := d.challengesSqPackedNew.map otherHalf }, [2#8]⟩, hs, h1, (hb _).2 rfl,
    ⟨hpts, a3, a4, b3, b4⟩, ⟨padded_points hpts [1], a3, a4, b3, b4⟩,
    ⟨padded_alike (by simp [flatProof]) [1], ⟨rfl, rfl, rfl, rfl⟩, ⟨rfl, rfl, rfl, rfl⟩, ⟨rfl, rfl, alike_otherHalf _⟩, rfl⟩,
    (otherHalf_ne hw.new_ne).symm, by simp [Proof.padded]⟩

end Recursion
end Halo
