import Verif.Props.Verdict
import Verif.Props.RecursionHonest
import Verif.Lemmas.Recursion.Forge
/-!
# When the verifier of recursive proofs returns a verdict (C71)
-/
namespace Halo
namespace Proofs
open Util Circuit
variable {E : CurveConsts} {F : Type} [Field F] [DecidableEq F] [LawfulField F]
  {S : Type} [Field S] [DecidableEq S] [LawfulField S]

omit [DecidableEq S] in
/-- **C71**, leftovers: the check returns if there are `k` challenges, which are squares; otherwise it panics. -/
theorem C71_leftovers [HaloCurve E F S] {cpus : ℕ} (hcpus : 0 < cpus) {lnCeil : ℕ → ℕ}
    (hln : ∀ n, 32 ≤ n → n < 2 ^ 32 → 1 ≤ lnCeil n ∧ lnCeil n ≤ 57)
    {params : Params (Proj F)} {g : ℕ → Pt (E.b : F)} (hp : ValidParams (Denotes (E.b : F)) g params)
    {α : Type} {circuit : Var → Prog S α} {lo : Leftovers (Proj F) S}
    (hsx : ∃ sx, computeSx params.n circuit lo.yNew = .ok sx)
    (hA : ∃ A, Denotes (E.b : F) lo.sNewCommitment A) (hB : ∃ B, Denotes (E.b : F) lo.gNew B) :
    letI := Proj.curveOps E F S
    (∃ b, lo.verify cpus lnCeil params circuit = .ok b) ↔
      lo.challengesSqPackedNew.length = params.k ∧ ∃ us, Roots lo.challengesSqPackedNew us := by
  let := Proj.curveOps E F S
  let := HaloCurve.module (E := E) (F := F) (S := S)
  obtain ⟨sx, hsx⟩ := hsx
  obtain ⟨A, hA⟩ := hA
  obtain ⟨B, hB⟩ := hB
  constructor
  · rintro ⟨b, h⟩
    unfold Leftovers.verify at h
    simp only [hsx, Except.bind_ok, bind_eq_ok, ofOption_eq_ok, ite_panic_eq_ok] at h
    obtain ⟨P, -, hlen, r, hr, -⟩ := h
    refine ⟨not_not.1 hlen, ?_⟩
    by_contra hno
    rw [foldlM_no_roots hno] at hr
    cases hr
  · rintro ⟨hlen, us, hus⟩
    obtain ⟨b, h, -⟩ := C45_leftovers_accepts hcpus hln hp hsx hlen hus hA hB
    exact ⟨b, h⟩

end Proofs

namespace Recursion
open Circuit Proofs Util
variable {E1 E2 : CurveConsts} {B S : Type} [Field B] [DecidableEq B] [LawfulField B] [Field S] [DecidableEq S]
  [LawfulField S] [HaloCurve E1 B S] [HaloCurve E2 S B] {s : Setup E1 E2 B S}

/-- The public inputs of the circuit without values -/
theorem blank_shape (hs : s.Good) {i : RecursiveCircuit S} (hi : s.user1 i) {payload : List (BitVec 8)}
    (hp : s.admitted payload) : ∃ gates lcs,
    HasShape false ((blankCircuit s.params2 i payload : VerificationCircuit S B).synthesize E1 E2) gates lcs
      (List.range' 1 (s.bits + 1)) := by
  have hc := blank_wellShaped hs.one hi hp
  obtain ⟨gates, lcs, h, -⟩ := C57_same_circuit (E1 := E1) hs.two.good rfl (hs.one.same _ _ _ hi hi hp) hc hc
  have : ((blankCircuit s.params2 i payload : VerificationCircuit S B).publicBits E1 E2).length = s.bits := by
    have hk := hs.k_eq
    have hl := hs.one.size _ hp
    simp only [VerificationCircuit.publicBits, blankCircuit, Option.map_none, bitsOr, List.length_append, Setup.bits,
      length_bytesBits, hl, hk, List.length_replicate]
    ring
  rw [this] at h
  exact ⟨gates, lcs, h⟩

omit [HaloCurve E1 B S] [HaloCurve E2 S B] in
/-- The public inputs have the right number if there are `4k` challenges in all. -/
theorem inputBits_length (hs : s.Good) {p : RecursiveProof B S} (hp : s.admitted p.payload) :
    (bytesBits (p.inputBytes E1 E2)).length = s.bits ↔
      p.oldproof1.challengesSqPackedNew.length + p.oldproof2.challengesSqPackedNew.length +
        p.deferred.challengesSqPackedOld.length + p.deferred.challengesSqPackedNew.length = 4 * s.params1.k := by
  have h1 := leftovers_length (E := E1) (l := p.oldproof1) rfl
  have h2 := leftovers_length (E := E2) (l := p.oldproof2) rfl
  have h3 : (bytesBits p.deferred.toBytes).length =
      12 * 256 + (4 + p.deferred.challengesSqPackedOld.length + p.deferred.challengesSqPackedNew.length) * 128 := by
    simp only [Deferred.toBytes, bytesBits_append, List.length_append, bits32_length, bits16_length, flat16_length]
    ring
  have hl := hs.one.size _ hp
  rw [RecursiveProof.inputBytes, bytesBits_append, bytesBits_append, bytesBits_append, List.length_append,
    List.length_append, List.length_append, h1, h2, h3, length_bytesBits, hl]
  simp only [Setup.bits, leftoversBits, deferredBits]
  omega

/-- **C71**. Take a setup and a recursive proof, which may come from anybody. Its verifier returns a verdict if there are
`4k` challenges in all, the leftovers for the other curve have `k` challenges, which are squares, the deferred record is well
formed, and the proof itself gets a verdict: the challenges of the leftovers are squares and there is one of them, the
proof has `k` rounds, and the sponge, fed with the messages of the proof, yields challenges. Otherwise it panics. -/
theorem C71_verdict (hs : s.Good) {cpus : ℕ} (hcpus : 0 < cpus) {lnCeil : ℕ → ℕ}
    (hln : ∀ n, 32 ≤ n → n < 2 ^ 32 → 1 ≤ lnCeil n ∧ lnCeil n ≤ 57) {i1 : RecursiveCircuit S} {i2 : RecursiveCircuit B}
    (h1 : s.user1 i1) (h2 : s.user2 i2) {p : RecursiveProof B S} (hp : s.admitted p.payload)
    (ha : 5 ≤ p.proof.innerProduct.a.length) (hsNew : OnCurve E1 p.proof.sNewCommitment)
    (hg : OnCurve E1 p.proof.innerProduct.g) (hsOld : OnCurve E2 p.oldproof2.sNewCommitment)
    (hgOld : OnCurve E2 p.oldproof2.gNew) :
    (∃ b, p.verify E1 E2 cpus lnCeil s.params1 s.params2 i1 i2 = .ok b) ↔
      p.oldproof1.challengesSqPackedNew.length + p.oldproof2.challengesSqPackedNew.length +
        p.deferred.challengesSqPackedOld.length + p.deferred.challengesSqPackedNew.length = 4 * s.params1.k ∧
      (p.oldproof2.challengesSqPackedNew.length = s.params2.k ∧ ∃ us, Roots p.oldproof2.challengesSqPackedNew us) ∧
      WellFormedDeferred s.params2.k p.deferred ∧
      p.oldproof1.challengesSqPackedNew ≠ [] ∧ p.proof.innerProduct.rounds.length = s.params1.k ∧
      ∃ us K, Roots p.oldproof1.challengesSqPackedNew us ∧
        inputCommitment E1 s.params1.generators (bytesBits (p.inputBytes E1 E2)) = some K ∧
        @Proof.Draws _ _ _ _ _ _ _ _ _ (Proj.curveOps E1 B S) Transcript.rescue p.proof K
          (0 :: 1 :: (bytesBits (p.inputBytes E1 E2)).map fun b => if b then 1 else 0) us := by
  let := Proj.curveOps E1 B S
  let := Proj.curveOps E2 S B
  obtain ⟨gates, lcs, hshape⟩ := blank_shape hs h1 hp
  have hlen := inputBits_length (E1 := E1) (E2 := E2) hs hp
  have hgl := hs.one.valid.length
  have hroom := hs.one.room
  have hk4 := hs.one.valid.k_gt
  have hsx2 := fun y => sx_ok hs.swap (blank_wellShaped hs.two h2 hp) rfl h2 hp s.params2.n y
  have hlo := C71_leftovers hcpus hln hs.two.valid (hsx2 p.oldproof2.yNew) hsOld hgOld
  let st (K : Proj B) : Statement (Proj B) S Unit := ⟨s.params1,
    (blankCircuit s.params2 i1 p.payload : VerificationCircuit S B).synthesize E1 E2,
    (bytesBits (p.inputBytes E1 E2)).map fun b => if b then 1 else 0, some K, p.oldproof1⟩
  have key : ∀ K, (∃ r, p.proof.verify Transcript.rescue cpus lnCeil (st K).old (st K).params (st K).circuit
      (st K).inputs (st K).kCommitment = .ok r) ↔ _ := fun K =>
    C69_verdict (st := st K) hs.one.valid hshape ha
  simp only [st, List.length_range', List.length_map, Nat.add_right_cancel_iff, hlen, Option.some_or, Option.some.injEq,
    exists_eq_left', exists_and_left] at key
  have hk : p.oldproof1.challengesSqPackedNew.length + p.oldproof2.challengesSqPackedNew.length +
        p.deferred.challengesSqPackedOld.length + p.deferred.challengesSqPackedNew.length = 4 * s.params1.k →
      kPoly ((List.range' 1 (s.bits + 1)).zip (1 :: (bytesBits (p.inputBytes E1 E2)).map fun b => if b then 1 else 0)) =
        (0 :: 1 :: (bytesBits (p.inputBytes E1 E2)).map fun b => if b then 1 else 0 : List S) := fun h => by
    rw [← kPoly_range, List.length_cons, List.length_map, hlen.2 h]
  have hgens : ¬ s.params1.generators.length < 2 := by omega
  unfold RecursiveProof.verify RecursiveProof.verifyInner
  simp only [bind_eq_ok, ofOption_eq_ok, if_neg hgens]
  constructor
  · rintro ⟨b, v, ⟨K, hK, r, hr, b2, hb2, -⟩, d, hd, -⟩
    obtain ⟨h1, h2, h3, us, h4, h5⟩ := (key K).1 ⟨r, hr⟩
    rw [hk h1] at h5
    refine ⟨h1, hlo.1 ⟨b2, hb2⟩, ?_, h2, h3, us, K, h4, hK, h5⟩
    by_contra hno
    rw [(C45_deferred _ _).2 hno] at hd
    cases hd
  · rintro ⟨h1, h2, h3, h4, h5, us, K, h6, hK, h7⟩
    rw [← hk h1] at h7
    obtain ⟨⟨b, new, d, forks⟩, hr⟩ := (key K).2 ⟨h1, h4, h5, us, h6, h7⟩
    obtain ⟨b2, hb2⟩ := hlo.2 h2
    obtain ⟨d1, hd1, -⟩ := (C45_deferred _ _).1 h3
    obtain ⟨⟨d2, hd2⟩, b3, hb3⟩ := C69_leftovers (st := st K) hcpus hln hs.one.valid hshape ha hsNew hg hr
    exact ⟨_, _, ⟨K, hK, _, hr, b2, hb2, rfl⟩, d1, hd1, d2, hd2, b3, hb3, b2, hb2, rfl⟩

/-- The fields of leftovers that are right, as C71 takes them -/
theorem LeftoversOk.returns {i : RecursiveCircuit S} (hs : s.Good) (hi : s.user1 i) {l : Leftovers (Proj B) S}
    (h : LeftoversOk s l) : l.challengesSqPackedNew.length = s.params1.k ∧ (∃ us, Roots l.challengesSqPackedNew us) ∧
      OnCurve E1 l.sNewCommitment ∧ OnCurve E1 l.gNew := by
  let := HaloCurve.module (E := E1) (F := B) (S := S)
  obtain ⟨h1, h2, h3⟩ := h.facts hs.one hi
  obtain ⟨payload, hp⟩ := hs.one.inhabited
  obtain ⟨us, hus, -⟩ := (h i payload hi hp).g
  exact ⟨h1, ⟨us, hus⟩, h2, h3⟩

/-- Examples, in the setup of C60 for the curves of the code: a made-up proof meets the hypotheses of C71 and whatever is
asked of it for a verdict, apart from the challenges, which the kernel cannot compute. With one round less the verifier panics. -/
example : ∃ (s : Setup ec0 ec1 Fq Fp) (p q : RecursiveProof Fq Fp), s.Good ∧ s.user1 firstBit ∧ s.user2 firstBit ∧
    s.admitted p.payload ∧ 5 ≤ p.proof.innerProduct.a.length ∧ OnCurve ec0 p.proof.sNewCommitment ∧
    OnCurve ec0 p.proof.innerProduct.g ∧ OnCurve ec1 p.oldproof2.sNewCommitment ∧ OnCurve ec1 p.oldproof2.gNew ∧
    p.oldproof1.challengesSqPackedNew.length + p.oldproof2.challengesSqPackedNew.length +
      p.deferred.challengesSqPackedOld.length + p.deferred.challengesSqPackedNew.length = 4 * s.params1.k ∧
    (p.oldproof2.challengesSqPackedNew.length = s.params2.k ∧ ∃ us, Roots p.oldproof2.challengesSqPackedNew us) ∧
    WellFormedDeferred s.params2.k p.deferred ∧
    p.oldproof1.challengesSqPackedNew ≠ [] ∧ p.proof.innerProduct.rounds.length = s.params1.k ∧
    (∃ us K, Roots p.oldproof1.challengesSqPackedNew us ∧
      inputCommitment ec0 s.params1.generators (bytesBits (p.inputBytes ec0 ec1)) = some K) ∧
    ¬ ∃ b, q.verify ec0 ec1 4 (fun _ => 3) s.params1 s.params2 firstBit firstBit = .ok b := by
  obtain ⟨s, hs, hk, h1, h2, hb, ha⟩ := setup_example (E1 := ec0) (E2 := ec1) (B := Fq) (S := Fp) (k := 22) (by norm_num)
    (by norm_num)
  have he : Env.Good ⟨4, fun _ => 3, 1⟩ := ⟨by norm_num, by simp, by norm_num⟩
  obtain ⟨l1, -, -, k1⟩ := dummy_leftovers hs h1 he.cpus he.ln
  obtain ⟨l2, -, -, k2⟩ := dummy_leftovers hs.swap h2 he.cpus he.ln
  have hk2 : 2 ≤ s.params2.k := by rw [← hs.k_eq, hk]; norm_num
  obtain ⟨d, -, hw, ht, hsm, e5, e6, -⟩ := dummy_record (E := ec1) (F := Fp) (S := Fq) hk2
  have hone : OnCurve ec0 (Proj.one ec0 : Proj Fq) := by
    obtain ⟨G, h, -⟩ := one_denotes ec0 Fq Fp
    exact ⟨G, h⟩
  obtain ⟨a1, ⟨us, a2⟩, -, -⟩ := k1.returns hs h1
  obtain ⟨b1, b2, b3, b4⟩ := k2.returns hs.swap h2
  have hp : s.admitted [2#8] := (hb _).2 rfl
  have hlen : l1.challengesSqPackedNew.length + l2.challengesSqPackedNew.length + d.challengesSqPackedOld.length +
      d.challengesSqPackedNew.length = 4 * s.params1.k := by
    have := hs.k_eq
    have b1' : _ = s.params2.k := b1
    omega
  let π (k : ℕ) : RecursiveProof Fq Fp := ⟨fakeInner ec0 k (Proj.one ec0) 0 (Proj.one ec0), l1, l2, d, [2#8]⟩
  have hbits := (inputBits_length (E1 := ec0) (E2 := ec1) hs (p := π s.params1.k) hp).2 hlen
  have hroom := hs.one.room
  have hgl := hs.one.valid.length
  obtain ⟨K, hK, -⟩ := inputCommitment_eq (HaloCurve.good (E := ec0) (F := Fq) (S := Fp)) hs.one.valid.gens (by omega)
    (bits := bytesBits ((π s.params1.k).inputBytes ec0 ec1)) (by omega)
  refine ⟨s, π s.params1.k, π (s.params1.k - 1), hs, h1, h2, hp, by simp [π, fakeInner], hone, hone, b3, b4, hlen,
    ⟨b1, b2⟩, hw, ?_, List.length_replicate, ⟨us, K, a2, hK⟩, ?_⟩
  · rw [← List.length_pos_iff]
    exact lt_of_lt_of_eq (by omega) a1.symm
  · rw [C71_verdict hs he.cpus he.ln h1 h2 hp (by simp [π, fakeInner]) hone hone b3 b4]
    rintro ⟨-, -, -, -, h, -⟩
    have h' : s.params1.k - 1 = s.params1.k := List.length_replicate.symm.trans h
    omega

end Recursion
end Halo
