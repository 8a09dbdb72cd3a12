import Verif.Lemmas.Example.Crash
import Verif.Props.RecursionHonest
/-!
# C62: which payloads the circuits of the examples work for
-/
namespace Halo
namespace Example
open Circuit Recursion Proofs

section uniform
variable {F : Type} [Field F] [DecidableEq F] [LawfulField F]

omit [DecidableEq F] in
/-- **C62**: `examples/paper.rs` asks for the same constraints, whatever values are known. -/
theorem C62_paper_uniform (payload : List Bool) : (paper : RecursiveCircuit F).Uniform paper payload where
  base := rfl
  same _ _ _ _ _ _ _ ho hn h1 h2 _ := twin_paper ⟨h1, ho⟩ ⟨h2, hn⟩

omit [DecidableEq F] in
/-- The number of bits of the Bitcoin example's payloads -/
theorem length_basePayload : (bitcoin : RecursiveCircuit F).basePayload.length = Bitcoin.payloadBits := by
  show (packPayloadBits 0 genesisChainWork genesisHeader).length = _
  decide +kernel

omit [DecidableEq F] in
/-- **C62**: `examples/bitcoin.rs` asks for the same constraints, whatever values are known, if the target in
the new header is not zero, has at most 256 bits and is a multiple of 256. -/
theorem C62_bitcoin_uniform {payload : List Bool} (h : Bitcoin.Fine payload) :
    (bitcoin : RecursiveCircuit F).Uniform bitcoin payload where
  base := rfl
  same _ _ h1 _ _ _ _ ho hn hold hnew hv := by
    rw [length_basePayload] at ho hn
    exact twin_bitcoin h1 ⟨hold, ho⟩ ⟨hnew, hn⟩ hv h

end uniform

variable {E1 E2 : CurveConsts} {B S : Type} [Field B] [DecidableEq B] [LawfulField B] [Field S] [DecidableEq S]
  [LawfulField S] [HaloCurve E1 B S] [HaloCurve E2 S B]

/-- **C62**: on all other payloads the verifier panics, whatever the proof is, and whatever the
parameters of its own curve and the circuit for the other curve are. -/
theorem C62_bitcoin_verifier_panics {params2 : Params (Proj S)} (hp : GoodParams E2 params2)
    {p : RecursiveProof B S} (hl : 8 * p.payload.length = Bitcoin.payloadBits)
    (hf : ¬ Bitcoin.Fine (bytesBits p.payload)) (params1 : Params (Proj B)) (i2 : RecursiveCircuit B) (cpus : ℕ)
    (lnCeil : ℕ → ℕ) : p.verify E1 E2 cpus lnCeil params1 params2 bitcoin i2 = .error .panic := by
  have key : circuitSystem false ((blankCircuit params2 bitcoin p.payload : VerificationCircuit S B).synthesize E1 E2) =
      .error .panic := by
    refine synthesis_panics (c := blankCircuit params2 bitcoin p.payload) hp
      ⟨?_, nofun, nofun, nofun, nofun, nofun⟩ fun one old new ho hn hv => ?_
    · exact hl.trans (length_basePayload (F := S)).symm
    · exact crashes_bitcoin (ho.trans length_basePayload) (hn.trans length_basePayload) hv hf
  have key := inputs_panic key
  unfold RecursiveProof.verify RecursiveProof.verifyInner Proof.verify
  simp only [key]
  by_cases h2 : params1.generators.length < 2
  · simp only [if_pos h2]
    rfl
  simp only [if_neg h2]
  cases inputCommitment E1 params1.generators (bytesBits (p.inputBytes E1 E2)) <;> rfl

/-! ### Instances -/

/-- The genesis block is fine. -/
theorem genesis_fine : Bitcoin.Fine (bytesBits (packPayloadBytes 0 genesisChainWork genesisHeader)) :=
  ⟨by decide +kernel, by decide +kernel, by decide +kernel⟩

/-- For each size there is a setup in which `examples/bitcoin.rs` is used for both curves, so C60 and C61 hold for
it. -/
theorem setup_bitcoin {k : ℕ} (hk : 14 ≤ k) (hk' : k ≤ 30) : ∃ s : Setup E1 E2 B S, s.Good ∧ s.params1.k = k ∧
    s.user1 bitcoin ∧ s.user2 bitcoin ∧
    ∀ p, s.admitted p ↔ 8 * p.length = Bitcoin.payloadBits ∧ Bitcoin.Fine (bytesBits p) := by
  obtain ⟨gens1, g1, l1, hg1, ha1⟩ := gens_example (E := E1) (F := B) S (2 ^ k)
  obtain ⟨gens2, g2, l2, hg2, ha2⟩ := gens_example (E := E2) (F := S) B (2 ^ k)
  have hroom : 8 * 116 + 2 * leftoversBits k + deferredBits k + 2 ≤ 2 ^ k := by
    obtain ⟨m, rfl⟩ := Nat.exists_eq_add_of_le hk
    have : m < 2 ^ m := Nat.lt_two_pow_self
    rw [pow_add, leftoversBits, deferredBits]
    omega
  have hfirst : ∀ {E : CurveConsts} {F : Type} [Field F] [DecidableEq F] {g : ℕ → Pt (E.b : F)},
      (∀ bits : List Bool, bits.length < 2 ^ 250 → Apart g bits) → g 1 + g 2 ≠ 0 := by
    intro E F _ _ g h h0
    have := (h [true] (by norm_num) 0 (by simp)).2.2
    simp only [List.take_zero, inputSum_nil] at this
    exact this (eq_neg_of_add_eq_zero_left h0)
  have hsize : ∀ p : List (BitVec 8), 8 * p.length = Bitcoin.payloadBits ∧ Bitcoin.Fine (bytesBits p) →
      p.length = 116 := fun p h => by have := h.1; rw [Bitcoin.payloadBits] at this; omega
  have hex : ∃ p : List (BitVec 8), 8 * p.length = Bitcoin.payloadBits ∧ Bitcoin.Fine (bytesBits p) :=
    ⟨_, by decide +kernel, genesis_fine⟩
  refine ⟨⟨⟨2 ^ k, 2 ^ (k - 2), k, gens1⟩, ⟨2 ^ k, 2 ^ (k - 2), k, gens2⟩, g1, g2, (· = bitcoin), (· = bitcoin), 116,
      fun p => 8 * p.length = Bitcoin.payloadBits ∧ Bitcoin.Fine (bytesBits p)⟩,
    ⟨rfl, ⟨⟨by show 3 < k; omega, hk', rfl, rfl, l1, fun i h => (hg1 i h).2⟩, ?_, hfirst ha1, hroom, ?_, hsize, hex, ?_⟩,
      ⟨⟨by show 3 < k; omega, hk', rfl, rfl, l2, fun i h => (hg2 i h).2⟩, ?_, hfirst ha2, hroom, ?_, hsize, hex, ?_⟩⟩,
    rfl, rfl, rfl, fun _ => Iff.rfl⟩
  · intro p hp
    obtain ⟨i, h, rfl⟩ := List.mem_iff_getElem.1 hp
    exact (hg1 i h).1
  · rintro _ _ _ rfl rfl h
    exact C62_bitcoin_uniform h.2
  · rintro _ rfl
    exact length_basePayload
  · intro p hp
    obtain ⟨i, h, rfl⟩ := List.mem_iff_getElem.1 hp
    exact (hg2 i h).1
  · rintro _ _ _ rfl rfl h
    exact C62_bitcoin_uniform h.2
  · rintro _ rfl
    exact length_basePayload

/-- A proof with a payload of zeros makes the verifier panic. -/
example : ∃ p : RecursiveProof Fq Fp, p.payload = List.replicate 116 0 ∧ GoodParams ec1 (fourG ec1 : Params (Proj Fp)) ∧
    p.verify ec0 ec1 4 (fun _ => 3) (fourG ec0) (fourG ec1) bitcoin bitcoin = .error .panic :=
  ⟨⟨(blankProof Fq Fp 2).proof, (blankProof Fq Fp 2).oldproof1, (blankProof Fq Fp 2).oldproof2,
    (blankProof Fq Fp 2).deferred, List.replicate 116 0⟩, rfl, fourG_good (S := Fq),
    C62_bitcoin_verifier_panics (fourG_good (S := Fq)) (by rfl) (fun h => absurd h.low (by decide +kernel)) _ _ _ _⟩

end Example
end Halo
