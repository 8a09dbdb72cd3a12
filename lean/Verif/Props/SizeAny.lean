import Verif.Props.Size
import Verif.Props.RecursionVerdict
/-!
# How large a proof made from a foreign one is (C88)
-/
namespace Halo
namespace Proofs
open Util Circuit
variable {T C F S : Type} [Field F] [FieldApi F] [Field S] [DecidableEq S] [FieldApi S] [CurveOps C F S]
  {tr : Transcript T F} {cpus : ℕ} {lnCeil : ℕ → ℕ}

/-- The verifier panics unless it gets the right number of public inputs. -/
theorem verify_inputs {α : Type} {params : Params C} {circuit : Var → Prog S α} {old : Leftovers C S} {π : Proof C S}
    {inputs : List S} {K : Option C} {r} {gates : ℕ} {lcs : List (LC S)} {m : ℕ}
    (hs : HasShape false circuit gates lcs (List.range' 1 (m + 1)))
    (h : π.verify tr cpus lnCeil old params circuit inputs K = .ok r) : inputs.length = m := by
  obtain ⟨a, s, h1, -, -, h2, -⟩ := hs
  obtain ⟨dv, hdv, hrel⟩ := sim_inputMap.synthesize_of_system (b := []) ⟨.empty, rfl, rfl, rfl, rfl⟩ h1 trivial
  unfold Proof.verify at h
  simp only [hdv, Except.bind_ok] at h
  by_contra hne
  rw [if_pos (by rw [hrel.inputs, h2, List.length_range']; exact hne)] at h
  cases h

end Proofs

namespace Recursion
open Circuit Proofs
variable {E1 E2 : CurveConsts} {B S : Type} [Field B] [DecidableEq B] [LawfulField B] [Field S] [DecidableEq S]
  [LawfulField S] [HaloCurve E1 B S] [HaloCurve E2 S B] {s : Setup E1 E2 B S}

/-- **C88**, foreign proofs: a proof made from an old proof that comes from anybody, whether the verifier accepts it or
not, has the right size, except for at most `2 k` scalars too many. The next proof made from it has exactly the
right size, so that nobody can make the proofs of a chain grow. -/
theorem C88_any (hs : s.Good) {i1 : RecursiveCircuit S} {i2 : RecursiveCircuit B} (h2 : s.user2 i2)
    {fuel cpus : ℕ} {lnCeil : ℕ → ℕ} {q : RecursiveProof S B} (hq : s.admitted q.payload) {payload : List (BitVec 8)}
    {p : RecursiveProof B S}
    (h : RecursiveProof.createProof E1 E2 cpus lnCeil fuel s.params1 s.params2 (some q) i1 i2 payload = .ok p) :
    (p.size.points = 10 * s.params1.k + 9 ∧ p.size.scalars = 11 * s.params1.k + 13 ∧ p.size.otherPoints = 2 ∧
      p.size.otherScalars ≤ 5 * s.params1.k + 17 ∧ p.size.bytes = payload.length) ∧
    ∀ {i1' : RecursiveCircuit S} {i2' : RecursiveCircuit B} {fuel' cpus' : ℕ} {lnCeil' : ℕ → ℕ}
      {payload' : List (BitVec 8)} {r : RecursiveProof S B},
      RecursiveProof.createProof E2 E1 cpus' lnCeil' fuel' s.params2 s.params1 (some p) i2' i1' payload' = .ok r →
      r.size = fixedSize s.params1.k s.params1.k payload'.length := by
  let := Proj.curveOps E1 B S
  let := Proj.curveOps E2 S B
  have hk := hs.k_eq
  unfold RecursiveProof.createProof at h
  simp only [bind_eq_ok, Except.ok.injEq] at h
  obtain ⟨v, hv, ⟨π, l⟩, hπ, rfl⟩ := h
  obtain ⟨n1, n2, -, -⟩ := C88_proof hπ
  simp only [carried, RecursiveProof.verifyInner, bind_eq_ok, ofOption_eq_ok, ite_panic_eq_ok, Except.bind_error,
    Except.ok.injEq] at hv
  obtain ⟨-, K, -, ⟨sat, l, d, f⟩, hver, w2, hw2, rfl⟩ := hv
  obtain ⟨a, b, c⟩ := verify_sizes hver
  have e := leftovers_sizes hw2
  obtain ⟨gates, lcs, hshape⟩ := blank_shape hs.swap h2 hq
  have hin := verify_inputs hshape hver
  rw [List.length_map, inputBits_length hs.swap hq] at hin
  have hin' : q.oldproof1.challengesSqPackedNew.length ≤ 3 * s.params1.k := by
    change _ = 4 * s.params2.k at hin
    omega
  refine ⟨⟨?_, ?_, rfl, ?_, rfl⟩, fun h' => ?_⟩
  · simp only [RecursiveProof.size, n1, Leftovers.points, List.length_cons, List.length_nil]
  · simp only [RecursiveProof.size, n2, Leftovers.scalars, List.length_cons, e]
    omega
  · simp only [RecursiveProof.size, Leftovers.scalars, Deferred.scalars, List.length_cons, List.length_nil,
      List.length_append, a, b, c]
    omega
  · rw [(C88_step h' fun q' hq' => by obtain rfl := Option.some.inj hq'; exact e).1, hk]

/-- The hypotheses on the setup, the circuit and the payload can be met, for the curves of the code. -/
example : ∃ s : Setup ec0 ec1 Fq Fp, s.Good ∧ s.user2 firstBit ∧ s.admitted [1#8] := by
  obtain ⟨s, hs, -, -, h2, h3, -⟩ := setup_example (E1 := ec0) (E2 := ec1) (B := Fq) (S := Fp) (k := 22) (by norm_num)
    (by norm_num)
  exact ⟨s, hs, h2, (h3 _).2 rfl⟩

end Recursion
end Halo
