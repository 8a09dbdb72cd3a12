import Verif.Lemmas.Proofs.Honest
import Verif.Lemmas.Exposed
import Verif.Props.Leftovers
/-!
# Honest proofs verify (C44)
-/
namespace Halo
namespace Proofs
open Util Circuit
variable {E : CurveConsts} {F : Type} [Field F] [DecidableEq F] [LawfulField F]
  {S : Type} [Field S] [DecidableEq S] [LawfulField S] {T : Type}

omit [DecidableEq S] [LawfulField S] in
theorem computeSx_shape {α β : Type} {circuit : Var → Prog S α} {circuitV : Var → Prog S β} {gates : ℕ}
    {lcs : List (LC S)} {positions : List ℕ} (h2 : HasShape false circuit gates lcs positions)
    (h3 : HasShape false circuitV gates lcs positions) (n : ℕ) (y : S) :
    computeSx n circuit y = computeSx n circuitV y := by
  obtain ⟨a, s, e1, -, e3, -, e5⟩ := h2
  obtain ⟨b, v, f1, -, f3, -, f5⟩ := h3
  rw [(computeSx_of n y e1 e5).1, (computeSx_of n y f1 f5).1, e3, f3]

/-- **C44.** Take any transcript, any curve cycle parameters, any circuit that `is_satisfied` accepts
for some public inputs, and a circuit for the verifier that is the same but need not know any values.
If the prover returns a proof, starting from correct leftovers, then the verifier, which may have
another number of cores and may get the commitment to the public inputs from elsewhere, accepts it for
these public inputs and returns the prover's new leftovers. The deferred checks succeed, for the
deferred record and for the new leftovers, which are again correct. -/
theorem C44_honest_proof_verifies [HaloCurve E F S] (tr : Transcript T F) {fuel cpus cpus' : ℕ}
    (hfuel : fuel ≤ 256) (hcpus : 0 < cpus) (hcpus' : 0 < cpus') {lnCeil lnCeil' : ℕ → ℕ}
    (hln : ∀ n, 32 ≤ n → n < 2 ^ 32 → 1 ≤ lnCeil n ∧ lnCeil n ≤ 57)
    (hln' : ∀ n, 32 ≤ n → n < 2 ^ 32 → 1 ≤ lnCeil' n ∧ lnCeil' n ≤ 57)
    {params : Params (Proj F)} {g : ℕ → Pt (E.b : F)} (hp : ValidParams (Denotes (E.b : F)) g params)
    {β : Type} {circuit : Var → Prog S Unit} {circuitV : Var → Prog S β} {gates : ℕ}
    {lcs : List (LC S)} {positions : List ℕ} (h1 : HasShape true circuit gates lcs positions)
    (h2 : HasShape false circuit gates lcs positions) (h3 : HasShape false circuitV gates lcs positions)
    {inputs : List S} (hsat : isSatisfied circuit inputs = .ok true) {old : Leftovers (Proj F) S} :
    letI := Proj.curveOps E F S
    letI := HaloCurve.module (E := E) (F := F) (S := S)
    ∀ {proof : Proof (Proj F) S} {new : Leftovers (Proj F) S} {kCommitment : Option (Proj F)},
    ValidLeftovers (Denotes (E.b : F)) g params circuitV old →
    Proof.new tr fuel cpus lnCeil params circuit old = .ok (proof, new) →
    (∀ K ∈ kCommitment,
      Denotes (E.b : F) K (combine g 0 (kPoly (positions.zip (1 :: inputs))))) →
    ∃ d forks, proof.verify tr cpus' lnCeil' old params circuitV inputs kCommitment =
        .ok (true, new, d, forks) ∧
      d.verify params.k = some true ∧ new.verify cpus' lnCeil' params circuitV = .ok true ∧
      ValidLeftovers (Denotes (E.b : F)) g params circuitV new := by
  let := Proj.curveOps E F S
  let := HaloCurve.module (E := E) (F := F) (S := S)
  intro proof new kc hold h hkc
  have L := HaloCurve.lawfulOps (E := E) (F := F) (S := S)
  have hsx := computeSx_shape h2 h3
  obtain ⟨a, s, e1, -, -, e4, -⟩ := h1
  obtain ⟨b, v, f1, -, -, f4, -⟩ := h3
  obtain ⟨s', g1, g2, -, g4⟩ := (C29_is_satisfied circuit inputs).1 hsat
  cases e1.symm.trans g1
  have hpi := publicInputs_eq e1 g2 g4
  obtain ⟨d, forks, k1, -, k3, k4, k5, -⟩ := honest L.toReflOps hcpus hln hfuel hp
    (circuit := circuit) ⟨by simpa only [hsx] using hold.s, hold.len, hold.g⟩ h e1 f1 (by rw [f4, e4])
    hcpus' hln' (kc := kc) (by rw [hpi, e4]; exact hkc)
  have k5' : ValidLeftovers (Denotes (E.b : F)) g params circuitV new :=
    ⟨by simpa only [← hsx] using k5.s, k5.len, k5.g⟩
  obtain ⟨b, m1, m2⟩ := (C45_deferred params.k d).1 k3
  exact ⟨d, forks, hpi ▸ k1, by rw [m1, m2.2 k4], (C45_leftovers_partial hcpus' hln' hp).1 k5', k5'⟩

/-- **C44**, the prover: with a circuit that is satisfied and small enough, and correct leftovers, it comes to an opening
argument for true claims. The only thing that can keep it from returning a proof is a round of that argument in which it does
not find a challenge that is a square. -/
theorem C44_prover [HaloCurve E F S] (tr : Transcript T F) {cpus : ℕ}
    (hget : ∀ t, ∃ r, getChallenge S tr t = some r) (hcpus : 0 < cpus) {lnCeil : ℕ → ℕ}
    (hln : ∀ n, 32 ≤ n → n < 2 ^ 32 → 1 ≤ lnCeil n ∧ lnCeil n ≤ 57)
    {params : Params (Proj F)} {g : ℕ → Pt (E.b : F)} (hp : ValidParams (Denotes (E.b : F)) g params)
    {circuit : Var → Prog S Unit} {gates : ℕ} {lcs : List (LC S)} {positions : List ℕ}
    (h1 : HasShape true circuit gates lcs positions) (h2 : HasShape false circuit gates lcs positions)
    (hn : gates < params.n) (hq : lcs.length < params.d) {inputs : List S}
    (hsat : isSatisfied circuit inputs = .ok true) {old : Leftovers (Proj F) S} :
    letI := Proj.curveOps E F S
    letI := HaloCurve.module (E := E) (F := F) (S := S)
    ValidLeftovers (Denotes (E.b : F)) g params circuit old →
    ∃ (claims : List (PolynomialOpening (Proj F) S × List S)) (t : T),
      (∀ i ∈ claims, ValidClaim (Denotes (E.b : F)) g params.k i.1 i.2) ∧
      ∀ fuel ≤ 256, (∃ proof new, Proof.new tr fuel cpus lnCeil params circuit old = .ok (proof, new)) ↔
        ¬ StuckOpening tr fuel cpus lnCeil claims params.generators params.k t := by
  let := Proj.curveOps E F S
  let := HaloCurve.module (E := E) (F := F) (S := S)
  intro hold
  have L := HaloCurve.lawfulOps (E := E) (F := F) (S := S)
  obtain ⟨a, s, e1, e2, e3, e4, -⟩ := h1
  obtain ⟨b, v, f1, f2, f3, f4, f5⟩ := h2
  obtain ⟨s', g1, g2, -, g4⟩ := (C29_is_satisfied circuit inputs).1 hsat
  cases e1.symm.trans g1
  have hpi := publicInputs_eq e1 g2 g4
  obtain ⟨claims, t, hv, h⟩ := honest_opens L.toReflOps hcpus hln hget hp hold e1 f1 f5
    (f2.trans e2.symm) (f3.trans e3.symm) (e2 ▸ hn) (e3 ▸ hq) (by rw [hpi]; exact g4)
  have := hp.k_le
  refine ⟨claims, t, hv, fun fuel hfuel => ?_⟩
  rw [← newProof_some_iff L.toReflOps hcpus hln hfuel (by omega) hp.length hp.gens hv t, ← h fuel, Prod.exists]

/-- **C44**, the prover, with a transcript from which there always comes a challenge that is a square: it returns. -/
theorem C44_prover_returns [HaloCurve E F S] (tr : Transcript T F) {fuel cpus : ℕ}
    (hfuel : fuel ≤ 256) (hget : ∀ t, ∃ r, getChallenge S tr t = some r)
    (hsquare : ∀ t, ∃ r, squareChallenge S tr fuel t = some r) (hcpus : 0 < cpus) {lnCeil : ℕ → ℕ}
    (hln : ∀ n, 32 ≤ n → n < 2 ^ 32 → 1 ≤ lnCeil n ∧ lnCeil n ≤ 57)
    {params : Params (Proj F)} {g : ℕ → Pt (E.b : F)} (hp : ValidParams (Denotes (E.b : F)) g params)
    {circuit : Var → Prog S Unit} {gates : ℕ} {lcs : List (LC S)} {positions : List ℕ}
    (h1 : HasShape true circuit gates lcs positions) (h2 : HasShape false circuit gates lcs positions)
    (hn : gates < params.n) (hq : lcs.length < params.d) {inputs : List S}
    (hsat : isSatisfied circuit inputs = .ok true) {old : Leftovers (Proj F) S} :
    letI := Proj.curveOps E F S
    letI := HaloCurve.module (E := E) (F := F) (S := S)
    ValidLeftovers (Denotes (E.b : F)) g params circuit old →
    ∃ proof new, Proof.new tr fuel cpus lnCeil params circuit old = .ok (proof, new) := by
  let := Proj.curveOps E F S
  let := HaloCurve.module (E := E) (F := F) (S := S)
  intro hold
  obtain ⟨claims, t, -, h⟩ := C44_prover (E := E) tr hget hcpus hln hp h1 h2 hn hq hsat hold
  exact (h fuel hfuel).2 fun ⟨_, _, h⟩ => not_stuck hsquare h

/-- the linear constraints of the cube circuit -/
def cubeLcs (S : Type) [Field S] : List (LC S) :=
  [⟨[(.A 1, .one)]⟩, ⟨[(.B 1, .one), (.A 2, Coeff.one.neg)]⟩, ⟨[(.B 1, .one), (.B 2, Coeff.one.neg)]⟩,
    ⟨[(.C 2, .one), (.A 3, Coeff.one.neg)]⟩, ⟨[(.B 1, .one), (.B 3, Coeff.one.neg)]⟩,
    ⟨[(.A 4, .one)]⟩, ⟨[(.C 3, .one), (.A 4, Coeff.one.neg), (.A 1, .zero)]⟩]

omit [DecidableEq S] [LawfulField S] in
theorem cube_shape (known : Bool) (x : S) : HasShape known (cubeCircuit x) 4 (cubeLcs S) [1, 6] := by
  cases known <;> exact ⟨_, _, rfl, rfl, rfl, rfl, rfl⟩

omit [LawfulField S] in
theorem cube_satisfied (x : S) : isSatisfied (cubeCircuit x) [x * x * x] = .ok true := by
  rw [C29_is_satisfied]
  refine ⟨_, rfl, rfl, ?_, ?_, ?_⟩
  · show ∀ lc ∈ cubeLcs S, ∀ t ∈ lc.terms, 1 ≤ t.1.index ∧ t.1.index ≤ 4
    simp only [cubeLcs, List.forall_mem_cons, List.not_mem_nil, Var.index]
    simp
  · show ∀ i, 1 ≤ i → i ≤ 4 → _
    intro i h1 h2
    interval_cases i <;> simp [System.fresh, System.expose, System.gate, System.constrain, System.empty, Function.update]
  · show ∀ q lc, (cubeLcs S)[q]? = some lc → _ = rhs [(1, 1), (6, x * x * x)] (q + 1)
    intro q lc h
    have hq : q < 7 := (List.getElem?_eq_some_iff.1 h).1
    interval_cases q <;> simp [cubeLcs] at h <;> subst h <;> simp [System.fresh, System.expose, System.gate, System.constrain, System.empty, Function.update, LC.eval, rhs]

/-- the cube circuit, with the secret 3 and the public input 27, on `2^5` generators -/
example : ∃ (params : Params (Proj Fq)) (g : ℕ → Pt ((ec0.b : ℕ) : Fq)) (old : Leftovers (Proj Fq) Fp),
    letI := Proj.curveOps ec0 Fq Fp
    letI := HaloCurve.module (E := ec0) (F := Fq) (S := Fp)
    ValidParams (Denotes _) g params ∧ HasShape true (cubeCircuit (3 : Fp)) 4 (cubeLcs Fp) [1, 6] ∧
    HasShape false (cubeCircuit (3 : Fp)) 4 (cubeLcs Fp) [1, 6] ∧
    HasShape false (cubeCircuit (0 : Fp)) 4 (cubeLcs Fp) [1, 6] ∧
    isSatisfied (cubeCircuit (3 : Fp)) [27] = .ok true ∧ 4 < params.n ∧
    (cubeLcs Fp).length < params.d ∧
    (∀ t, ∃ r, getChallenge Fp (constTranscript Fq) t = some r) ∧
    (∀ t, ∃ r, squareChallenge Fp (constTranscript Fq) 1 t = some r) ∧
    ValidLeftovers (Denotes _) g params (cubeCircuit (3 : Fp)) old ∧
    ∃ proof new, Proof.new (constTranscript Fq) 1 4 (fun _ => 3) params (cubeCircuit (3 : Fp)) old =
      .ok (proof, new) := by
  obtain ⟨params, g, hp, hk, -⟩ := params_example (E := ec0) (F := Fq) (S := Fp) (k := 5) (by norm_num)
    (by norm_num)
  let := Proj.curveOps ec0 Fq Fp
  let := HaloCurve.module (E := ec0) (F := Fq) (S := Fp)
  have h1 := cube_shape true (3 : Fp)
  have h2 := cube_shape false (3 : Fp)
  have hsat : isSatisfied (cubeCircuit (3 : Fp)) [27] = .ok true := by
    have := cube_satisfied (3 : Fp)
    norm_num at this
    exact this
  have hn : 4 < params.n := by rw [hp.n_eq, hk]; norm_num
  have hd : (cubeLcs Fp).length < params.d := by rw [hp.d_eq, hk]; simp [cubeLcs]
  have hget : ∀ t, ∃ r, getChallenge Fp (constTranscript Fq) t = some r := fun t => by
    obtain ⟨c, h, -⟩ := getChallenge_const (E := ec0) (F := Fq) (S := Fp)
    exact ⟨_, h⟩
  have hsq : ∀ t, ∃ r, squareChallenge Fp (constTranscript Fq) 1 t = some r :=
    squareChallenge_const (E := ec0)
  obtain ⟨a, s, e1, -, -, -, e5⟩ := id h2
  obtain ⟨old, -, -, hold, -⟩ := C45_leftovers_dummy (E := ec0) (S := Fp) (cpus := 4) (by norm_num)
    (lnCeil := fun _ => 3) (by simp) hp (computeSx_of params.n (0 : Fp) e1 e5).1
  exact ⟨params, g, old, hp, h1, h2, cube_shape false 0, hsat, hn, hd, hget, hsq, hold,
    C44_prover_returns (E := ec0) (constTranscript Fq) (by norm_num) hget hsq (by norm_num) (by simp) hp h1 h2 hn
      hd hsat hold⟩

end Proofs
end Halo
