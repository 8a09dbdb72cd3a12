import Verif.Lemmas.Proofs.Unbound
import Verif.Props.Honest
/-!
# Old leftovers that are chosen after the proof (C67)
-/
namespace Halo
namespace Proofs
open Util Circuit
variable {E : CurveConsts} {F : Type} [Field F] [DecidableEq F] [LawfulField F]
  {S : Type} [Field S] [DecidableEq S] [LawfulField S] {T : Type}

/-- **C67**. The transcript does not contain the old leftovers. Take any circuit that is small enough, any public
inputs, and any old leftovers that can be read. After exchanging one point of the old leftovers, the folded generator,
there is a proof that the verifier accepts, and so do the two checks that it leaves over. The new leftovers are even
correct. Whether the circuit can be satisfied plays no role. -/
theorem C67_exchanged_leftovers [HaloCurve E F S] (tr : Transcript T F) {fuel cpus : ℕ}
    (hfuel : fuel ≤ 256) (hget : ∀ t, ∃ r, getChallenge S tr t = some r)
    (hsquare : ∀ t, ∃ r, squareChallenge S tr fuel t = some r) (hcpus : 0 < cpus) {lnCeil : ℕ → ℕ}
    (hln : ∀ n, 32 ≤ n → n < 2 ^ 32 → 1 ≤ lnCeil n ∧ lnCeil n ≤ 57)
    {params : Params (Proj F)} {g : ℕ → Pt (E.b : F)} (hp : ValidParams (Denotes (E.b : F)) g params)
    {α : Type} {circuit : Var → Prog S α} {gates : ℕ} {lcs : List (LC S)} {positions : List ℕ}
    (h : HasShape false circuit gates lcs positions) (hn : gates ≤ params.n) (hq : lcs.length < params.d)
    {inputs : List S} (hin : inputs.length + 1 = positions.length) {old : Leftovers (Proj F) S}
    (hs : ∃ A, Denotes (E.b : F) old.sNewCommitment A) (hus : ∃ us, Roots old.challengesSqPackedNew us)
    (hlen : old.challengesSqPackedNew.length = params.k) :
    letI := Proj.curveOps E F S
    letI := HaloCurve.module (E := E) (F := F) (S := S)
    ∃ (gOld : Proj F) (proof : Proof (Proj F) S) (new : Leftovers (Proj F) S) (d : Deferred S) (forks : List ℕ),
      proof.verify tr cpus lnCeil { old with gNew := gOld } params circuit inputs none = .ok (true, new, d, forks) ∧
      d.verify params.k = some true ∧ new.verify cpus lnCeil params circuit = .ok true ∧
      ValidLeftovers (Denotes (E.b : F)) g params circuit new := by
  let := Proj.curveOps E F S
  let := HaloCurve.module (E := E) (F := F) (S := S)
  obtain ⟨a, s, e1, rfl, rfl, rfl, e5⟩ := h
  obtain ⟨A, hA⟩ := hs
  obtain ⟨us, hus⟩ := hus
  rw [hp.d_eq] at hq
  exact forge HaloCurve.lawfulOps hcpus hln hfuel hsquare hget hp ⟨⟨a, e1⟩, e5, hn⟩ hq (by simpa using hin) hA hus hlen

/-- a circuit that cannot be satisfied: it asks for `1 = 0` -/
def falseCircuit (S : Type) [Field S] : Var → Prog S Unit := fun one => .enforce (.ofVar one)

omit [DecidableEq S] [LawfulField S] in
theorem false_shape (known : Bool) :
    HasShape known (falseCircuit S) 1 [⟨[(.A 1, .one)]⟩, ⟨[(.A 1, .one)]⟩] [1] := by
  cases known <;> exact ⟨_, _, rfl, rfl, rfl, rfl, rfl⟩

omit [DecidableEq S] [LawfulField S] in
theorem false_unsatisfiable (known : Bool) {a : Unit} {s : System S}
    (h : circuitSystem known (falseCircuit S) = .ok (a, s)) (w : Var → S) : ¬ s.Satisfied w [] := by
  obtain ⟨a', s', e1, -, e3, e4, -⟩ := false_shape (S := S) known
  cases e1.symm.trans h
  intro hsat
  have h1 := hsat.2 0 ⟨[(.A 1, .one)]⟩ (by rw [e3]; rfl)
  have h2 := hsat.2 1 ⟨[(.A 1, .one)]⟩ (by rw [e3]; rfl)
  rw [e4] at h1 h2
  simp [LC.eval, rhs] at h1 h2
  rw [h1] at h2
  exact one_ne_zero h2

/-- **C67**, for a statement that is false: there are parameters, a circuit that no assignment satisfies, old leftovers
and a proof that is accepted, together with what it leaves over. Here are those for the first curve and the
transcript that always squeezes 12. -/
theorem C67_false_statement :
    letI := Proj.curveOps ec0 Fq Fp
    ∃ (params : Params (Proj Fq)) (circuit : Var → Prog Fp Unit) (old : Leftovers (Proj Fq) Fp)
      (proof : Proof (Proj Fq) Fp) (new : Leftovers (Proj Fq) Fp) (d : Deferred Fp) (forks : List ℕ),
      (∀ a s w, circuitSystem false circuit = .ok (a, s) → ¬ s.Satisfied w []) ∧
      proof.verify (constTranscript Fq) 4 (fun _ => 3) old params circuit [] none = .ok (true, new, d, forks) ∧
      d.verify params.k = some true ∧ new.verify 4 (fun _ => 3) params circuit = .ok true := by
  obtain ⟨params, g, hp, hk, -⟩ := params_example (E := ec0) (F := Fq) (S := Fp) (k := 5) (by norm_num)
    (by norm_num)
  let := Proj.curveOps ec0 Fq Fp
  let := HaloCurve.module (E := ec0) (F := Fq) (S := Fp)
  have h2 := false_shape (S := Fp) false
  have hget : ∀ t, ∃ r, getChallenge Fp (constTranscript Fq) t = some r := fun t => by
    obtain ⟨c, h, -⟩ := getChallenge_const (E := ec0) (F := Fq) (S := Fp)
    exact ⟨_, h⟩
  have hsq : ∀ t, ∃ r, squareChallenge Fp (constTranscript Fq) 1 t = some r :=
    squareChallenge_const (E := ec0)
  obtain ⟨a, s, e1, -, -, -, e5⟩ := id h2
  obtain ⟨old, -, -, ⟨⟨sx, -, hso⟩, hlen, us, hus, -⟩, -⟩ := C45_leftovers_dummy (E := ec0) (S := Fp) (cpus := 4)
    (by norm_num) (lnCeil := fun _ => 3) (by simp) hp (computeSx_of params.n (0 : Fp) e1 e5).1
  obtain ⟨gOld, proof, new, d, forks, v1, v2, v3, -⟩ := C67_exchanged_leftovers (E := ec0) (constTranscript Fq)
    (fuel := 1) (by norm_num) hget hsq (cpus := 4) (by norm_num) (lnCeil := fun _ => 3) (by simp) hp h2
    (by rw [hp.n_eq, hk]; norm_num) (by rw [hp.d_eq, hk]; simp) (inputs := []) rfl ⟨_, hso⟩ ⟨us, hus⟩ hlen
  exact ⟨params, falseCircuit Fp, _, proof, new, d, forks, fun a s w h => false_unsatisfiable false h w, v1, v2, v3⟩

end Proofs
end Halo
