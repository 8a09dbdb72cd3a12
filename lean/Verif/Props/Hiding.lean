import Verif.Lemmas.Proofs.Hiding
import Verif.Props.Honest
/-!
# Proofs do not hide the witness (C74)
-/
namespace Halo
namespace Proofs
open Util Circuit
variable {E : CurveConsts} {F : Type} [Field F] [DecidableEq F] [LawfulField F]
  {S : Type} [Field S] [DecidableEq S] [LawfulField S] {T : Type}

/-- **C74**, what a proof contains: a sum of the values of all variables, each times a generator that everybody knows, and no blinding. -/
theorem C74_commitment [HaloCurve E F S] (tr : Transcript T F) {fuel cpus : ℕ} (hcpus : 0 < cpus) {lnCeil : ℕ → ℕ}
    (hln : ∀ n, 32 ≤ n → n < 2 ^ 32 → 1 ≤ lnCeil n ∧ lnCeil n ≤ 57)
    {params : Params (Proj F)} {g : ℕ → Pt (E.b : F)} (hp : ValidParams (Denotes (E.b : F)) g params)
    {α : Type} {circuit : Var → Prog S α} {a : α} {s : System S} (hs : circuitSystem true circuit = .ok (a, s))
    {old new : Leftovers (Proj F) S} {proof : Proof (Proj F) S} :
    letI := Proj.curveOps E F S
    letI := HaloCurve.module (E := E) (F := F) (S := S)
    Proof.new tr fuel cpus lnCeil params circuit old = .ok (proof, new) →
    Denotes (E.b : F) proof.rCommitment (witnessPoint g params.n s.w) := by
  let := Proj.curveOps E F S
  let := HaloCurve.module (E := E) (F := F) (S := S)
  exact fun h => (new_rCommitment (HaloCurve.lawfulOps (E := E) (F := F) (S := S)).toLawfulCurve hcpus hln hp hs h).2

/-- **C74**, a guess of the witness can be tested with the proof: the right one always fits, and a wrong one only if a
relation between the generators is known. -/
theorem C74_guess [HaloCurve E F S] (tr : Transcript T F) {fuel cpus : ℕ} (hcpus : 0 < cpus) {lnCeil : ℕ → ℕ}
    (hln : ∀ n, 32 ≤ n → n < 2 ^ 32 → 1 ≤ lnCeil n ∧ lnCeil n ≤ 57)
    {params : Params (Proj F)} {g : ℕ → Pt (E.b : F)} (hp : ValidParams (Denotes (E.b : F)) g params)
    {α : Type} {circuit : Var → Prog S α} {a : α} {s : System S} (hs : circuitSystem true circuit = .ok (a, s))
    {old new : Leftovers (Proj F) S} {proof : Proof (Proj F) S} :
    letI := Proj.curveOps E F S
    letI := HaloCurve.module (E := E) (F := F) (S := S)
    Proof.new tr fuel cpus lnCeil params circuit old = .ok (proof, new) → ∀ w : Var → S,
    ((∀ v : Var, 1 ≤ v.index → v.index ≤ params.n → w v = s.w v) →
      Denotes (E.b : F) proof.rCommitment (witnessPoint g params.n w)) ∧
    (Denotes (E.b : F) proof.rCommitment (witnessPoint g params.n w) →
      (∀ v : Var, 1 ≤ v.index → v.index ≤ params.n → w v = s.w v) ∨ Dependent S g params.d) := by
  let := Proj.curveOps E F S
  let := HaloCurve.module (E := E) (F := F) (S := S)
  intro h w
  have hr := C74_commitment (E := E) tr hcpus hln hp hs h
  have hkg := hp.k_gt
  have hd : params.d = 4 * params.n := by
    rw [hp.d_eq, hp.n_eq, show (4 : ℕ) = 2 ^ 2 by norm_num, ← pow_add]
    congr 1; omega
  refine ⟨fun hw => ?_, fun hw => ?_⟩
  · have : witnessPoint g params.n w = witnessPoint g params.n s.w := by
      unfold witnessPoint
      apply Finset.sum_congr rfl
      intro i hi
      have hi := Finset.mem_range.1 hi
      rw [hw (.A (i + 1)) (by simp [Var.index]) (by simp [Var.index]; omega),
        hw (.B (i + 1)) (by simp [Var.index]) (by simp [Var.index]; omega),
        hw (.C (i + 1)) (by simp [Var.index]) (by simp [Var.index]; omega)]
    rw [this]
    exact hr
  · rw [hd]
    exact dependent_of_eq (by rw [hp.n_eq]; positivity) (denotes_unique hw hr)

/-- a circuit with a secret, no public inputs, and nothing to check -/
def secretCircuit (v : S) (_ : Var) : Prog S Unit := .multiply (.ok (v, 0, 0)) fun _ _ _ _ => .pure ()

omit [DecidableEq S] [LawfulField S] in
theorem secret_shape (known : Bool) (v : S) : HasShape known (secretCircuit v) 2 [⟨[(.A 1, .one)]⟩] [1] := by
  cases known <;> exact ⟨_, _, rfl, rfl, rfl, rfl, rfl⟩

omit [LawfulField S] in
theorem secret_satisfied (v : S) : isSatisfied (secretCircuit v) [] = .ok true := by
  rw [C29_is_satisfied]
  refine ⟨_, rfl, rfl, ?_, ?_, ?_⟩
  · show ∀ lc ∈ ([⟨[(.A 1, .one)]⟩] : List (LC S)), ∀ t ∈ lc.terms, 1 ≤ t.1.index ∧ t.1.index ≤ 2
    simp [Var.index]
  · show ∀ i, 1 ≤ i → i ≤ 2 → _
    intro i h1 h2
    interval_cases i <;> simp [System.fresh, System.expose, System.gate, System.constrain, System.empty, Function.update]
  · show ∀ q lc, ([⟨[(.A 1, .one)]⟩] : List (LC S))[q]? = some lc → _ = rhs [(1, 1)] (q + 1)
    intro q lc h
    have hq : q < 1 := (List.getElem?_eq_some_iff.1 h).1
    interval_cases q
    simp at h
    subst h
    simp [System.fresh, System.expose, System.gate, System.constrain, System.empty, Function.update, LC.eval, rhs]

/-- **C74 is false of the code.** Any secret satisfies this circuit, for the same public inputs, but the proofs for different secrets are
always different, whatever the transcripts, leftovers and numbers of cores, if one generator is not the identity. So a proof determines the
secret. -/
theorem C74_not_hiding [HaloCurve E F S] (tr tr' : Transcript T F) {fuel cpus fuel' cpus' : ℕ} (hcpus : 0 < cpus) (hcpus' : 0 < cpus')
    {lnCeil : ℕ → ℕ} (hln : ∀ n, 32 ≤ n → n < 2 ^ 32 → 1 ≤ lnCeil n ∧ lnCeil n ≤ 57)
    {params : Params (Proj F)} {g : ℕ → Pt (E.b : F)} (hp : ValidParams (Denotes (E.b : F)) g params)
    (hg : g (3 * params.n + 1) ≠ 0) {v v' : S} (hv : v ≠ v')
    {old new old' new' : Leftovers (Proj F) S} {proof proof' : Proof (Proj F) S} :
    letI := Proj.curveOps E F S
    letI := HaloCurve.module (E := E) (F := F) (S := S)
    isSatisfied (secretCircuit v) [] = .ok true ∧ isSatisfied (secretCircuit v') [] = .ok true ∧
    (Proof.new tr fuel cpus lnCeil params (secretCircuit v) old = .ok (proof, new) →
      Proof.new tr' fuel' cpus' lnCeil params (secretCircuit v') old' = .ok (proof', new') →
      proof ≠ proof' ∧ ¬ ∃ A, Denotes (E.b : F) proof.rCommitment A ∧ Denotes (E.b : F) proof'.rCommitment A) := by
  let := Proj.curveOps E F S
  let := HaloCurve.module (E := E) (F := F) (S := S)
  refine ⟨secret_satisfied v, secret_satisfied v', fun h h' => ?_⟩
  have hs : ∀ v : S, circuitSystem true (secretCircuit v) = .ok ((), ((((System.empty : System S).fresh 1).2.expose (.A 1) (some 1)).gate
    (v, 0, 0))) := fun _ => rfl
  have r := C74_commitment (E := E) tr hcpus hln hp (hs v) h
  have r' := C74_commitment (E := E) tr' hcpus' hln hp (hs v') h'
  have hn : 2 ≤ params.n := by
    have := hp.k_gt
    rw [hp.n_eq]
    calc 2 = 2 ^ 1 := rfl
      _ ≤ _ := Nat.pow_le_pow_right (by norm_num) (by omega)
  have key : ¬ ∃ A, Denotes (E.b : F) proof.rCommitment A ∧ Denotes (E.b : F) proof'.rCommitment A := by
    rintro ⟨A, hA, hA'⟩
    have he := (denotes_unique hA r).symm.trans (denotes_unique hA' r')
    have hz := witnessPoint_sub g params.n ((((System.empty : System S).fresh 1).2.expose (.A 1) (some 1)).gate (v, 0, 0)).w
      ((((System.empty : System S).fresh 1).2.expose (.A 1) (some 1)).gate (v', 0, 0)).w
    rw [he, sub_self] at hz
    have : witnessPoint g params.n (fun u => ((((System.empty : System S).fresh 1).2.expose (.A 1) (some 1)).gate (v, 0, 0)).w u -
        ((((System.empty : System S).fresh 1).2.expose (.A 1) (some 1)).gate (v', 0, 0)).w u) = (v - v') • g (3 * params.n + 1) := by
      unfold witnessPoint
      rw [Finset.sum_eq_single_of_mem 1 (Finset.mem_range.2 (by omega))]
      · simp [System.gate, System.expose, System.fresh, System.constrain, System.empty]
      · intro i _ hi
        simp [System.gate, System.expose, System.fresh, System.constrain, System.empty, hi]
    rw [this] at hz
    exact (smul_ne_zero (sub_ne_zero.2 hv) hg) hz
  refine ⟨?_, key⟩
  rintro rfl
  exact key ⟨_, r, r⟩

/-- **C74**, what is true: a proof depends on nothing else that the prover knows but the values of the variables. -/
theorem C74_partial [HaloCurve E F S] (tr : Transcript T F) {fuel cpus : ℕ} {lnCeil : ℕ → ℕ} {params : Params (Proj F)} {α β : Type}
    {circuit : Var → Prog S α} {circuit' : Var → Prog S β} (h : SameRun circuit circuit') (old : Leftovers (Proj F) S) :
    letI := Proj.curveOps E F S
    Proof.new tr fuel cpus lnCeil params circuit old = Proof.new tr fuel cpus lnCeil params circuit' old := by
  let := Proj.curveOps E F S
  exact new_sameRun h old

/-- Proofs with the secrets 3 and 5 exist, so the hypotheses of C74 are met. -/
example : ∃ (params : Params (Proj Fq)) (g : ℕ → Pt ((ec0.b : ℕ) : Fq)) (old : Leftovers (Proj Fq) Fp),
    letI := Proj.curveOps ec0 Fq Fp
    ValidParams (Denotes _) g params ∧ g (3 * params.n + 1) ≠ 0 ∧ ∀ v : Fp, ∃ proof new,
      Proof.new (constTranscript Fq) 1 4 (fun _ => 3) params (secretCircuit v) old = .ok (proof, new) := by
  obtain ⟨params, g, hp, hk, hg⟩ := params_example (E := ec0) (F := Fq) (S := Fp) (k := 5) (by norm_num)
    (by norm_num)
  let := Proj.curveOps ec0 Fq Fp
  let := HaloCurve.module (E := ec0) (F := Fq) (S := Fp)
  have hn : 2 < params.n := by rw [hp.n_eq, hk]; norm_num
  have hd : ([⟨[(.A 1, .one)]⟩] : List (LC Fp)).length < params.d := by rw [hp.d_eq, hk]; simp
  have hget : ∀ t, ∃ r, getChallenge Fp (constTranscript Fq) t = some r := fun t => by
    obtain ⟨c, h, -⟩ := getChallenge_const (E := ec0) (F := Fq) (S := Fp)
    exact ⟨_, h⟩
  have hsq : ∀ t, ∃ r, squareChallenge Fp (constTranscript Fq) 1 t = some r :=
    squareChallenge_const (E := ec0)
  obtain ⟨a, s, e1, -, -, -, e5⟩ := secret_shape false (0 : Fp)
  obtain ⟨old, -, -, hold, -⟩ := C45_leftovers_dummy (E := ec0) (S := Fp) (cpus := 4) (by norm_num)
    (lnCeil := fun _ => 3) (by simp) hp (computeSx_of params.n (0 : Fp) e1 e5).1
  refine ⟨params, g, old, hp, hg _, fun v => ?_⟩
  have hsx := computeSx_shape (secret_shape false v) (secret_shape false (0 : Fp))
  have hold' : ValidLeftovers (Denotes _) g params (secretCircuit v) old :=
    ⟨by simpa only [hsx] using hold.s, hold.len, hold.g⟩
  exact C44_prover_returns (E := ec0) (constTranscript Fq) (by norm_num) hget hsq (by norm_num) (by simp) hp (secret_shape true v)
    (secret_shape false v) hn hd (secret_satisfied v) hold'

/-- two circuits that give the same value in different ways -/
example (x : S) : SameRun (secretCircuit (x * x - x)) (fun _ => .multiply (.ok (x * (x - 1), 0, 0)) fun _ _ _ _ => .pure x) := by
  have : x * x - x = x * (x - 1) := by ring
  rw [this]
  exact ⟨_, _, _, _, rfl, rfl, rfl, rfl, rfl, rfl, [1], secret_shape false _, _, _, rfl, rfl, rfl, rfl, rfl⟩

end Proofs
end Halo
