import Verif.Props.Honest
import Verif.Spec.Machine
/-!
# The prover checks its own values, and what it returns verifies (C83)
-/
namespace Halo
namespace Proofs
open Util Circuit
variable {E : CurveConsts} {F : Type} [Field F] [DecidableEq F] [LawfulField F]
  {S : Type} [Field S] [DecidableEq S] [LawfulField S] {T : Type}

omit [LawfulField S] in
/-- **C83**, the number that the prover checks: it is zero for values that satisfy the constraints, whatever `y` is; and for
values that do not it is zero for at most `2n + Q` values of `y`, where `Q` is the number of linear constraints. -/
theorem C83_violation (s : System S) {n : ℕ} (hn : s.gates ≤ n) :
    (s.Satisfied s.w s.publicInputs → ∀ y, s.violation n y = 0) ∧
    (¬ s.Satisfied s.w s.publicInputs → ∃ bad : Finset S, bad.card ≤ 2 * n + s.lcs.length ∧
      ∀ y, y ≠ 0 → s.violation n y = 0 → y ∈ bad) := by
  have hlc : ∀ q (h : q < s.lcs.length), s.lcs.getD q LC.zero = s.lcs[q] := fun q h => by simp [List.getD, h]
  constructor
  · intro hsat y
    rw [System.violation, Finset.sum_eq_zero, Finset.sum_eq_zero, mul_zero, add_zero]
    · intro q hq
      have hq := Finset.mem_range.1 hq
      rw [hlc q hq, hsat.2 q s.lcs[q] (by simp [hq]), sub_self, mul_zero]
    · intro i hi
      have := Finset.mem_range.1 hi
      rw [hsat.1 (i + 1) (by omega) (by omega), sub_self, zero_mul]
  · intro hsat
    let dd : ℕ → S := fun i => if i < s.gates then s.w (.A (i + 1)) * s.w (.B (i + 1)) - s.w (.C (i + 1)) else 0
    let ee : ℕ → S := fun q => (s.lcs.getD q LC.zero).eval s.w -
      rhs ((s.inputs.map fun p => p.1).zip (1 :: s.publicInputs)) (q + 1)
    have hd : (∃ i, i < n ∧ dd i ≠ 0) ∨ ∃ q, q < s.lcs.length ∧ ee q ≠ 0 := by
      by_contra hcon
      push Not at hcon
      obtain ⟨h1, h2⟩ := hcon
      refine hsat ⟨fun i hi hi' => ?_, fun q lc hq => ?_⟩
      · have := h1 (i - 1) (by omega)
        simp only [dd, if_pos (show i - 1 < s.gates by omega), Nat.sub_add_cancel hi] at this
        exact sub_eq_zero.1 this
      · obtain ⟨hq1, rfl⟩ := List.getElem?_eq_some_iff.1 hq
        have := sub_eq_zero.1 (h2 q hq1)
        rwa [hlc q hq1] at this
    obtain ⟨bad, hc, hb⟩ := few_roots n s.lcs.length dd ee hd
    refine ⟨bad, hc, fun y hy h => hb y hy ?_⟩
    rw [← h, System.violation]
    congr 1
    symm
    rw [← Finset.sum_subset (Finset.range_subset_range.2 hn)]
    · refine Finset.sum_congr rfl fun i hi => ?_
      simp only [dd, if_pos (Finset.mem_range.1 hi)]
    · intro i _ hi
      rw [Finset.mem_range] at hi
      simp only [dd, if_neg hi, zero_mul]

/-- **C83**, exactly. For any circuit that is small enough, with any values, and correct leftovers, the prover commits to the
public inputs and the values, draws a challenge, and computes the violation of the constraints at this challenge. If it is not
zero, the prover panics. If it is zero, it comes to an opening argument for true claims, and returns a proof if it finds
challenges that are squares there. -/
theorem C83_prover [HaloCurve E F S] (tr : Transcript T F) {cpus : ℕ}
    (hget : ∀ t, ∃ r, getChallenge S tr t = some r) (hcpus : 0 < cpus) {lnCeil : ℕ → ℕ}
    (hln : ∀ n, 32 ≤ n → n < 2 ^ 32 → 1 ≤ lnCeil n ∧ lnCeil n ≤ 57)
    {params : Params (Proj F)} {g : ℕ → Pt (E.b : F)} (hp : ValidParams (Denotes (E.b : F)) g params) {α : Type}
    {circuit : Var → Prog S α} {a : α} {s : System S} (hs : circuitSystem true circuit = .ok (a, s))
    (h2 : HasShape false circuit s.gates s.lcs (s.inputs.map fun p => p.1))
    (hn : s.gates < params.n) (hq : s.lcs.length < params.d) {old : Leftovers (Proj F) S} :
    letI := Proj.curveOps E F S
    letI := HaloCurve.module (E := E) (F := F) (S := S)
    ValidLeftovers (Denotes (E.b : F)) g params circuit old →
    ∃ K R y t1, params.commit cpus lnCeil (kPoly ((s.inputs.map fun p => p.1).zip (1 :: s.publicInputs))) false = some K ∧
      params.commit cpus lnCeil (s.values params.n) true = some R ∧
      getChallenge S tr (appendPoint tr R (appendPoint tr K tr.new)) = some (y, t1) ∧ y ≠ 0 ∧
      (s.violation params.n y ≠ 0 → ∀ fuel, Proof.new tr fuel cpus lnCeil params circuit old = .error .panic) ∧
      (s.violation params.n y = 0 →
        ∃ (claims : List (PolynomialOpening (Proj F) S × List S)) (t : T),
        (∀ i ∈ claims, ValidClaim (Denotes (E.b : F)) g params.k i.1 i.2) ∧
        ∀ fuel ≤ 256, (∃ proof new, Proof.new tr fuel cpus lnCeil params circuit old = .ok (proof, new)) ↔
          ¬ StuckOpening tr fuel cpus lnCeil claims params.generators params.k t) := by
  let := Proj.curveOps E F S
  let := HaloCurve.module (E := E) (F := F) (S := S)
  intro hold
  have L := HaloCurve.lawfulOps (E := E) (F := F) (S := S)
  obtain ⟨b, v, f1, f2, f3, -, f5⟩ := h2
  obtain ⟨K, R, y, t1, c1, c2, c3, c4, c5, c6⟩ := prover_check L.toReflOps hcpus hln hget hp hold hs f1 f5 f2 f3 hn hq (tr := tr)
  refine ⟨K, R, y, t1, c1, c2, c3, c4, c5, fun h => ?_⟩
  obtain ⟨claims, t, hv, h⟩ := c6 h
  have := hp.k_le
  refine ⟨claims, t, hv, fun fuel hfuel => ?_⟩
  rw [← newProof_some_iff L.toReflOps hcpus hln hfuel (by omega) hp.length hp.gens hv t, ← h fuel, Prod.exists]

/-- **C83.** For values that do not satisfy the circuit there are at most `2n + Q` bad challenges. For every transcript and all
parameters for `n` gates, the prover panics if the first challenge that it draws is not one of these. -/
theorem C83_refuses [HaloCurve E F S] {n : ℕ} {α : Type}
    {circuit : Var → Prog S α} {a : α} {s : System S} (hs : circuitSystem true circuit = .ok (a, s))
    (h2 : HasShape false circuit s.gates s.lcs (s.inputs.map fun p => p.1))
    (hn : s.gates < n) (hsat : ¬ s.Satisfied s.w s.publicInputs) :
    letI := Proj.curveOps E F S
    letI := HaloCurve.module (E := E) (F := F) (S := S)
    ∃ bad : Finset S, bad.card ≤ 2 * n + s.lcs.length ∧
      ∀ {T : Type} (tr : Transcript T F) (M : Machine) {params : Params (Proj F)} {g : ℕ → Pt (E.b : F)}
        {old : Leftovers (Proj F) S}, (∀ t, ∃ r, getChallenge S tr t = some r) →
        ValidParams (Denotes (E.b : F)) g params → params.n = n → s.lcs.length < params.d →
        ValidLeftovers (Denotes (E.b : F)) g params circuit old →
        ∃ K R y t1, params.commit M.cpus M.lnCeil (kPoly ((s.inputs.map fun p => p.1).zip (1 :: s.publicInputs))) false = some K ∧
          params.commit M.cpus M.lnCeil (s.values n) true = some R ∧
          getChallenge S tr (appendPoint tr R (appendPoint tr K tr.new)) = some (y, t1) ∧
          (y ∉ bad → ∀ fuel, Proof.new tr fuel M.cpus M.lnCeil params circuit old = .error .panic) := by
  obtain ⟨bad, hc, hb⟩ := (C83_violation s hn.le).2 hsat
  refine ⟨bad, hc, ?_⟩
  intro T tr M params g old hget hp hpn hq hold
  subst hpn
  obtain ⟨K, R, y, t1, c1, c2, c3, c4, c5, -⟩ := C83_prover tr hget M.cpus_pos M.range hp hs h2 hn hq hold
  exact ⟨K, R, y, t1, c1, c2, c3, fun hy => c5 fun h => hy (hb y c4 h)⟩

/-- **C83**: whatever the prover returns is accepted, for the public inputs of its values, whether or not these satisfy the
circuit; the deferred checks succeed, and the new leftovers are correct again. -/
theorem C83_returned_verifies [HaloCurve E F S] (tr : Transcript T F) {fuel : ℕ} (hfuel : fuel ≤ 256) (M M' : Machine)
    {params : Params (Proj F)} {g : ℕ → Pt (E.b : F)} (hp : ValidParams (Denotes (E.b : F)) g params)
    {α β : Type} {circuit : Var → Prog S α} {circuitV : Var → Prog S β} {a : α} {s : System S}
    (hs : circuitSystem true circuit = .ok (a, s))
    (h2 : HasShape false circuit s.gates s.lcs (s.inputs.map fun p => p.1))
    (h3 : HasShape false circuitV s.gates s.lcs (s.inputs.map fun p => p.1)) {old : Leftovers (Proj F) S} :
    letI := Proj.curveOps E F S
    letI := HaloCurve.module (E := E) (F := F) (S := S)
    ∀ {proof : Proof (Proj F) S} {new : Leftovers (Proj F) S} {kCommitment : Option (Proj F)},
    ValidLeftovers (Denotes (E.b : F)) g params circuitV old →
    Proof.new tr fuel M.cpus M.lnCeil params circuit old = .ok (proof, new) →
    (∀ K ∈ kCommitment, Denotes (E.b : F) K
      (combine g 0 (kPoly ((s.inputs.map fun p => p.1).zip (1 :: s.publicInputs))))) →
    ∃ d forks, proof.verify tr M'.cpus M'.lnCeil old params circuitV s.publicInputs kCommitment =
        .ok (true, new, d, forks) ∧
      d.verify params.k = some true ∧ new.verify M'.cpus M'.lnCeil params circuitV = .ok true ∧
      ValidLeftovers (Denotes (E.b : F)) g params circuitV new := by
  let := Proj.curveOps E F S
  let := HaloCurve.module (E := E) (F := F) (S := S)
  intro proof new kc hold h hkc
  have L := HaloCurve.lawfulOps (E := E) (F := F) (S := S)
  have hsx := computeSx_shape h2 h3
  obtain ⟨b, v, f1, -, -, f4, -⟩ := h3
  obtain ⟨d, forks, k1, -, k3, k4, k5, -⟩ := honest L.toReflOps M.cpus_pos M.range hfuel hp
    (circuit := circuit) ⟨by simpa only [hsx] using hold.s, hold.len, hold.g⟩ h hs f1 f4
    M'.cpus_pos M'.range (kc := kc) hkc
  have k5' : ValidLeftovers (Denotes (E.b : F)) g params circuitV new :=
    ⟨by simpa only [← hsx] using k5.s, k5.len, k5.g⟩
  obtain ⟨b, m1, m2⟩ := (C45_deferred params.k d).1 k3
  exact ⟨d, forks, k1, by rw [m1, m2.2 k4], (C45_leftovers_partial M'.cpus_pos M'.range hp).1 k5', k5'⟩

/-- A circuit that nothing satisfies: it demands that `-y` and `1` are zero. -/
def contradiction (y : S) (one : Var) : Prog S Unit :=
  .enforceZero ⟨[(one, .full (-y))]⟩ (.enforceZero ⟨[(one, .one)]⟩ (.pure ()))

/-- its linear constraints -/
def contradictionLcs (y : S) : List (LC S) := [⟨[(.A 1, .one)]⟩, ⟨[(.A 1, .full (-y))]⟩, ⟨[(.A 1, .one)]⟩]

omit [DecidableEq S] [LawfulField S] in
theorem contradiction_shape (known : Bool) (y : S) : HasShape known (contradiction y) 1 (contradictionLcs y) [1] := by
  cases known <;> exact ⟨_, _, rfl, rfl, rfl, rfl, rfl⟩

omit [DecidableEq S] [LawfulField S] in
theorem contradiction_unsat {y : S} {s : System S} (h : circuitSystem true (contradiction y) = .ok ((), s)) :
    ∀ w inputs, ¬ s.Satisfied w inputs := by
  obtain ⟨⟨⟩, s', e1, -, e3, e4, -⟩ := contradiction_shape true y
  cases h.symm.trans e1
  intro w inputs hsat
  have h1 := hsat.2 0 ⟨[(.A 1, .one)]⟩ (by rw [e3]; rfl)
  have h3 := hsat.2 2 ⟨[(.A 1, .one)]⟩ (by rw [e3]; rfl)
  rw [e4] at h1 h3
  simp [LC.eval, rhs] at h1 h3
  rw [h1] at h3
  exact one_ne_zero h3

/-- The hypotheses of `C83_refuses` hold for this circuit, 8 gates, and parameters with `2^5` generators. -/
example : letI := Proj.curveOps ec0 Fq Fp
    letI := HaloCurve.module (E := ec0) (F := Fq) (S := Fp)
    ∃ (s : System Fp) (params : Params (Proj Fq)) (g : ℕ → Pt ((ec0.b : ℕ) : Fq)) (old : Leftovers (Proj Fq) Fp),
      circuitSystem true (contradiction (2 : Fp)) = .ok ((), s) ∧
      HasShape false (contradiction (2 : Fp)) s.gates s.lcs (s.inputs.map fun p => p.1) ∧ s.gates < 8 ∧
      ¬ s.Satisfied s.w s.publicInputs ∧ ValidParams (Denotes _) g params ∧ params.n = 8 ∧ s.lcs.length < params.d ∧
      ValidLeftovers (Denotes _) g params (contradiction (2 : Fp)) old := by
  obtain ⟨params, g, hp, hk, -⟩ := params_example (E := ec0) (F := Fq) (S := Fp) (k := 5) (by norm_num)
    (by norm_num)
  let := Proj.curveOps ec0 Fq Fp
  let := HaloCurve.module (E := ec0) (F := Fq) (S := Fp)
  have h2 := contradiction_shape false (2 : Fp)
  obtain ⟨⟨⟩, s, e1, e2, e3, e4, -⟩ := contradiction_shape true (2 : Fp)
  obtain ⟨a, s0, f1, -, -, -, f5⟩ := id h2
  obtain ⟨old, -, -, hold, -⟩ := C45_leftovers_dummy (E := ec0) (S := Fp) (cpus := 4) (by norm_num)
    (lnCeil := fun _ => 3) (by simp) hp (computeSx_of params.n (0 : Fp) f1 f5).1
  exact ⟨s, params, g, old, e1, by rw [e2, e3, e4]; exact h2, by rw [e2]; norm_num, contradiction_unsat e1 _ _, hp,
    by rw [hp.n_eq, hk]; norm_num, by rw [e3, hp.d_eq, hk]; simp [contradictionLcs], hold⟩

/-- **C83**: the check is not more than what it is. With a transcript that always gives the same challenge, the prover returns
a proof for a circuit that nothing satisfies, and the verifier accepts it. -/
theorem C83_bad_challenge : letI := Proj.curveOps ec0 Fq Fp
    ∃ (params : Params (Proj Fq)) (circuit : Var → Prog Fp Unit) (s : System Fp) (old new : Leftovers (Proj Fq) Fp)
      (proof : Proof (Proj Fq) Fp) (d : Deferred Fp) (forks : List ℕ),
      circuitSystem true circuit = .ok ((), s) ∧ (∀ w inputs, ¬ s.Satisfied w inputs) ∧
      old.verify 4 (fun _ => 3) params circuit = .ok true ∧
      Proof.new (constTranscript Fq) 1 4 (fun _ => 3) params circuit old = .ok (proof, new) ∧
      proof.verify (constTranscript Fq) 4 (fun _ => 3) old params circuit [] none = .ok (true, new, d, forks) ∧
      d.verify params.k = some true ∧ new.verify 4 (fun _ => 3) params circuit = .ok true := by
  obtain ⟨params, g, hp, hk, -⟩ := params_example (E := ec0) (F := Fq) (S := Fp) (k := 5) (by norm_num)
    (by norm_num)
  let := Proj.curveOps ec0 Fq Fp
  let := HaloCurve.module (E := ec0) (F := Fq) (S := Fp)
  obtain ⟨y, hy, -⟩ := getChallenge_const (E := ec0) (F := Fq) (S := Fp)
  have hget : ∀ t, ∃ r, getChallenge Fp (constTranscript Fq) t = some r := fun t => ⟨_, hy⟩
  have hsq : ∀ t, ∃ r, squareChallenge Fp (constTranscript Fq) 1 t = some r :=
    squareChallenge_const (E := ec0)
  have h2 := contradiction_shape false y
  obtain ⟨⟨⟩, s, e1, e2, e3, e4, -⟩ := contradiction_shape true y
  have hn : s.gates < params.n := by rw [e2, hp.n_eq, hk]; norm_num
  have hd : s.lcs.length < params.d := by rw [e3, hp.d_eq, hk]; simp [contradictionLcs]
  obtain ⟨a, s0, f1, -, -, -, f5⟩ := id h2
  obtain ⟨old, -, -, hold, hov⟩ := C45_leftovers_dummy (E := ec0) (S := Fp) (cpus := 4) (by norm_num)
    (lnCeil := fun _ => 3) (by simp) hp (computeSx_of params.n (0 : Fp) f1 f5).1
  have h2 : HasShape false (contradiction y) s.gates s.lcs (s.inputs.map fun p => p.1) := by
    rw [e2, e3, e4]
    exact h2
  obtain ⟨K, R, y', t1, -, -, c3, -, -, c6⟩ := C83_prover (constTranscript Fq) hget (cpus := 4) (by norm_num)
    (lnCeil := fun _ => 3) (by simp) hp e1 h2 hn hd hold
  have hy' : y' = y := by
    have : getChallenge Fp (constTranscript Fq) () = some (y', t1) := c3
    rw [hy] at this
    exact (congrArg Prod.fst (Option.some.inj this)).symm
  subst hy'
  have hsys : circuitSystem true (contradiction y') = .ok ((), s) := e1
  have hunsat := contradiction_unsat hsys
  have hviol : s.violation params.n y' = 0 := by
    cases e1
    simp [System.violation, System.fresh, System.expose, System.constrain, System.empty, Function.update, LC.eval, rhs,
      Finset.sum_range_succ, System.publicInputs]
    right
    ring
  obtain ⟨claims, t, -, h⟩ := c6 hviol
  obtain ⟨proof, new, hnew⟩ := (h 1 (by norm_num)).2 fun ⟨_, _, h⟩ => not_stuck hsq h
  obtain ⟨d, forks, v1, v2, v3, -⟩ := C83_returned_verifies (constTranscript Fq) (fuel := 1) (by norm_num)
    ⟨4, fun _ => 3, by norm_num, by simp⟩ ⟨4, fun _ => 3, by norm_num, by simp⟩ hp hsys h2 h2 hold hnew
    (kCommitment := none) (by simp)
  have hpub : s.publicInputs = [] := by
    cases e1
    rfl
  rw [hpub] at v1
  exact ⟨params, contradiction y', s, old, new, proof, d, forks, hsys, hunsat, hov, hnew, v1, v2, v3⟩

end Proofs
end Halo
