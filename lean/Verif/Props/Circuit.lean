import Verif.Lemmas.Gadget
import Verif.Lemmas.ConstraintPoly
import Verif.Lemmas.Events
import Verif.Lemmas.FieldInst
/-!
# Properties of circuits, synthesis and the constraint polynomial (C27–C32)

A circuit is a function `Var → Prog F α` of the variable `ONE`.  `circuitSystem known circuit`
(`Verif.Spec.System`) is the constraint system that it describes.
-/
namespace Halo
open Circuit Util
variable {F : Type} [Field F]

/-- A circuit that proves knowledge of a cube root of its public input, which is used in the
examples of this file -/
def cubeCircuit (x : F) : Var → Prog F Unit := fun one => do
  let (v, _) ← .doAlloc (.ok x)
  let (a, b, c, _) ← .doMultiply (.ok (x, x, x * x))
  .enforce ((LC.ofVar v).subVar a)
  .enforce ((LC.ofVar v).subVar b)
  let (d, e, f, _) ← .doMultiply (.ok (x * x, x, x * x * x))
  .enforce ((LC.ofVar c).subVar d)
  .enforce ((LC.ofVar v).subVar e)
  let (o, _) ← .doAllocInput (.ok (x * x * x))
  .enforce (((LC.ofVar f).subVar o).add .zero one)

/-- **C27**: an expression over linear combinations has the value that one would expect, for every
assignment; and the special coefficients behave as 0, 1 and -1. -/
theorem C27_linear_combinations :
    (∀ (e : LinExpr F) (a b c : List F), (∀ v ∈ e.vars, Exists a b c v) →
      e.build.evaluate a b c = some (e.denote (assigned a b c))) ∧
    (∀ (c d : Coeff F) (x : F), (c.mulField x).value = c.value * x ∧ c.multiply x = c.value * x ∧
      (c.mul d).value = c.value * d.value ∧ c.neg.value = -c.value ∧ c.double.value = 2 * c.value) ∧
    (Coeff.zero : Coeff F).value = 0 ∧ (Coeff.one : Coeff F).value = 1 ∧
      (Coeff.negativeOne : Coeff F).value = -1 ∧ ∀ x : F, (Coeff.full x).value = x := by
  refine ⟨fun e a b c h => ?_, fun c d x => ⟨by simp, by simp, by simp, by simp, by simp⟩, rfl, rfl,
    rfl, fun _ => rfl⟩
  rw [evaluate_eq, LinExpr.eval_build]
  intro t ht
  exact h t.1 (LinExpr.build_vars e t ht)

/-- an expression and an assignment as in C27: `2 a₁ - 3 (c₁ - b₂)` -/
example : ∀ v ∈ (LinExpr.subScaled (.addTerm .zero (.full (2 : ℚ)) (.A 1)) (.full 3)
    (.subVar (.var (.C 1)) (.B 2))).vars, Exists [1] [5, 7] [(2 : ℚ)] v := by
  simp [LinExpr.vars, Circuit.Exists]

/-- **C28**, for the prover's and the satisfaction checker's assignment.  `traced` makes the same
calls, and also returns the variables handed out with the values supplied for them, and the triples
supplied to `multiply`.  At the end of every history of calls, all variables handed out, and the
constant one, are distinct, and have the values that were supplied for them when they were allocated;
and all gates multiply if the triples do. -/
theorem C28_prover_wires {α : Type} {circuit : Var → Prog F α} {a : α} {log : Log F}
    {d : Driver (Witness F)} (h : Basic.synthesize proverBackend ⟨0, 0, ⟨[], [], []⟩, []⟩
      (fun one => (circuit one).traced) = .ok ((a, log), d)) :
    Basic.synthesize proverBackend ⟨0, 0, ⟨[], [], []⟩, []⟩ circuit = .ok (a, d) ∧
    (Basic.ONE :: log.vars.map Prod.fst).Nodup ∧
    d.backend.wires.get Basic.ONE = some 1 ∧
    (∀ p ∈ log.vars, d.backend.wires.get p.1 = p.2 ∧ p.2 ≠ none) ∧
    ((∀ t ∈ log.products, t.1 * t.2.1 = t.2.2) →
      d.backend.wires.a.length = d.backend.wires.c.length ∧
      d.backend.wires.a.zipWith (· * ·) d.backend.wires.b = d.backend.wires.c) := by
  have h0 : ProverRel (System.empty : System F) ⟨⟨0, 0, ⟨[], [], []⟩, []⟩, none, 0, 0⟩ :=
    ⟨.empty, rfl, rfl, rfl, rfl, rfl, rfl, rfl⟩
  obtain ⟨s, hs, hR⟩ := sim_prover.synthesize_ok h0 h
  obtain ⟨hi, hn, h1, h1i, hv, hg⟩ := circuitSystem_traced hs
  have hget : ∀ v, s.Issued v → d.backend.wires.get v = some (s.w v) := fun v hv => by
    rw [hR.wires]
    exact get_wiresOf hv.1 hv.2.1
  refine ⟨?_, hn, by rw [Basic.ONE, hget _ h1i, h1], fun p hp => ?_, fun hp => ?_⟩
  · exact synthesize_traced _ _ h
  · obtain ⟨hp1, hp2⟩ := hv p hp
    rw [hget _ hp1, hp2]
    exact ⟨rfl, by simp⟩
  · have := hg hp
    rw [hR.wires]
    refine ⟨by simp [wiresOf], ?_⟩
    apply List.ext_getElem
    · simp [wiresOf]
    · intro i hi1 hi2
      simp only [wiresOf, col_length] at hi2
      simp only [wiresOf, List.getElem_zipWith, col_getElem]
      exact this (i + 1) (by omega) (by omega)

/-- **C28** for the satisfaction checker -/
theorem C28_checker_wires {α : Type} {circuit : Var → Prog F α} {a : α} {log : Log F}
    {d : Driver (SatState F)} (h : Basic.synthesize satBackend ⟨0, 0, ⟨[], [], []⟩, [], [], []⟩
      (fun one => (circuit one).traced) = .ok ((a, log), d)) :
    Basic.synthesize satBackend ⟨0, 0, ⟨[], [], []⟩, [], [], []⟩ circuit = .ok (a, d) ∧
    (Basic.ONE :: log.vars.map Prod.fst).Nodup ∧
    d.backend.wires.get Basic.ONE = some 1 ∧
    (∀ p ∈ log.vars, d.backend.wires.get p.1 = p.2 ∧ p.2 ≠ none) ∧
    ((∀ t ∈ log.products, t.1 * t.2.1 = t.2.2) →
      d.backend.wires.a.length = d.backend.wires.c.length ∧
      d.backend.wires.a.zipWith (· * ·) d.backend.wires.b = d.backend.wires.c) := by
  have h0 : SatRel (System.empty : System F) ⟨⟨0, 0, ⟨[], [], []⟩, [], [], []⟩, none, 0, 0⟩ :=
    ⟨.empty, rfl, rfl, rfl, rfl, rfl, rfl, rfl, by simp [System.empty], rfl, rfl⟩
  obtain ⟨s, hs, hR⟩ := sim_sat.synthesize_ok h0 h
  obtain ⟨hi, hn, h1, h1i, hv, hg⟩ := circuitSystem_traced hs
  have hget : ∀ v, s.Issued v → d.backend.wires.get v = some (s.w v) := fun v hv => by
    rw [hR.wires]
    exact get_wiresOf hv.1 hv.2.1
  refine ⟨?_, hn, by rw [Basic.ONE, hget _ h1i, h1], fun p hp => ?_, fun hp => ?_⟩
  · exact synthesize_traced _ _ h
  · obtain ⟨hp1, hp2⟩ := hv p hp
    rw [hget _ hp1, hp2]
    exact ⟨rfl, by simp⟩
  · have := hg hp
    rw [hR.wires]
    refine ⟨by simp [wiresOf], ?_⟩
    apply List.ext_getElem
    · simp [wiresOf]
    · intro i hi1 hi2
      simp only [wiresOf, col_length] at hi2
      simp only [wiresOf, List.getElem_zipWith, col_getElem]
      exact this (i + 1) (by omega) (by omega)

/-- the cube circuit is synthesized by both, and hands out eight variables besides the constant -/
example (x : F) : (∃ a log d, Basic.synthesize proverBackend ⟨0, 0, ⟨[], [], []⟩, []⟩
      (fun one => (cubeCircuit x one).traced) = .ok ((a, log), d) ∧ log.vars.length = 8) ∧
    ∃ a log d, Basic.synthesize satBackend ⟨0, 0, ⟨[], [], []⟩, [], [], []⟩
      (fun one => (cubeCircuit x one).traced) = .ok ((a, log), d) ∧ log.vars.length = 8 := by
  obtain ⟨a, log, s, hs, hl⟩ : ∃ a log s, circuitSystem true
      (fun one => (cubeCircuit x one).traced) = .ok ((a, log), s) ∧ log.vars.length = 8 :=
    ⟨_, _, _, rfl, rfl⟩
  obtain ⟨d, hd, -⟩ := sim_prover.synthesize_of_system (b := ⟨0, 0, ⟨[], [], []⟩, []⟩)
    ⟨.empty, rfl, rfl, rfl, rfl, rfl, rfl, rfl⟩ hs trivial
  obtain ⟨d', hd', -⟩ := sim_sat.synthesize_of_system (b := ⟨0, 0, ⟨[], [], []⟩, [], [], []⟩)
    ⟨.empty, rfl, rfl, rfl, rfl, rfl, rfl, rfl, by simp [System.empty], rfl, rfl⟩ hs trivial
  exact ⟨⟨a, log, d, hd, hl⟩, ⟨a, log, d', hd', hl⟩⟩

/-- **C29**: `is_satisfied` returns `Ok(true)` exactly if the circuit completes, takes this number of
public inputs, mentions only existing variables in its linear constraints, and all its gates and
linear constraints hold for the values that it supplies and these public inputs. -/
theorem C29_is_satisfied [DecidableEq F] (circuit : Var → Prog F Unit) (inputs : List F) :
    isSatisfied circuit inputs = .ok true ↔
      ∃ s, circuitSystem true circuit = .ok ((), s) ∧ s.inputs.length = inputs.length + 1 ∧
        (∀ lc ∈ s.lcs, ∀ t ∈ lc.terms, 1 ≤ t.1.index ∧ t.1.index ≤ s.gates) ∧
        s.Satisfied s.w inputs := isSatisfied_iff circuit inputs

/-- the cube circuit for 2 modulo 3 is satisfied for the public input 2 and not for 1 -/
example : isSatisfied (cubeCircuit (2 : ZMod 3)) [2] = .ok true ∧
    isSatisfied (cubeCircuit (2 : ZMod 3)) [1] ≠ .ok true := by
  have h : ∀ v : ZMod 3, isSatisfied (cubeCircuit (2 : ZMod 3)) [v] = .ok true ↔
      (match isSatisfied (cubeCircuit (2 : ZMod 3)) [v] with | .ok b => b | _ => false) = true := by
    intro v
    cases isSatisfied (cubeCircuit (2 : ZMod 3)) [v] <;> simp
  rw [ne_eq, h, h]
  decide +kernel

/-- **C30**: the vector for `y` read at `x`, and the vector for `x` read at `y`, are both values
of the bivariate polynomial `s(X, Y)` of the circuit (the former shifted by `x^n`). -/
theorem C30_evaluators_agree [LawfulField F] {α : Type} {n : ℕ} {circuit : Var → Prog F α} {x y : F}
    {sx sy : List F} (hx : computeSx n circuit y = .ok sx) (hy : computeSy n circuit x = .ok sy) :
    opening sx x = x ^ n * opening sy y ∧
    ∃ a s, circuitSystem false circuit = .ok (a, s) ∧ opening sy y = sEval n s.lcs x y ∧
      sx.length = 3 * n + 1 ∧ sy.length = s.lcs.length + 1 := by
  obtain ⟨a, s, h1, h2, rfl⟩ := computeSx_ok hx
  obtain ⟨a', s', h1', h2', rfl, hx0⟩ := computeSy_ok hy
  rw [h1] at h1'
  simp only [Except.ok.injEq, Prod.mk.injEq] at h1'
  obtain ⟨rfl, rfl⟩ := h1'
  rw [opening_sxVec h2' hx0, opening_syVec]
  exact ⟨rfl, a, s, h1, rfl, by simp, by simp [syVec]⟩

/-- The evaluators succeed if the circuit completes without values, its linear constraints only
mention variables that exist, and it has at most `n` gates. -/
theorem C30_evaluators_complete [LawfulField F] {α : Type} {n : ℕ} {circuit : Var → Prog F α} {a : α}
    {s : System F} (hs : circuitSystem false circuit = .ok (a, s)) (hw : s.wellScoped = true)
    (hn : s.gates ≤ n) {x y : F} (hx : x ≠ 0) :
    (∃ sx, computeSx n circuit y = .ok sx) ∧ ∃ sy, computeSy n circuit x = .ok sy :=
  ⟨⟨_, (computeSx_of n y hs hw).1⟩, _, computeSy_of hx hs hw hn⟩

/-- the cube circuit has four gates, seven linear constraints and two public inputs -/
theorem cube_system (v : F) : ∃ s, circuitSystem false (cubeCircuit v) = .ok ((), s) ∧
    s.wellScoped = true ∧ s.gates = 4 ∧ s.lcs.length = 7 ∧ s.inputs.length = 2 :=
  ⟨_, rfl, rfl, rfl, rfl, rfl⟩

/-- both evaluators succeed on the cube circuit -/
example (y : Fp) : (∃ sx, computeSx 4 (cubeCircuit (3 : Fp)) y = .ok sx) ∧
    ∃ sy, computeSy 4 (cubeCircuit (3 : Fp)) (-1) = .ok sy := by
  obtain ⟨s, h1, h2, h3, -⟩ := cube_system (3 : Fp)
  exact C30_evaluators_complete h1 h2 h3.le (neg_ne_zero.2 one_ne_zero)

/-- **C31**: for an assignment `wr` of the wires of the gates of a circuit, the coefficient `4n` of
the product that the prover computes (which stands for `X^0`) is `y^n k(y)`, where `k` is the
polynomial of the public inputs, for every `y` if the assignment satisfies the circuit for these
public inputs, and for at most `2n + Q` values of `y` if it does not; here `Q` is the number of
linear constraints. -/
theorem C31_constraint_polynomial [LawfulField F] {α : Type} {cpus : ℕ} (hcpus : 0 < cpus) {n : ℕ}
    (hsize : 7 * n + 1 ≤ 2 ^ 31) {circuit : Var → Prog F α} {a : α} {s : System F}
    (hs : circuitSystem false circuit = .ok (a, s)) (hw : s.wellScoped = true) (hn : s.gates ≤ n)
    (wr : Wires F) (ha : wr.a.length = s.gates) (hb : wr.b.length = s.gates)
    (hc : wr.c.length = s.gates) (inputs : List F) (hin : s.inputs.length = inputs.length + 1) :
    ∃ T : Finset F, T.card ≤ 2 * n + s.lcs.length ∧ ∀ y : F, y ≠ 0 → ∃ sx tx t,
      computeSx n circuit y = .ok sx ∧
      multiplyPolynomials cpus (rPoly n wr)
        (rPrime n (rxyPoly n (rPoly n wr) y y⁻¹) (sPrime n sx y y⁻¹)) = some tx ∧
      tx.length = 7 * n + 1 ∧ tx[4 * n]? = some t ∧
      (s.Satisfied (assigned wr.a wr.b wr.c) inputs →
        t = y ^ n * opening (kPoly ((s.inputs.map Prod.fst).zip (1 :: inputs))) y) ∧
      (¬ s.Satisfied (assigned wr.a wr.b wr.c) inputs →
        t = y ^ n * opening (kPoly ((s.inputs.map Prod.fst).zip (1 :: inputs))) y → y ∈ T) := by
  set w := assigned wr.a wr.b wr.c with hwdef
  set ki := (s.inputs.map Prod.fst).zip (1 :: inputs) with hki
  have hin' := inputsOk_circuit hs
  have hfst : ki.map Prod.fst = s.inputs.map Prod.fst := by
    rw [hki, List.map_fst_zip (by simp [hin])]
  have hk : KOk ki := by
    refine ⟨by rw [hfst]; exact hin'.sorted, fun p hp => ?_⟩
    have : p.1 ∈ s.inputs.map Prod.fst := hfst ▸ List.mem_map.2 ⟨p, hp, rfl⟩
    obtain ⟨q, hq, he⟩ := List.mem_map.1 this
    have := (hin'.range q hq).1
    omega
  have hkQ : ∀ p ∈ ki, p.1 ≤ s.lcs.length := fun p hp => by
    have : p.1 ∈ s.inputs.map Prod.fst := hfst ▸ List.mem_map.2 ⟨p, hp, rfl⟩
    obtain ⟨q, hq, he⟩ := List.mem_map.1 this
    have := (hin'.range q hq).2
    omega
  have hscope : InScope s.gates s.lcs := (computeSx_of n 0 hs hw).2
  have hcol : ∀ l : List F, l.length = s.gates → resize l n = col (fun i => l.getD (i - 1) 0) n := by
    intro l hl
    have : l = col (fun i => l.getD (i - 1) 0) s.gates := by
      apply List.ext_getElem
      · simp [hl]
      · intro i h1 h2
        simp [col_getElem, h1]
    conv_lhs => rw [this]
    apply resize_col
    intro i hi
    simp [List.getD, List.getElem?_eq_none (show l.length ≤ i - 1 by omega)]
  have hr : rPoly n wr = rVec n w := by
    simp only [rPoly, rVec, hcol _ ha, hcol _ hb, hcol _ hc]
    rfl
  let dd : ℕ → F := fun i => w (.A (i + 1)) * w (.B (i + 1)) - w (.C (i + 1))
  let ee : ℕ → F := fun q => (s.lcs.getD q LC.zero).eval w - rhs ki (q + 1)
  have hsat : s.Satisfied w inputs ↔ (∀ i, i < n → dd i = 0) ∧ ∀ q, q < s.lcs.length → ee q = 0 := by
    have hz : ∀ (l : List F), l.length = s.gates → ∀ i, s.gates < i → l.getD (i - 1) 0 = 0 :=
      fun l hl i hi => by simp [List.getD, List.getElem?_eq_none (show l.length ≤ i - 1 by omega)]
    constructor
    · rintro ⟨h1, h2⟩
      refine ⟨fun i hi => ?_, fun q hq => ?_⟩
      · by_cases hi' : i < s.gates
        · exact sub_eq_zero.2 (h1 (i + 1) (by omega) (by omega))
        · simp only [dd, hwdef, assigned]
          rw [hz _ ha (i + 1) (by omega), hz _ hc (i + 1) (by omega), zero_mul, sub_zero]
      · refine sub_eq_zero.2 ?_
        have := h2 q (s.lcs[q]) (by simp [hq])
        rw [show s.lcs.getD q LC.zero = s.lcs[q] by simp [List.getD, hq]]
        exact this
    · rintro ⟨h1, h2⟩
      refine ⟨fun i hi hi' => ?_, fun q lc hq => ?_⟩
      · have := h1 (i - 1) (by omega)
        simp only [dd, Nat.sub_add_cancel hi] at this
        exact sub_eq_zero.1 this
      · obtain ⟨hq1, hq2⟩ := List.getElem?_eq_some_iff.1 hq
        have := sub_eq_zero.1 (h2 q hq1)
        rw [show s.lcs.getD q LC.zero = lc by simp [List.getD, hq]] at this
        exact this
  have main : ∀ y : F, y ≠ 0 → ∃ sx tx t, computeSx n circuit y = .ok sx ∧
      multiplyPolynomials cpus (rPoly n wr)
        (rPrime n (rxyPoly n (rPoly n wr) y y⁻¹) (sPrime n sx y y⁻¹)) = some tx ∧
      tx.length = 7 * n + 1 ∧ tx[4 * n]? = some t ∧
      t - y ^ n * opening (kPoly ki) y =
        ∑ i ∈ Finset.range n, dd i * (y ^ (i + 1) + (y ^ (i + 1))⁻¹) +
          y ^ n * ∑ q ∈ Finset.range s.lcs.length, y ^ (q + 1) * ee q := by
    intro y hy
    have hlen : (rVec n w).length + (rPrimeVec n w s.lcs y).length - 1 = 7 * n + 1 := by
      rw [rVec_length, rPrimeVec_length]; omega
    have hm := multiplyPolynomials_spec hcpus (rVec n w) (rPrimeVec n w s.lcs y)
      (by rw [← List.length_pos_iff, rVec_length]; omega)
      (by rw [← List.length_pos_iff, rPrimeVec_length]; omega) (by omega)
    rw [hlen] at hm
    refine ⟨_, _, conv (fun i => (rVec n w).getD i 0) (fun i => (rPrimeVec n w s.lcs y).getD i 0)
      (4 * n), (computeSx_of n y hs hw).1, by rw [hr]; exact hm, by simp, ?_, ?_⟩
    · rw [List.getElem?_map, List.getElem?_range (by omega)]
      rfl
    · rw [conv_const n w (hscope.mono hn) hy, sum_mapIdx, opening_kPoly hk hkQ, add_sub_assoc,
        ← mul_sub, ← Finset.sum_sub_distrib]
      congr 2
      apply Finset.sum_congr rfl
      intro q _
      simp only [ee]
      ring
  by_cases hS : s.Satisfied w inputs
  · obtain ⟨h1, h2⟩ := hsat.1 hS
    refine ⟨∅, by simp, fun y hy => ?_⟩
    obtain ⟨sx, tx, t, m1, m2, m3, m4, m5⟩ := main y hy
    refine ⟨sx, tx, t, m1, m2, m3, m4, fun _ => ?_, fun h => (h hS).elim⟩
    rw [← sub_eq_zero, m5, Finset.sum_eq_zero, Finset.sum_eq_zero, mul_zero, add_zero]
    · intro q hq
      rw [h2 q (Finset.mem_range.1 hq), mul_zero]
    · intro i hi
      rw [h1 i (Finset.mem_range.1 hi), zero_mul]
  · have hd : (∃ i, i < n ∧ dd i ≠ 0) ∨ ∃ q, q < s.lcs.length ∧ ee q ≠ 0 := by
      by_contra hcon
      push Not at hcon
      exact hS (hsat.2 hcon)
    obtain ⟨T, hT, hTy⟩ := few_roots n s.lcs.length dd ee hd
    refine ⟨T, hT, fun y hy => ?_⟩
    obtain ⟨sx, tx, t, m1, m2, m3, m4, m5⟩ := main y hy
    refine ⟨sx, tx, t, m1, m2, m3, m4, fun h => (hS h).elim, fun _ ht => ?_⟩
    exact hTy y hy (by rw [← m5, ht, sub_self])

/-- the hypotheses of C31 hold for the cube circuit and the all-zero assignment, which does not
satisfy it (the constant one is zero) -/
example : ∃ s, circuitSystem false (cubeCircuit (3 : Fp)) = .ok ((), s) ∧ s.wellScoped = true ∧
    s.gates ≤ 4 ∧ (List.replicate 4 (0 : Fp)).length = s.gates ∧ s.inputs.length = [(27 : Fp)].length + 1 := by
  obtain ⟨s, h1, h2, h3, h4, h5⟩ := cube_system (3 : Fp)
  exact ⟨s, h1, h2, h3.le, by simp [h3], by simp [h5]⟩

/-- **C32 is false of the code**: `determinism_check` does not notice that the second run makes
fewer calls: here the run without values adds a constraint that the run with values omits. -/
theorem C32_missing_constraint_accepted [DecidableEq F] : ∃ circuit : Var → Prog F Unit,
    determinismCheck circuit = .ok () ∧
    calls false (circuit (.A 0)) 1 ≠ calls true (circuit (.A 0)) 1 ∧
    ∃ s s', circuitSystem false circuit = .ok ((), s) ∧ circuitSystem true circuit = .ok ((), s') ∧
      s.lcs.length = 2 ∧ s'.lcs.length = 1 := by
  refine ⟨fun _ => .alloc (.ok 1) fun x o =>
    if o.isSome then .pure () else .enforceZero (LC.ofVar x) (.pure ()), rfl, ?_, _, _, rfl, rfl, rfl, rfl⟩
  simp [calls]

/-- What is true of C32: the check succeeds exactly if both runs complete and the calls of the
second run agree with the first calls of the first run.  Missing: that the first run makes no
further calls, and (for circuits that make up variables) that the sort of the variables agrees. -/
theorem C32_determinism_check_partial [DecidableEq F] (circuit : Var → Prog F Unit) :
    determinismCheck circuit = .ok () ↔
      ∃ c c', calls false (circuit (.A 0)) 1 = some c ∧ calls true (circuit (.A 0)) 1 = some c' ∧
        ∃ pre suf, c = pre ++ suf ∧ List.Forall₂ Event.Alike pre c' := determinismCheck_iff circuit

/-- the cube circuit passes the check -/
example [DecidableEq F] (x : F) : determinismCheck (cubeCircuit x) = .ok () := by
  have h : ∀ l : LC F, sameLC l l = true := fun l => (sameLC_iff l l).2 rfl
  simp [determinismCheck, cubeCircuit, record, enforceEvents, Bind.bind, Prog.bind, Prog.doAlloc,
    Prog.doAllocInput, Prog.doMultiply, Prog.enforce, Except.bind, h]

end Halo
