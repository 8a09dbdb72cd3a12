import Verif.Lemmas.Collapse
import Verif.Lemmas.PolyMul
import Verif.Props.Curve
import Verif.Spec.Poly
import Mathlib.Analysis.SpecialFunctions.Log.Basic
import Mathlib.Analysis.SpecialFunctions.Exp
/-!
# Properties of the vector algorithms (C18–C22)

The number of cores `cpus` is a parameter of the models; every theorem holds for each value.
-/
namespace Halo
open LawfulField Util
variable {E : CurveConsts} {F : Type} [Field F] [DecidableEq F] [LawfulField F]
  {S : Type} [Field S] [LawfulField S]

/-- All complete interleavings of threads that own disjoint parts of the state give the same
result, namely the one of running each thread alone.  This is what justifies modelling the scoped
threads of `src/util.rs` sequentially. -/
theorem threads_deterministic {σ : Type} (ts : List (Thread σ)) (sched sched' : List ℕ)
    (h : allDone (runSchedule ts sched)) (h' : allDone (runSchedule ts sched')) :
    (runSchedule ts sched).map Thread.state = (runSchedule ts sched').map Thread.state := by
  rw [schedule_independent _ _ h, schedule_independent _ _ h']

/-- two threads of two steps each, with two different complete schedules -/
example : let ts : List (Thread ℕ) := [⟨0, [(· + 1), (· * 2)]⟩, ⟨5, [(· * 3), (· + 7)]⟩]
    allDone (runSchedule ts [0, 1, 1, 0]) ∧ allDone (runSchedule ts [1, 0, 0, 1]) ∧
    (runSchedule ts [0, 1, 1, 0]).map Thread.state = [2, 22] := by
  refine ⟨?_, ?_, rfl⟩ <;> intro t ht <;> simp [runSchedule, Thread.step] at ht <;>
    rcases ht with rfl | rfl <;> rfl

/-- the window sizes `(n as f64).ln().ceil()` that `multiexp` can meet, up to the rounding of the
floating-point logarithm, are in the range `C18_multiexp` needs -/
theorem ceil_log_ok (n : ℕ) (h : 32 ≤ n) (h' : n < 2 ^ 32) :
    1 ≤ ⌈Real.log n⌉₊ ∧ ⌈Real.log n⌉₊ ≤ 57 := by
  have hpos : (0 : ℝ) < Real.log n := Real.log_pos (by exact_mod_cast (by omega : 1 < n))
  refine ⟨Nat.one_le_iff_ne_zero.2 (by rw [Ne, Nat.ceil_eq_zero, not_le]; exact hpos), ?_⟩
  rw [Nat.ceil_le]
  have hn : (n : ℝ) ≤ 2 ^ 32 := by exact_mod_cast h'.le
  calc Real.log n ≤ Real.log (2 ^ 32) := Real.log_le_log (by positivity) hn
    _ = 32 * Real.log 2 := by rw [Real.log_pow]; norm_num
    _ ≤ 32 * 1 := by
      have : Real.log 2 ≤ 1 := by
        have := Real.log_le_sub_one_of_pos (show (0 : ℝ) < 2 by norm_num)
        linarith
      linarith
    _ ≤ ((57 : ℕ) : ℝ) := by norm_num

/-- **C18**: on both curves, `multiexp` returns the sum of the coefficients times the bases, for
every number of cores and every window-size function in range; it panics exactly when the lengths
differ. -/
theorem C18_multiexp [HaloCurve E F S] {cpus : ℕ} (hcpus : 0 < cpus) {lnCeil : ℕ → ℕ}
    (hln : ∀ n, 32 ≤ n → n < 2 ^ 32 → 1 ≤ lnCeil n ∧ lnCeil n ≤ 57)
    (coeffs : List S) (bases : List (Proj F)) (As : List (Pt (E.b : F)))
    (hb : List.Forall₂ (Denotes (E.b : F)) bases As) (hsize : bases.length < 2 ^ 32) :
    letI := Proj.curveApi E F S
    (coeffs.length ≠ bases.length → multiexp cpus lnCeil coeffs bases = none) ∧
    (coeffs.length = bases.length → ∃ P, multiexp cpus lnCeil coeffs bases = some P ∧
      Denotes (E.b : F) P (List.zipWith (fun s A => val s • A) coeffs As).sum) := by
  let := Proj.curveApi E F S
  let := HaloCurve.module (E := E) (F := F) (S := S)
  refine ⟨fun h => by unfold multiexp; rw [if_pos h]; rfl, fun h => ?_⟩
  obtain ⟨P, h1, h2⟩ := multiexp_rep (HaloCurve.lawful (E := E) (F := F) (S := S)) hcpus hln h hsize hb
  exact ⟨P, h1, h2⟩

/-- non-trivial instance of the hypotheses of C18: two different points and the exact logarithm -/
example : ∃ (coeffs : List Fp) (bases : List (Proj Fq)) (As : List (Pt ((ec0.b : ℕ) : Fq))),
    List.Forall₂ (Denotes _) bases As ∧ coeffs.length = bases.length ∧ bases.length = 2 ∧
    ∀ n : ℕ, 32 ≤ n → n < 2 ^ 32 → 1 ≤ ⌈Real.log n⌉₊ ∧ ⌈Real.log n⌉₊ ≤ 57 := by
  obtain ⟨A, hA, -⟩ := one_denotes (E := ec0) (F := Fq) (S := Fp)
  exact ⟨[3, 5], [Proj.one ec0, Proj.zero], [A, 0],
    .cons hA (.cons denotes_proj_zero .nil), rfl, rfl, ceil_log_ok⟩

omit [DecidableEq F] [LawfulField F] in
/-- **C19**: on a vector of length `2^L`, with `ω` of order dividing `2^L` and `ω^(2^(L-1)) = -1`,
all three FFT entry points return the discrete Fourier transform, for every number of cores. -/
theorem C19_fft {L : ℕ} {ω : F} (hω : 0 < L → ω ^ 2 ^ (L - 1) = -1) (hone : ω ^ 2 ^ L = 1)
    (a : Array F) (ha : a.size = 2 ^ L) :
    ∃ out : Array F, out.size = 2 ^ L ∧
      (∀ k, (h : k < out.size) → out[k] = ∑ i ∈ Finset.range (2 ^ L), a.getD i 0 * (ω ^ k) ^ i) ∧
      serialFft a ω L = some out ∧
      (∀ logCpus ≤ L, parallelFft a ω L logCpus = some out) ∧
      (∀ cpus > 0, bestFft cpus a ω L = some out) := by
  have haa : a = Mem.arr (2 ^ L) fun i => a.getD i 0 := by
    apply Array.ext
    · simp [ha]
    · intro i h1 h2
      simp [Mem.arr, h1]
  refine ⟨Mem.arr (2 ^ L) (dft (2 ^ L) ω fun i => a.getD i 0), by simp, ?_, ?_, ?_, ?_⟩
  · intro k h
    simp [Mem.arr, dft]
  · conv_lhs => rw [haa]
    exact serialFft_arr hω _
  · intro c hc
    conv_lhs => rw [haa]
    exact parallelFft_arr hc hω hone _
  · intro c hc
    conv_lhs => rw [haa]
    exact bestFft_arr hc hω hone _

/-- the roots of unity used by the code satisfy the hypotheses of C19: `α^(2^(32-L))` for `1 ≤ L ≤ 32` -/
example (L : ℕ) (h1 : 0 < L) (h : L ≤ 32) :
    ((FieldApi.alpha : F) ^ 2 ^ (32 - L)) ^ 2 ^ (L - 1) = -1 ∧
    ((FieldApi.alpha : F) ^ 2 ^ (32 - L)) ^ 2 ^ L = 1 := by
  have ho := alpha_order (F := F)
  have hp : ((FieldApi.alpha : F) ^ 2 ^ (32 - L)) ^ 2 ^ L = 1 := by
    rw [← pow_mul, ← pow_add, Nat.sub_add_cancel h, ← ho, pow_orderOf_eq_one]
  refine ⟨?_, hp⟩
  have hsq : (((FieldApi.alpha : F) ^ 2 ^ (32 - L)) ^ 2 ^ (L - 1)) ^ 2 = 1 := by
    rw [← pow_mul, ← pow_succ, Nat.sub_add_cancel h1, hp]
  rcases sq_eq_one_iff_of_side hsq with h' | h'
  · exfalso
    rw [← pow_mul, ← pow_add, show 32 - L + (L - 1) = 31 by omega] at h'
    have := orderOf_dvd_of_pow_eq_one h'
    rw [ho] at this
    exact absurd (Nat.le_of_dvd (by norm_num) this) (by norm_num)
  · exact h'

omit [DecidableEq F] in
/-- **C20**: `multiply_polynomials` returns the exact product, with `a.len() + b.len() - 1`
coefficients, as long as these are at most `2^31`; on larger or empty inputs it panics. -/
theorem C20_multiply_polynomials {cpus : ℕ} (hcpus : 0 < cpus) (a b : List F) :
    (a ≠ [] → b ≠ [] → a.length + b.length - 1 ≤ 2 ^ 31 →
      ∃ r, multiplyPolynomials cpus a b = some r ∧ r.length = a.length + b.length - 1 ∧
        listPoly r = listPoly a * listPoly b) ∧
    (a = [] ∨ b = [] ∨ 2 ^ 31 < a.length + b.length - 1 → multiplyPolynomials cpus a b = none) := by
  refine ⟨fun ha hb hlen => ⟨_, multiplyPolynomials_spec hcpus a b ha hb hlen, by simp, ?_⟩,
    multiplyPolynomials_none a b⟩
  have ha0 : 0 < a.length := List.length_pos_iff.2 ha
  have hb0 : 0 < b.length := List.length_pos_iff.2 hb
  have hz : ∀ l : List F, ∀ i, l.length ≤ i → l.getD i 0 = 0 := fun l i hi => by
    simp [List.getD, List.getElem?_eq_none hi]
  have key : ∀ l : List F, ∀ k, (listPoly l).coeff k = l.getD k 0 := fun l k =>
    ofCoeffs_coeff _ (hz l) k
  apply Polynomial.ext
  intro k
  rw [key, Polynomial.coeff_mul]
  simp only [key]
  by_cases hk : k < a.length + b.length - 1
  · simp [List.getD, hk, conv]
  · rw [hz _ k (by simp; omega)]
    exact (conv_high ha0 hb0 _ _ (hz a) (hz b) (by omega)).symm

/-- hypotheses of C20 -/
example : ([1, 2] : List Fp) ≠ [] ∧ ([3, 4, 5] : List Fp) ≠ [] ∧
    ([1, 2] : List Fp).length + ([3, 4, 5] : List Fp).length - 1 ≤ 2 ^ 31 := by
  refine ⟨by simp, by simp, by simp⟩

/-- **C21**: after one round the generators in the lower half are
`g_lo[i]·challenge_inv + g_hi[i]·challenge`, the upper half is unchanged, for every number of
cores and every interleaving of the threads. -/
theorem C21_generator_collapse [HaloCurve E F S] {cpus : ℕ} (hcpus : 0 < cpus) {l : ℕ} (hl : 0 < l)
    (g : List (Proj F)) (hg : g.length = 2 * l) (As : ℕ → Pt (E.b : F))
    (hA : ∀ i, (h : i < g.length) → Denotes (E.b : F) g[i] (As i)) (u ui : S) :
    letI := Proj.curveApi E F S
    ∃ (r : List (Proj F)) (ts : List (Thread (List (Proj F)))),
      generatorCollapse cpus g u ui = some r ∧ r.length = 2 * l ∧
      (∀ i, (h : i < r.length) → i < l →
        Denotes (E.b : F) r[i] (val ui • As i + val u • As (i + l))) ∧
      r.drop l = g.drop l ∧
      collapseThreads cpus g u ui = some ts ∧
      ∀ sched, allDone (runSchedule ts sched) →
        ((runSchedule ts sched).map Thread.state).flatten = r.take l := by
  let := Proj.curveApi E F S
  let := HaloCurve.module (E := E) (F := F) (S := S)
  have L := HaloCurve.lawful (E := E) (F := F) (S := S)
  obtain ⟨ts, h1, h2⟩ := collapseThreads_spec hcpus hg hl u ui
  have e1 : (g.take l).length = l := by simp [hg]; omega
  have e2 : (g.drop l).length = l := by simp [hg]; omega
  refine ⟨_, ts, generatorCollapse_eq hcpus hg hl u ui, by simp [hg]; omega, ?_, ?_, h1, ?_⟩
  · intro i h hi
    rw [List.getElem_append_left (by simp [hg]; omega), List.getElem_zipWith]
    refine L.add (L.mul ui ?_) (L.mul u ?_)
    · rw [List.getElem_take]; exact hA i _
    · have := hA (i + l) (by omega)
      simpa [add_comm] using this
  · rw [List.drop_append, List.drop_eq_nil_of_le (by simp), List.nil_append,
      List.length_zipWith, e1, e2]
    simp
  · intro sched hs
    rw [h2 sched hs, List.take_left']
    rw [List.length_zipWith, e1, e2, min_self]

/-- hypotheses of C21 for two generators -/
example : ∃ (g : List (Proj Fq)) (As : ℕ → Pt ((ec0.b : ℕ) : Fq)), g.length = 2 * 1 ∧
    ∀ i, (h : i < g.length) → Denotes _ g[i] (As i) := by
  obtain ⟨A, hA, -⟩ := one_denotes (E := ec0) (F := Fq) (S := Fp)
  refine ⟨[Proj.one ec0, Proj.one ec0], fun _ => A, rfl, ?_⟩
  intro i h
  match i, h with
  | 0, _ => exact hA
  | 1, _ => exact hA

omit [DecidableEq F] [LawfulField F] in
/-- **C22**: for nonzero challenges, `compute_b` is the repeatedly folded vector of powers of `x`
and the vector of `compute_g_coeffs_for_inner_product` gives the repeatedly folded generator, in
every module.  `collapse` (in `Verif.Spec.Collapse`) is the folding. -/
theorem C22_folding_shortcuts (us : List F) (h0 : ∀ u ∈ us, u ≠ 0) :
    (us ≠ [] → ∀ x : F, computeB x us (us.map (·⁻¹)) = some (collapse us fun i => x ^ i)) ∧
    ∃ s : Array F, computeGCoeffs (us.map (· ^ 2)) (us.map (·⁻¹)).prod = some s ∧
      s.size = 2 ^ us.length ∧
      ∀ (G : Type) [AddCommGroup G] [Module F G] (g : ℕ → G),
        ∑ i ∈ Finset.range (2 ^ us.length), s.getD i 0 • g i = collapse us g := by
  refine ⟨fun h x => computeB_eq us x h, _, computeGCoeffs_eq us h0, by simp, ?_⟩
  intro G _ _ g
  rw [collapse_eq]
  apply Finset.sum_congr rfl
  intro i hi
  rw [Finset.mem_range] at hi
  simp [Mem.arr, hi]

/-- a concrete case: two rounds -/
example : collapse [(2 : ℚ), 3] (fun i => (5 : ℚ) ^ i) = (1 / 2 + 2 * 25) * (1 / 3 + 3 * 5) := by
  simp [collapse]; norm_num

/-- **C22, generators**: `compute_g_for_inner_product` returns the folded generator. -/
theorem C22_folded_generator [HaloCurve E F S] {cpus : ℕ} (hcpus : 0 < cpus) {lnCeil : ℕ → ℕ}
    (hln : ∀ n, 32 ≤ n → n < 2 ^ 32 → 1 ≤ lnCeil n ∧ lnCeil n ≤ 57)
    (us : List S) (h0 : ∀ u ∈ us, u ≠ 0) (hk : us.length < 32)
    (g : List (Proj F)) (hg : g.length = 2 ^ us.length) (As : ℕ → Pt (E.b : F))
    (hA : ∀ i, (h : i < g.length) → Denotes (E.b : F) g[i] (As i)) :
    letI := Proj.curveApi E F S
    letI := HaloCurve.module (E := E) (F := F) (S := S)
    ∃ P, computeG cpus lnCeil g (us.map (· ^ 2)) (us.map (·⁻¹)).prod = some P ∧
      Denotes (E.b : F) P (collapse us As) := by
  let := Proj.curveApi E F S
  let := HaloCurve.module (E := E) (F := F) (S := S)
  have L := HaloCurve.lawful (E := E) (F := F) (S := S)
  have hF : List.Forall₂ (Denotes (E.b : F)) g ((List.range (2 ^ us.length)).map As) := by
    rw [List.forall₂_iff_get]
    refine ⟨by simp [hg], fun i h1 h2 => ?_⟩
    simpa using hA i h1
  obtain ⟨P, h1, h2⟩ := multiexp_rep L hcpus hln
    (coeffs := (Mem.arr (2 ^ us.length) (sCoef us)).toList) (by simp [hg])
    (by rw [hg]; exact Nat.pow_lt_pow_right (by norm_num) hk) hF
  refine ⟨P, ?_, ?_⟩
  · unfold computeG
    rw [computeGCoeffs_eq us h0]
    exact h1
  · rw [collapse_eq]
    convert h2 using 1
    rw [arr_toList, ← List.map_uncurry_zip_eq_zipWith, List.zip_map', List.map_map]
    rw [Finset.sum_eq_multiset_sum, Finset.range_val, Multiset.range, Multiset.map_coe,
      Multiset.sum_coe]
    rfl

end Halo
