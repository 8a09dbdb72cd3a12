import Verif.Lemmas.Proofs.Honest
/-!
# An exact comparison of points

The comparison of the code takes the identity for equal to every point; the verification circuit compares
coordinates. The prover does not compare points.
-/
namespace Halo
/-- The operations of a curve, but with a comparison of points that compares their coordinates. -/
@[instance_reducible] def CurveOps.exact {C F S : Type} [Field F] [DecidableEq F] (ops : CurveOps C F S) :
    CurveOps C F S :=
  { ops with ctEq := fun p q => decide ((ops.getXy p).getD (0, 0) = (ops.getXy q).getD (0, 0)) }

namespace Proofs
open Circuit Util
section
variable {T C F S : Type} [Field F] [DecidableEq F] [FieldApi F] [Field S] [DecidableEq S] [FieldApi S]
  (ops : CurveOps C F S) (tr : Transcript T F) (fuel cpus : ℕ) (lnCeil : ℕ → ℕ)

theorem proveRounds_exact : @proveRounds T C F S _ _ _ _ _ ops.exact tr fuel cpus lnCeil =
    @proveRounds T C F S _ _ _ _ _ ops tr fuel cpus lnCeil := by
  funext k
  induction k with
  | zero => rfl
  | succ k ih =>
    funext ab gens t
    simp only [proveRounds, ih]
    rfl

theorem newProof_exact (instances : List (PolynomialOpening C S × List S)) (gens : List C) (k : ℕ) (t : T) :
    @MultiPolynomialOpening.newProof T C F S _ _ _ _ _ ops.exact tr fuel cpus lnCeil instances gens k t =
    @MultiPolynomialOpening.newProof T C F S _ _ _ _ _ ops tr fuel cpus lnCeil instances gens k t := by
  unfold MultiPolynomialOpening.newProof
  rw [proveRounds_exact]

theorem new_exact {α : Type} (params : Params C) (circuit : Var → Prog S α) (old : Leftovers C S) :
    @Proof.new T C F S _ _ _ _ _ ops.exact tr fuel cpus lnCeil α params circuit old =
    @Proof.new T C F S _ _ _ _ _ ops tr fuel cpus lnCeil α params circuit old := by
  unfold Proof.new
  simp only [newProof_exact]
  rfl

end

variable {E : CurveConsts} {F : Type} [Field F] [DecidableEq F] [LawfulField F]
  {S : Type} [Field S] [DecidableEq S] [LawfulField S]

omit [DecidableEq S] in
theorem HaloCurve.exactOps [h : HaloCurve E F S] :
    letI := (Proj.curveOps E F S).exact
    letI := HaloCurve.module (E := E) (F := F) (S := S)
    ReflOps (Proj F) F S (Pt (E.b : F)) (Denotes (E.b : F)) := by
  let := HaloCurve.module (E := E) (F := F) (S := S)
  have L := HaloCurve.lawfulOps (E := E) (F := F) (S := S)
  let := (Proj.curveOps E F S).exact
  exact
    { @LawfulOps.toReflOps _ _ _ _ (Proj.curveOps E F S) _ _ _ _ _ L with
      ctEq_of_eq := fun h1 h2 => decide_eq_true
        ((@ReflOps.getXy _ _ _ _ (Proj.curveOps E F S) _ _ _ _ _ (@LawfulOps.toReflOps _ _ _ _ (Proj.curveOps E F S) _ _ _ _ _ L) _ _ _ _ h1 h2).2 rfl) }

omit [DecidableEq S] in
theorem exact_iff [HaloCurve E F S] {p q : Proj F} {A B : Pt (E.b : F)} (hp : Denotes (E.b : F) p A)
    (hq : Denotes (E.b : F) q B) : (Proj.curveOps E F S).exact.ctEq p q = true ↔ A = B := by
  let := HaloCurve.module (E := E) (F := F) (S := S)
  let := Proj.curveOps E F S
  have L := HaloCurve.lawfulOps (E := E) (F := F) (S := S)
  exact decide_eq_true_iff.trans (L.getXy hp hq)

omit [DecidableEq F] in
/-- A prover that returns has run the circuit without values. -/
theorem new_system_blank {T C α : Type} [CurveOps C F S] {tr : Transcript T F} {fuel cpus : ℕ} {lnCeil : ℕ → ℕ}
    {params : Params C} {circuit : Var → Prog S α} {old : Leftovers C S} {r : Proof C S × Leftovers C S}
    (h : Proof.new tr fuel cpus lnCeil params circuit old = .ok r) :
    ∃ a s, circuitSystem false circuit = .ok (a, s) := by
  unfold Proof.new at h
  simp only [bind_eq_ok, ite_panic_eq_ok, Except.bind_error] at h
  obtain ⟨_, -, -, -, _, hsx, -⟩ := h
  obtain ⟨a, s, h, -⟩ := computeSx_ok hsx
  exact ⟨a, s, h⟩

omit [DecidableEq F] in
/-- A prover that returns has run the circuit. -/
theorem new_system {T C α : Type} [CurveOps C F S] {tr : Transcript T F} {fuel cpus : ℕ} {lnCeil : ℕ → ℕ}
    {params : Params C} {circuit : Var → Prog S α} {old : Leftovers C S} {r : Proof C S × Leftovers C S}
    (h : Proof.new tr fuel cpus lnCeil params circuit old = .ok r) :
    ∃ a s, circuitSystem true circuit = .ok (a, s) := by
  unfold Proof.new at h
  simp only [bind_eq_ok] at h
  obtain ⟨⟨a1, drv⟩, hsyn, -⟩ := h
  obtain ⟨s', hs', -⟩ := sim_prover.synthesize_ok (by exact ⟨.empty, rfl, rfl, rfl, rfl, rfl, rfl, rfl⟩) hsyn
  exact ⟨_, s', hs'⟩

omit [DecidableEq F] in
/-- A prover that returns has run a circuit that is small enough. -/
theorem new_fits {T C α : Type} [CurveOps C F S] {tr : Transcript T F} {fuel cpus : ℕ} {lnCeil : ℕ → ℕ}
    {params : Params C} {circuit : Var → Prog S α} {old : Leftovers C S} {r : Proof C S × Leftovers C S}
    (h : Proof.new tr fuel cpus lnCeil params circuit old = .ok r) :
    ∃ a s, circuitSystem true circuit = .ok (a, s) ∧ s.gates < params.n ∧ s.lcs.length < params.d := by
  unfold Proof.new at h
  simp only [bind_eq_ok, ite_panic_eq_ok, Except.bind_error, not_not] at h
  obtain ⟨⟨a1, drv⟩, hsyn, hn, hd, -⟩ := h
  obtain ⟨s', hs', hr⟩ := sim_prover.synthesize_ok (by exact ⟨.empty, rfl, rfl, rfl, rfl, rfl, rfl, rfl⟩) hsyn
  exact ⟨_, s', hs', by rw [← hr.bn]; exact hn, by rw [← hr.bq]; exact hd⟩

end Proofs
end Halo
