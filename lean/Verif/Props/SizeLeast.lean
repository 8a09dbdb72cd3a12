import Verif.Props.SizeAny
/-!
# How small an accepted proof can be (C88)
-/
namespace Halo
namespace Proofs
open Util Circuit
variable {T C F S : Type} [Field F] [FieldApi F] [Field S] [DecidableEq S] [FieldApi S] [CurveOps C F S]
  {tr : Transcript T F} {cpus : ℕ} {lnCeil : ℕ → ℕ}

theorem verifyRounds_entries : ∀ {rounds : List (InnerProductRound C S)} {pv : List (C × S)} {t : T} {r},
    verifyRounds tr rounds pv t = some r → ∀ r ∈ rounds, pv.length ≤ r.L.length ∧ pv.length ≤ r.R.length ∧
      pv.length ≤ r.l.length ∧ pv.length ≤ r.r.length
  | [], pv, t, r, h => nofun
  | r :: rounds, pv, t, x, h => by
    simp only [verifyRounds, Option.bind_eq_bind, Option.bind_eq_some_iff] at h
    obtain ⟨es, hes, ⟨ch, t1⟩, -, ⟨pv1, chs1, t2⟩, hr, -⟩ := h
    have ih := verifyRounds_entries hr
    rw [List.length_zipWith, (entries_get hes).1, min_self] at ih
    intro r' hr'
    rcases List.mem_cons.1 hr' with rfl | hr'
    · unfold InnerProductRound.entries at hes
      by_contra hne
      rw [if_neg hne] at hes
      cases hes
    · exact ih r' hr'

omit [Field F] [FieldApi F] [FieldApi S] in
theorem checkFinal_least {g : C} {chs invs : List S} : ∀ {points : List S} {pv : List (C × S)} {as : List S},
    checkFinal g chs invs points pv as = some true → points.length ≤ as.length
  | [], _, _, _ => Nat.zero_le _
  | point :: points, [], as, h => by simp [checkFinal] at h
  | point :: points, (p, v) :: pv, [], h => by simp [checkFinal] at h
  | point :: points, (p, v) :: pv, a :: as, h => by
    simp only [checkFinal, Option.bind_eq_bind, Option.bind_eq_some_iff] at h
    obtain ⟨b, -, h⟩ := h
    split at h
    · cases h
    split at h
    · cases h
    simpa using checkFinal_least h

/-- An accepted opening proof is not smaller than an honest one. -/
theorem verifyProof_least {o : MultiPolynomialOpening C S} {instances : List (PolynomialOpening C S)} {k : ℕ} {t : T} {x}
    (h : o.verifyProof tr instances k t = some (true, x)) :
    2 * instances.length * k + 1 ≤ o.points.length ∧
      2 * instances.length * k + instances.length ≤ o.scalars.length := by
  unfold MultiPolynomialOpening.verifyProof at h
  split at h
  · simp at h
  rename_i hk
  obtain rfl := not_not.1 hk
  simp only [Option.bind_eq_bind, Option.bind_eq_some_iff, Option.some.injEq, Prod.mk.injEq] at h
  obtain ⟨⟨pv, chs, t1⟩, hr, _, hf, rfl, -⟩ := h
  have h1 := verifyRounds_entries hr
  have h2 := checkFinal_least hf
  rw [List.length_map] at h1 h2
  have key : ∀ {β : Type} (f : InnerProductRound C S → List β) (l : List (InnerProductRound C S)) (m : ℕ),
      (∀ r ∈ l, m ≤ (f r).length) → m * l.length ≤ (l.flatMap f).length := by
    intro β f l m
    induction l with
    | nil => simp
    | cons r l ih =>
      intro hl
      have i1 := ih fun r hr => hl r (List.mem_cons_of_mem _ hr)
      have i2 := hl r (List.mem_cons_self ..)
      rw [List.flatMap_cons, List.length_append, List.length_cons, Nat.mul_succ]
      omega
  constructor
  · rw [MultiPolynomialOpening.points, List.length_append]
    refine Nat.add_le_add (key _ _ _ fun r hr => ?_) le_rfl
    obtain ⟨a, b, -, -⟩ := h1 r hr
    rw [List.length_append]
    omega
  · rw [MultiPolynomialOpening.scalars, List.length_append]
    refine Nat.add_le_add (key _ _ _ fun r hr => ?_) h2
    obtain ⟨-, -, a, b⟩ := h1 r hr
    rw [List.length_append]
    omega

/-- **C88**, accepted proofs: no proof that the verifier accepts, whoever made it, is smaller than those of the prover. -/
theorem C88_least {α : Type} {params : Params C} {circuit : Var → Prog S α} {old : Leftovers C S} {π : Proof C S}
    {inputs : List S} {K : Option C} {x} (h : π.verify tr cpus lnCeil old params circuit inputs K = .ok (true, x)) :
    10 * params.k + 7 ≤ π.points.length ∧ 10 * params.k + 12 ≤ π.scalars.length := by
  obtain ⟨new, d, forks⟩ := x
  have H : ∃ (c1 c2 c3 c4 c5 : PolynomialOpening C S) (t : T) (x : _),
      π.innerProduct.verifyProof tr [c1, c2, c3, c4, c5] params.k t = some (true, x) := by
    unfold Proof.verify at h
    cases K with
    | none =>
      simp only [bind_eq_ok, ite_panic_eq_ok, ofOption_eq_ok, Except.bind_error, Except.ok.injEq, Prod.mk.injEq] at h
      obtain ⟨_, -, -, _, -, _, -, _, -, _, -, _, -, _, -, _, -, _, -, ⟨_, x⟩, ho, _, -, _, -, _, -, _, -, _, -, _, -, rfl,
        -⟩ := h
      exact ⟨_, _, _, _, _, _, _, ho⟩
    | some K =>
      simp only [bind_eq_ok, ite_panic_eq_ok, ofOption_eq_ok, Except.bind_error, Except.ok.injEq, Prod.mk.injEq] at h
      obtain ⟨_, -, -, _, -, _, -, _, -, _, -, _, -, _, -, _, -, _, -, ⟨_, x⟩, ho, _, -, _, -, _, -, _, -, _, -, _, -, rfl,
        -⟩ := h
      exact ⟨_, _, _, _, _, _, _, ho⟩
  obtain ⟨c1, c2, c3, c4, c5, t, x, ho⟩ := H
  obtain ⟨h1, h2⟩ := verifyProof_least ho
  simp only [List.length_cons, List.length_nil] at h1 h2
  simp only [Proof.points, Proof.scalars, List.length_append, List.length_cons, List.length_nil]
  omega

/-- There are accepted proofs. -/
example : ∃ (params : Params (Proj Fq)) (old : Leftovers (Proj Fq) Fp) (π : Proof (Proj Fq) Fp),
    letI := Proj.curveOps ec0 Fq Fp
    ∃ x, π.verify (constTranscript Fq) 4 (fun _ => 3) old params (cubeCircuit (3 : Fp)) [27] none = .ok (true, x) := by
  obtain ⟨params, old, -, π, new, -, d, forks, h⟩ := cube_example
  exact ⟨params, old, π, _, h⟩

end Proofs

namespace Recursion
open Circuit Proofs
variable {E1 E2 : CurveConsts} {B S : Type} [Field B] [DecidableEq B] [LawfulField B] [Field S] [DecidableEq S]
  [LawfulField S] [HaloCurve E1 B S] [HaloCurve E2 S B] {s : Setup E1 E2 B S}

/-- **C88**, accepted recursive proofs: no recursive proof that the verifier accepts, whoever made it, has fewer points of
either curve, or fewer scalars, those of both curves taken together, than those that `create_proof` makes. -/
theorem C88_least_recursive (hs : s.Good) {i1 : RecursiveCircuit S} {i2 : RecursiveCircuit B} (h1 : s.user1 i1)
    {cpus : ℕ} {lnCeil : ℕ → ℕ} {p : RecursiveProof B S} (hp : s.admitted p.payload)
    (h : p.verify E1 E2 cpus lnCeil s.params1 s.params2 i1 i2 = .ok true) :
    (fixedSize s.params1.k s.params1.k p.payload.length).points ≤ p.size.points ∧
    (fixedSize s.params1.k s.params1.k p.payload.length).otherPoints = p.size.otherPoints ∧
    (fixedSize s.params1.k s.params1.k p.payload.length).scalars +
      (fixedSize s.params1.k s.params1.k p.payload.length).otherScalars ≤ p.size.scalars + p.size.otherScalars := by
  let := Proj.curveOps E1 B S
  let := Proj.curveOps E2 S B
  unfold RecursiveProof.verify at h
  simp only [bind_eq_ok, ofOption_eq_ok, Except.ok.injEq, Bool.and_eq_true] at h
  obtain ⟨v, hv, d1, -, d2, -, a, -, b, -, ⟨⟨⟨hw, -⟩, -⟩, rfl⟩, rfl⟩ := h
  unfold RecursiveProof.verifyInner at hv
  simp only [bind_eq_ok, ofOption_eq_ok, ite_panic_eq_ok, Except.bind_error, Except.ok.injEq] at hv
  obtain ⟨-, K, -, ⟨sat, l, d, f⟩, hver, w2, -, rfl⟩ := hv
  simp only [Bool.and_eq_true] at hw
  obtain ⟨rfl, -⟩ := hw
  obtain ⟨n1, n2⟩ := C88_least hver
  obtain ⟨gates, lcs, hshape⟩ := blank_shape hs h1 hp
  have hin := verify_inputs hshape hver
  rw [List.length_map, inputBits_length hs hp] at hin
  simp only [RecursiveProof.size, fixedSize, Leftovers.points, Leftovers.scalars, Deferred.scalars, List.length_cons,
    List.length_nil, List.length_append]
  refine ⟨by omega, trivial, by omega⟩

/-- A setup for the curves of the code, a circuit and a payload; by C60 the proofs of its histories are accepted. -/
example : ∃ s : Setup ec0 ec1 Fq Fp, s.Good ∧ s.user1 firstBit ∧ s.admitted [1#8] := by
  obtain ⟨s, hs, -, h1, -, h3, -⟩ := setup_example (E1 := ec0) (E2 := ec1) (B := Fq) (S := Fp) (k := 22) (by norm_num)
    (by norm_num)
  exact ⟨s, hs, h1, (h3 _).2 rfl⟩

end Recursion
end Halo
