import Verif.Spec.Size
import Verif.Props.Honest
import Verif.Props.RecursionHonest
/-!
# How large proofs are (C88)
-/
namespace Halo
namespace Proofs
open Util Circuit
variable {T C F S : Type} [Field F] [FieldApi F] [Field S] [DecidableEq S] [FieldApi S] [CurveOps C F S]
  {tr : Transcript T F} {fuel cpus : ℕ} {lnCeil : ℕ → ℕ}

theorem mapM_length {α β : Type} {f : α → Option β} {l : List α} {r : List β} (h : l.mapM f = some r) :
    r.length = l.length := (mapM_some_iff.1 h).length_eq.symm

/-- The sizes of the rounds of the prover -/
theorem proveRounds_sizes : ∀ {k : ℕ} {ab : List (List S × List S)} {gens : List C} {t : T} {rounds packed ab' gens' t'},
    proveRounds tr fuel cpus lnCeil k ab gens t = some (rounds, packed, ab', gens', t') →
    rounds.length = k ∧ packed.length = k ∧ ab'.length = ab.length ∧ ∀ r ∈ rounds, r.L.length = ab.length ∧
      r.R.length = ab.length ∧ r.l.length = ab.length ∧ r.r.length = ab.length
  | 0, ab, gens, t, rounds, packed, ab', gens', t', h => by
    simp only [proveRounds, Option.some.injEq, Prod.mk.injEq] at h
    obtain ⟨rfl, rfl, rfl, -, -⟩ := h
    simp
  | k + 1, ab, gens, t, rounds, packed, ab', gens', t', h => by
    simp only [proveRounds, Option.bind_eq_bind, Option.bind_eq_some_iff, Option.some.injEq, Prod.mk.injEq] at h
    obtain ⟨es, hes, ⟨ch, t1⟩, -, g1, -, ⟨rounds1, packed1, ab1, gens1, t2⟩, hr, rfl, rfl, rfl, -, -⟩ := h
    obtain ⟨h1, h2, h3, h4⟩ := proveRounds_sizes hr
    rw [List.length_map] at h3 h4
    have he := mapM_length hes
    refine ⟨by simp [h1], by simp [h2], h3, fun r hr => ?_⟩
    rcases List.mem_cons.1 hr with rfl | hr
    · simp [he]
    · exact h4 r hr

/-- The sizes of what the prover of openings returns -/
theorem newProof_sizes {instances : List (PolynomialOpening C S × List S)} {gens : List C} {k : ℕ} {t t' : T}
    {o : MultiPolynomialOpening C S} {packed : List S} {g : C}
    (h : MultiPolynomialOpening.newProof tr fuel cpus lnCeil instances gens k t = some (o, packed, g, t')) :
    o.points.length = 2 * instances.length * k + 1 ∧ o.scalars.length = 2 * instances.length * k + instances.length ∧
      packed.length = k := by
  simp only [MultiPolynomialOpening.newProof, Option.bind_eq_bind, Option.bind_eq_some_iff, Option.some.injEq,
    Prod.mk.injEq] at h
  obtain ⟨ab, hab, ⟨rounds, packed1, ab1, gens1, t1⟩, hr, a, ha, g1, -, rfl, rfl, -, -⟩ := h
  obtain ⟨h1, h2, h3, h4⟩ := proveRounds_sizes hr
  have e := mapM_length hab
  have e' := mapM_length ha
  rw [e] at h3 h4
  have key : ∀ {β : Type} (f : InnerProductRound C S → List β) (l : List (InnerProductRound C S)) (m : ℕ),
      (∀ r ∈ l, (f r).length = m) → (l.flatMap f).length = m * l.length := by
    intro β f l m
    induction l with
    | nil => simp
    | cons r l ih =>
      intro hl
      rw [List.flatMap_cons, List.length_append, ih fun r hr => hl r (List.mem_cons_of_mem _ hr),
        hl r (List.mem_cons_self ..), List.length_cons]
      ring
  refine ⟨?_, ?_, h2⟩
  · rw [MultiPolynomialOpening.points, List.length_append, key _ _ (2 * instances.length), h1]
    · rfl
    · intro r hr
      obtain ⟨a, b, -, -⟩ := h4 r hr
      rw [List.length_append, a, b]
      ring
  · rw [MultiPolynomialOpening.scalars, List.length_append, key _ _ (2 * instances.length), h1]
    · exact congrArg _ (e'.trans h3)
    · intro r hr
      obtain ⟨-, -, a, b⟩ := h4 r hr
      rw [List.length_append, a, b]
      ring

/-- **C88**, proofs: whatever circuit it proves, with whatever parameters and old leftovers, and on whatever machine, the
prover returns `10 k + 7` points and `10 k + 12` scalars, and leftovers of two points and `k + 1` scalars. Nothing of
this depends on the circuit, on the number of its public inputs, or on the old leftovers. -/
theorem C88_proof {α : Type} {params : Params C} {circuit : Var → Prog S α} {old new : Leftovers C S} {π : Proof C S}
    (h : Proof.new tr fuel cpus lnCeil params circuit old = .ok (π, new)) :
    π.points.length = 10 * params.k + 7 ∧ π.scalars.length = 10 * params.k + 12 ∧ new.points.length = 2 ∧
      new.scalars.length = params.k + 1 := by
  unfold Proof.new at h
  simp only [bind_eq_ok, ite_panic_eq_ok, ofOption_eq_ok, Except.bind_error, Except.ok.injEq, Prod.mk.injEq] at h
  obtain ⟨_, -, -, -, _, -, _, -, _, -, _, -, _, -, _, -, _, -, _, -, _, -, _, -, -, _, -, _, -, -, _, -, _, -, _, -, _, -,
    _, -, _, -, _, -, _, -, -, _, -, _, -, _, -, _, -, _, -, _, -, _, -, _, -, _, -, -, _, -, -, -, ⟨o, packed, g, t⟩, ho,
    rfl, rfl⟩ := h
  obtain ⟨h1, h2, h3⟩ := newProof_sizes ho
  simp only [List.length_cons, List.length_nil] at h1 h2
  refine ⟨?_, ?_, rfl, ?_⟩
  · simp only [Proof.points, List.length_append, h1, List.length_cons, List.length_nil]
    omega
  · simp only [Proof.scalars, List.length_append, h2, List.length_cons, List.length_nil]
    omega
  · simp only [Leftovers.scalars, List.length_cons, h3]

/-- The prover returns a proof for the circuit that knows a cube root of 27, and the verifier accepts it. -/
theorem cube_example : ∃ (params : Params (Proj Fq)) (old : Leftovers (Proj Fq) Fp),
    letI := Proj.curveOps ec0 Fq Fp
    params.k = 5 ∧ ∃ proof new, Proof.new (constTranscript Fq) 1 4 (fun _ => 3) params (cubeCircuit (3 : Fp)) old =
      .ok (proof, new) ∧ ∃ d forks, proof.verify (constTranscript Fq) 4 (fun _ => 3) old params (cubeCircuit (3 : Fp)) [27]
        none = .ok (true, new, d, forks) := by
  obtain ⟨params, g, hp, hk, -⟩ := params_example (E := ec0) (F := Fq) (S := Fp) (k := 5) (by norm_num)
    (by norm_num)
  let := Proj.curveOps ec0 Fq Fp
  let := HaloCurve.module (E := ec0) (F := Fq) (S := Fp)
  have h2 := cube_shape false (3 : Fp)
  have hsat : isSatisfied (cubeCircuit (3 : Fp)) [27] = .ok true := by
    have := cube_satisfied (3 : Fp)
    norm_num at this
    exact this
  have hn : 4 < params.n := by rw [hp.n_eq, hk]; norm_num
  have hd : (cubeLcs Fp).length < params.d := by rw [hp.d_eq, hk]; simp [cubeLcs]
  have hget : ∀ t, ∃ r, getChallenge Fp (constTranscript Fq) t = some r := fun t => by
    obtain ⟨c, h, -⟩ := getChallenge_const (E := ec0) (F := Fq) (S := Fp)
    exact ⟨_, h⟩
  obtain ⟨a, s, e1, -, -, -, e5⟩ := id h2
  obtain ⟨old, -, -, hold, -⟩ := C45_leftovers_dummy (E := ec0) (S := Fp) (cpus := 4) (by norm_num)
    (lnCeil := fun _ => 3) (by simp) hp (computeSx_of params.n (0 : Fp) e1 e5).1
  obtain ⟨proof, new, h⟩ := C44_prover_returns (E := ec0) (constTranscript Fq) (by norm_num) hget
    (squareChallenge_const (E := ec0)) (cpus := 4) (by norm_num) (lnCeil := fun _ => 3) (by simp) hp
    (cube_shape true (3 : Fp)) h2 hn hd hsat hold
  obtain ⟨d, forks, hv, -⟩ := C44_honest_proof_verifies (E := ec0) (constTranscript Fq) (by norm_num) (by norm_num)
    (cpus' := 4) (by norm_num) (by simp) (lnCeil' := fun _ => 3) (by simp) hp (cube_shape true (3 : Fp)) h2 h2 hsat hold h
    (kCommitment := none) nofun
  exact ⟨params, old, hk, proof, new, h, d, forks, hv⟩

/-- The honest prover returns such proofs, here for the circuit that knows a cube root of 27, with 32 generators. -/
example : ∃ (params : Params (Proj Fq)) (old new : Leftovers (Proj Fq) Fp) (π : Proof (Proj Fq) Fp),
    letI := Proj.curveOps ec0 Fq Fp
    params.k = 5 ∧ Proof.new (constTranscript Fq) 1 4 (fun _ => 3) params (cubeCircuit (3 : Fp)) old = .ok (π, new) ∧
      π.points.length = 57 ∧ π.scalars.length = 62 := by
  let := Proj.curveOps ec0 Fq Fp
  obtain ⟨params, old, hk, π, new, h, -⟩ := cube_example
  obtain ⟨h1, h2, -, -⟩ := C88_proof h
  exact ⟨params, old, new, π, hk, h, by rw [h1, hk], by rw [h2, hk]⟩

theorem verifyRounds_sizes : ∀ {rounds : List (InnerProductRound C S)} {pv pv' : List (C × S)} {t t' : T}
    {chs : List (Challenge S)}, verifyRounds tr rounds pv t = some (pv', chs, t') → chs.length = rounds.length
  | [], pv, pv', t, t', chs, h => by
    simp only [verifyRounds, Option.some.injEq, Prod.mk.injEq] at h
    simp [← h.2.1]
  | r :: rounds, pv, pv', t, t', chs, h => by
    simp only [verifyRounds, Option.bind_eq_bind, Option.bind_eq_some_iff, Option.some.injEq, Prod.mk.injEq] at h
    obtain ⟨es, -, ⟨ch, t1⟩, -, ⟨pv1, chs1, t2⟩, hr, -, rfl, -⟩ := h
    simp [verifyRounds_sizes hr]

theorem verifyProof_sizes {o : MultiPolynomialOpening C S} {instances : List (PolynomialOpening C S)} {k : ℕ} {t t' : T}
    {b : Bool} {packed : List S} {g : C} {forks : List ℕ}
    (h : o.verifyProof tr instances k t = some (b, packed, g, forks, t')) : packed.length = k := by
  unfold MultiPolynomialOpening.verifyProof at h
  split at h
  · simp at h
  rename_i hk
  simp only [Option.bind_eq_bind, Option.bind_eq_some_iff, Option.some.injEq, Prod.mk.injEq] at h
  obtain ⟨⟨pv, chs, t1⟩, hr, _, -, -, rfl, -⟩ := h
  rw [List.length_map, verifyRounds_sizes hr]
  exact not_not.1 hk

/-- The sizes of what the verifier computes -/
theorem verify_sizes {α : Type} {params : Params C} {circuit : Var → Prog S α} {old new : Leftovers C S} {π : Proof C S}
    {inputs : List S} {K : Option C} {b : Bool} {d : Deferred S} {forks : List ℕ}
    (h : π.verify tr cpus lnCeil old params circuit inputs K = .ok (b, new, d, forks)) :
    new.challengesSqPackedNew.length = params.k ∧ d.challengesSqPackedNew.length = params.k ∧
      d.challengesSqPackedOld = old.challengesSqPackedNew := by
  have H : ∃ instances t, ∃ (packed : List S) (r : Bool) (g : C) (fs : List ℕ) (t' : T),
      π.innerProduct.verifyProof tr instances params.k t = some (r, packed, g, fs, t') ∧
      new.challengesSqPackedNew = packed ∧ d.challengesSqPackedNew = packed ∧
      d.challengesSqPackedOld = old.challengesSqPackedNew := by
    unfold Proof.verify at h
    cases K with
    | none =>
      simp only [bind_eq_ok, ite_panic_eq_ok, ofOption_eq_ok, Except.bind_error, Except.ok.injEq, Prod.mk.injEq] at h
      obtain ⟨_, -, -, _, -, _, -, _, -, _, -, _, -, _, -, _, -, _, -, ⟨_, packed, g, fs, t⟩, ho, _, -, _, -, _, -, _, -,
        _, -, _, -, -, rfl, rfl, -⟩ := h
      exact ⟨_, _, _, _, _, _, _, ho, rfl, rfl, rfl⟩
    | some K =>
      simp only [bind_eq_ok, ite_panic_eq_ok, ofOption_eq_ok, Except.bind_error, Except.ok.injEq, Prod.mk.injEq] at h
      obtain ⟨_, -, -, _, -, _, -, _, -, _, -, _, -, _, -, _, -, _, -, ⟨_, packed, g, fs, t⟩, ho, _, -, _, -, _, -, _, -,
        _, -, _, -, -, rfl, rfl, -⟩ := h
      exact ⟨_, _, _, _, _, _, _, ho, rfl, rfl, rfl⟩
  obtain ⟨_, _, packed, _, _, _, _, ho, e1, e2, e3⟩ := H
  rw [e1, e2]
  exact ⟨verifyProof_sizes ho, verifyProof_sizes ho, e3⟩

omit [Field F] [FieldApi F] [DecidableEq S] in
/-- Leftovers that the check does not panic on -/
theorem leftovers_sizes {α : Type} {params : Params C} {circuit : Var → Prog S α} {l : Leftovers C S} {b : Bool}
    (h : l.verify cpus lnCeil params circuit = .ok b) : l.challengesSqPackedNew.length = params.k := by
  unfold Leftovers.verify at h
  simp only [bind_eq_ok] at h
  obtain ⟨_, -, _, -, h⟩ := h
  by_contra hne
  rw [if_pos hne] at h
  cases h

omit [Field F] [FieldApi F] in
theorem dummy_sizes {params : Params C} {l : Leftovers C S} (h : Leftovers.dummy cpus lnCeil params = some l) :
    l.challengesSqPackedNew.length = params.k := by
  simp only [Leftovers.dummy, Option.bind_eq_bind, Option.bind_eq_some_iff, Option.some.injEq] at h
  obtain ⟨_, -, _, -, rfl⟩ := h
  simp

omit [Field F] [FieldApi F] [CurveOps C F S] in
theorem dummyDeferred_sizes {k : ℕ} {d : Deferred S} (h : Deferred.dummy S k = some d) :
    d.challengesSqPackedOld.length = k ∧ d.challengesSqPackedNew.length = k := by
  simp only [Deferred.dummy, Option.bind_eq_bind, Option.bind_eq_some_iff, Option.some.injEq] at h
  obtain ⟨_, -, _, -, rfl⟩ := h
  simp

end Proofs

namespace Recursion
open Circuit Proofs
variable {E1 E2 : CurveConsts} {B S : Type} [Field B] [DecidableEq B] [LawfulField B] [Field S] [DecidableEq S]
  [LawfulField S]

/-- How large recursive proofs are, with `k` and `k'` rounds on the two curves and so many bytes of payload -/
def fixedSize (k k' bytes : ℕ) : Size where
  points := 10 * k + 9
  scalars := 11 * k + 13
  otherPoints := 2
  otherScalars := 3 * k' + 17
  bytes := bytes

/-- **C88**, one step, from any old proof whatsoever, accepted or not: the size of the new proof is given by the
parameters and the payload, except that it keeps the challenges of the old proof's first leftovers, which the code does
not count. -/
theorem C88_step {fuel cpus : ℕ} {lnCeil : ℕ → ℕ} {params1 : Params (Proj B)} {params2 : Params (Proj S)}
    {old : Option (RecursiveProof S B)} {i1 : RecursiveCircuit S} {i2 : RecursiveCircuit B} {payload : List (BitVec 8)}
    {p : RecursiveProof B S}
    (h : RecursiveProof.createProof E1 E2 cpus lnCeil fuel params1 params2 old i1 i2 payload = .ok p)
    (hold : ∀ q ∈ old, q.oldproof1.challengesSqPackedNew.length = params2.k) :
    p.size = fixedSize params1.k params2.k payload.length ∧ p.oldproof1.challengesSqPackedNew.length = params1.k := by
  let := Proj.curveOps E1 B S
  let := Proj.curveOps E2 S B
  unfold RecursiveProof.createProof at h
  simp only [bind_eq_ok, Except.ok.injEq] at h
  obtain ⟨v, hv, ⟨π, l⟩, hπ, rfl⟩ := h
  obtain ⟨h1, h2, -, -⟩ := C88_proof hπ
  have key : v.leftovers2.challengesSqPackedNew.length = params1.k ∧ v.leftovers1.challengesSqPackedNew.length = params2.k ∧
      v.deferred.challengesSqPackedOld.length = params2.k ∧ v.deferred.challengesSqPackedNew.length = params2.k := by
    unfold carried at hv
    cases old with
    | none =>
      simp only [bind_eq_ok, ofOption_eq_ok, Except.ok.injEq] at hv
      obtain ⟨d, hd, l1, hl1, l2, hl2, rfl⟩ := hv
      exact ⟨dummy_sizes hl2, dummy_sizes hl1, dummyDeferred_sizes hd⟩
    | some q =>
      simp only [RecursiveProof.verifyInner, bind_eq_ok, ofOption_eq_ok, ite_panic_eq_ok, Except.bind_error,
        Except.ok.injEq] at hv
      obtain ⟨-, K, -, ⟨sat, l, d, f⟩, hver, w2, hw2, rfl⟩ := hv
      obtain ⟨a, b, c⟩ := verify_sizes hver
      exact ⟨leftovers_sizes hw2, a, by rw [c]; exact hold q rfl, b⟩
  obtain ⟨k1, k2, k3, k4⟩ := key
  refine ⟨?_, k1⟩
  simp only [RecursiveProof.size, fixedSize, Size.mk.injEq, h1, h2, Leftovers.points, Leftovers.scalars, Deferred.scalars,
    List.length_cons, List.length_nil, List.length_append, k1, k2, k3, k4, and_true]
  exact ⟨trivial, by omega, trivial, by omega⟩

/-- **C88**, histories: every recursive proof, after however many steps, for whatever circuits, has the same size, which
depends only on the parameters and the number of bytes of its payload. -/
theorem C88_history {s : Setup E1 E2 B S} {x : RecursiveProof B S ⊕ RecursiveProof S B} (h : Made s x) :
    (∀ p, x = .inl p → p.size = fixedSize s.params1.k s.params2.k p.payload.length) ∧
      ∀ q, x = .inr q → q.size = fixedSize s.params2.k s.params1.k q.payload.length := by
  suffices H : (∀ p, x = .inl p → p.size = fixedSize s.params1.k s.params2.k p.payload.length ∧
        p.oldproof1.challengesSqPackedNew.length = s.params1.k) ∧
      ∀ q, x = .inr q → q.size = fixedSize s.params2.k s.params1.k q.payload.length ∧
        q.oldproof1.challengesSqPackedNew.length = s.params2.k from
    ⟨fun p hp => (H.1 p hp).1, fun q hq => (H.2 q hq).1⟩
  induction h with
  | first he h1 h2 hp hold h ih =>
    refine ⟨?_, nofun⟩
    rintro p ⟨⟩
    obtain ⟨a, b⟩ := C88_step h fun q hq => ((ih q hq).2 q rfl).2
    exact ⟨by rw [a]; exact congrArg _ (congrArg Size.bytes a).symm, b⟩
  | second he h1 h2 hp hold h ih =>
    refine ⟨nofun, ?_⟩
    rintro p ⟨⟩
    obtain ⟨a, b⟩ := C88_step h fun q hq => ((ih q hq).1 q rfl).2
    exact ⟨by rw [a]; exact congrArg _ (congrArg Size.bytes a).symm, b⟩

/-- With the parameters of the examples in the code, `k = 22`, and the payload of `examples/bitcoin.rs`, 116 bytes, every
proof has 229 points and 255 scalars of its curve, and 2 points and 83 scalars of the other one. -/
example {s : Setup E1 E2 B S} (h1 : s.params1.k = 22) (h2 : s.params2.k = 22) {p : RecursiveProof B S} (hp : p.payload.length = 116)
    (h : Made s (.inl p)) : p.size = ⟨229, 255, 2, 83, 116⟩ := by
  rw [(C88_history h).1 p rfl, h1, h2, hp]
  rfl

/-- There is a setup for the curves of the code with `k = 22`, and a step returns unless it is out of luck (C76). -/
example : ∃ s : Setup ec0 ec1 Fq Fp, s.Good ∧ s.params1.k = 22 ∧ s.user1 firstBit ∧ s.user2 firstBit ∧ s.admitted [1#8] := by
  obtain ⟨s, hs, hk, h1, h2, h3, -⟩ := setup_example (E1 := ec0) (E2 := ec1) (B := Fq) (S := Fp) (k := 22) (by norm_num)
    (by norm_num)
  exact ⟨s, hs, hk, h1, h2, (h3 _).2 rfl⟩

end Recursion
end Halo
