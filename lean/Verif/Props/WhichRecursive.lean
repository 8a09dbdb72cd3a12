import Verif.Props.Which
import Verif.Props.CircuitSize
/-!
# Which circuit a recursive proof is for (C87)
-/
namespace Halo
namespace Recursion
open Circuit Proofs
variable {E1 E2 : CurveConsts} {B S : Type} [Field B] [DecidableEq B] [LawfulField B] [Field S] [DecidableEq S]
  [LawfulField S] [HaloCurve E1 B S] [HaloCurve E2 S B]

omit [HaloCurve E1 B S] [HaloCurve E2 S B] in
/-- What the verifier of recursive proofs has checked when it accepts -/
theorem accepted_parts {cpus : ℕ} {lnCeil : ℕ → ℕ} {params1 : Params (Proj B)} {params2 : Params (Proj S)}
    {i1 : RecursiveCircuit S} {i2 : RecursiveCircuit B} {p : RecursiveProof B S}
    (h : p.verify E1 E2 cpus lnCeil params1 params2 i1 i2 = .ok true) :
    letI := Proj.curveOps E1 B S
    letI := Proj.curveOps E2 S B
    ∃ v K sat, p.verifyInner E1 E2 cpus lnCeil params1 params2 i1 i2 = .ok v ∧
      inputCommitment E1 params1.generators (bytesBits (p.inputBytes E1 E2)) = some K ∧
      p.proof.verify Transcript.rescue cpus lnCeil p.oldproof1 params1
        ((blankCircuit params2 i1 p.payload : VerificationCircuit S B).synthesize E1 E2)
        ((bytesBits (p.inputBytes E1 E2)).map fun b => if b then 1 else 0) (some K) =
        .ok (sat, v.leftovers1, v.deferred, v.forkvalues) ∧
      v.leftovers1.verify cpus lnCeil params1
        ((blankCircuit params2 i1 p.payload : VerificationCircuit S B).synthesize E1 E2) = .ok true ∧
      p.oldproof2.verify cpus lnCeil params2
        ((blankCircuit params1 i2 p.payload : VerificationCircuit B S).synthesize E2 E1) = .ok true := by
  let := Proj.curveOps E1 B S
  let := Proj.curveOps E2 S B
  unfold RecursiveProof.verify at h
  simp only [bind_eq_ok, ofOption_eq_ok, Except.ok.injEq, Bool.and_eq_true] at h
  obtain ⟨v, hv, d1, -, d2, -, a, ha, b, hb, ⟨⟨⟨-, -⟩, -⟩, rfl⟩, rfl⟩ := h
  have hv0 := hv
  unfold RecursiveProof.verifyInner at hv
  simp only [bind_eq_ok, ofOption_eq_ok, ite_panic_eq_ok, Except.bind_error, Except.ok.injEq] at hv
  obtain ⟨-, K, hK, ⟨sat, l, d, f⟩, hver, w2, hw2, rfl⟩ := hv
  exact ⟨_, K, sat, hv0, hK, hver, ha, hb⟩

/-- What the verifier makes of a proof keeps two of its points. -/
theorem leftovers_points {T C F : Type} [Field F] [LawfulField F] {tr : Transcript T F} [CurveOps C F S] {cpus : ℕ} {lnCeil : ℕ → ℕ} {α : Type}
    {circuit : Var → Prog S α} {π : Proof C S} {old : Leftovers C S} {params : Params C} {inputs : List S} {K : C} {r}
    (h : π.verify tr cpus lnCeil old params circuit inputs (some K) = .ok r) :
    r.2.1.sNewCommitment = π.sNewCommitment ∧ r.2.1.gNew = π.innerProduct.g := by
  unfold Proof.verify at h
  simp only [bind_eq_ok, ofOption_eq_ok, ite_panic_eq_ok, Except.bind_error, Except.ok.injEq] at h
  obtain ⟨_, -, -, _, -, _, -, _, -, _, -, _, -, _, -, _, -, _, -, ⟨sat, packed, gN, fk, T5⟩, hip, h⟩ := h
  obtain ⟨_, -, _, -, _, -, _, -, _, -, _, -, rfl⟩ := h
  unfold MultiPolynomialOpening.verifyProof at hip
  split at hip
  case isTrue => simp at hip
  case isFalse =>
  simp only [Option.bind_eq_bind, Option.bind_eq_some_iff, Option.some.injEq, Prod.mk.injEq] at hip
  obtain ⟨_, -, _, -, -, -, rfl, -⟩ := hip
  exact ⟨rfl, rfl⟩

theorem exists_of_imp {α : Type} {n : ℕ} {D : Prop} {P : Finset α → Prop} (h : D → ∃ T : Finset α, T.card ≤ n ∧ P T) :
    ∃ T : Finset α, T.card ≤ n ∧ (D → P T) := by
  by_cases hd : D
  · obtain ⟨T, h1, h2⟩ := h hd
    exact ⟨T, h1, fun _ => h2⟩
  · exact ⟨∅, Nat.zero_le _, fun h => absurd h hd⟩

/-- **C87**, recursive proofs: take one payload and two pairs of user's circuits, such that the verification circuits they
become part of have room for their gates, and expose their public inputs in the same places. If one recursive proof is accepted
for both pairs, and the circuits of the first curve differ, then the `y` of the leftovers that the verifier computes is one of
a few, which depend on nothing but the circuits, or the commitments to the vectors of `s(X, y)` of the two circuits collide. The
same holds for the circuits of the second curve and the leftovers that the proof carries along. -/
theorem C87_recursive {params1 : Params (Proj B)} {params2 : Params (Proj S)} {g1 : ℕ → Pt (E1.b : B)} {g2 : ℕ → Pt (E2.b : S)}
    (hp1 : ValidParams (Denotes (E1.b : B)) g1 params1) (hp2 : ValidParams (Denotes (E2.b : S)) g2 params2)
    {payload : List (BitVec 8)} {i1 i1' : RecursiveCircuit S} {i2 i2' : RecursiveCircuit B}
    {gates1 gates1' gates2 gates2' : ℕ} {lcs1 lcs1' : List (LC S)} {lcs2 lcs2' : List (LC B)} {pos1 pos2 pos2' : List ℕ}
    (h1 : HasShape false ((blankCircuit params2 i1 payload : VerificationCircuit S B).synthesize E1 E2) gates1 lcs1 pos1)
    (h1' : HasShape false ((blankCircuit params2 i1' payload : VerificationCircuit S B).synthesize E1 E2) gates1' lcs1' pos1)
    (h2 : HasShape false ((blankCircuit params1 i2 payload : VerificationCircuit B S).synthesize E2 E1) gates2 lcs2 pos2)
    (h2' : HasShape false ((blankCircuit params1 i2' payload : VerificationCircuit B S).synthesize E2 E1) gates2' lcs2' pos2')
    (hn1 : gates1 ≤ params1.n) (hn1' : gates1' ≤ params1.n) (hn2 : gates2 ≤ params2.n) (hn2' : gates2' ≤ params2.n) :
    letI := HaloCurve.module (E := E1) (F := B) (S := S)
    letI := HaloCurve.module (E := E2) (F := S) (S := B)
    ∃ (T1 : Finset S) (T2 : Finset B), T1.card ≤ lcs1.length + lcs1'.length + max lcs1.length lcs1'.length + 1 ∧
      T2.card ≤ lcs2.length + lcs2'.length + max lcs2.length lcs2'.length + 1 ∧
      ∀ {cpus : ℕ} (_ : 0 < cpus) {lnCeil : ℕ → ℕ} (_ : ∀ n, 32 ≤ n → n < 2 ^ 32 → 1 ≤ lnCeil n ∧ lnCeil n ≤ 57)
        {p : RecursiveProof B S} (_ : p.payload = payload) (_ : OnCurve E1 p.proof.sNewCommitment)
        (_ : OnCurve E1 p.proof.innerProduct.g) (_ : OnCurve E2 p.oldproof2.sNewCommitment) (_ : OnCurve E2 p.oldproof2.gNew)
        {v : Inner B S} (_ : p.verifyInner E1 E2 cpus lnCeil params1 params2 i1 i2 = .ok v),
        p.verify E1 E2 cpus lnCeil params1 params2 i1 i2 = .ok true →
        p.verify E1 E2 cpus lnCeil params1 params2 i1' i2' = .ok true →
        (Differ lcs1 lcs1' → v.leftovers1.yNew ∈ T1 ∨ ∃ sx sx',
          computeSx params1.n ((blankCircuit params2 i1 payload : VerificationCircuit S B).synthesize E1 E2)
            v.leftovers1.yNew = .ok sx ∧
          computeSx params1.n ((blankCircuit params2 i1' payload : VerificationCircuit S B).synthesize E1 E2)
            v.leftovers1.yNew = .ok sx' ∧ Collide g1 sx sx') ∧
        (Differ lcs2 lcs2' → p.oldproof2.yNew ∈ T2 ∨ ∃ sx sx',
          computeSx params2.n ((blankCircuit params1 i2 payload : VerificationCircuit B S).synthesize E2 E1)
            p.oldproof2.yNew = .ok sx ∧
          computeSx params2.n ((blankCircuit params1 i2' payload : VerificationCircuit B S).synthesize E2 E1)
            p.oldproof2.yNew = .ok sx' ∧ Collide g2 sx sx') := by
  classical
  let := Proj.curveOps E1 B S
  let := Proj.curveOps E2 S B
  let := HaloCurve.module (E := E1) (F := B) (S := S)
  let := HaloCurve.module (E := E2) (F := S) (S := B)
  obtain ⟨T1, c1, t1⟩ := exists_of_imp fun hd : Differ lcs1 lcs1' => C87_leftovers (E := E1) (F := B) h1 h1' hn1 hn1' hd
  obtain ⟨T2, c2, t2⟩ := exists_of_imp fun hd : Differ lcs2 lcs2' => C87_leftovers (E := E2) (F := S) h2 h2' hn2 hn2' hd
  refine ⟨T1, T2, c1, c2, ?_⟩
  intro cpus hcpus lnCeil hln p hpay q1 q2 q3 q4 v hv ha ha'
  subst hpay
  obtain ⟨w, K, sat, e1, e2, e3, e4, e5⟩ := accepted_parts ha
  obtain ⟨w', K', sat', e1', e2', e3', e4', e5'⟩ := accepted_parts ha'
  obtain rfl : v = w := Except.ok.inj (hv.symm.trans e1)
  obtain rfl : K = K' := Option.some.inj (e2.symm.trans e2')
  have hsame := e3.symm.trans ((C87_verdict h1 h1' _ _ _ _ _).trans e3')
  simp only [Except.ok.injEq, Prod.mk.injEq] at hsame
  obtain ⟨-, hl, -⟩ := hsame
  rw [← hl] at e4'
  have hpts := leftovers_points e3
  refine ⟨fun hd => ?_, fun hd => ?_⟩
  · by_cases hT : v.leftovers1.yNew ∈ T1
    · exact .inl hT
    · exact .inr (t1 hd hcpus hln hp1 rfl (by rw [hpts.1]; exact q1) (by rw [hpts.2]; exact q2) hT e4 e4')
  · by_cases hT : p.oldproof2.yNew ∈ T2
    · exact .inl hT
    · exact .inr (t2 hd hcpus hln hp2 rfl q3 q4 hT e5 e5')
/-! Instances of the hypotheses: the circuit that wants the first bit of the payload to be one, and the one that wants it to be
zero. -/

/-- The user's circuit comes last: what is before it does not depend on it. -/
def Ends {F X : Type} (P P' : Prog F Unit) (K K' : X → Prog F Unit) : Prop :=
  ∃ p : Prog F X, P = p.bind K ∧ P' = p.bind K'

theorem Ends.bind {F X α : Type} {K K' : X → Prog F Unit} {a : Prog F α} {f f' : α → Prog F Unit}
    (h : ∀ x, Ends (f x) (f' x) K K') : Ends (a >>= f) (a >>= f') K K' := by
  choose p hp using h
  refine ⟨a.bind p, ?_, ?_⟩
  · rw [Prog.bind_assoc, Prog.bind_eq]
    congr 1
    exact funext fun x => (hp x).1
  · rw [Prog.bind_assoc, Prog.bind_eq]
    congr 1
    exact funext fun x => (hp x).2

theorem Ends.panic {F X : Type} {K K' : X → Prog F Unit} : Ends .panic .panic K K' := ⟨.panic, rfl, rfl⟩

theorem Ends.last {F X : Type} {K K' : X → Prog F Unit} (x : X) : Ends (K x) (K' x) K K' := ⟨.pure x, rfl, rfl⟩

omit [DecidableEq B] [LawfulField B] [DecidableEq S] [LawfulField S] [HaloCurve E1 B S] [HaloCurve E2 S B] in
theorem collect_bind {known : Bool} {α β : Type} (p : Prog S α) (f : α → Prog S β) : ∀ s : System S,
    collect known (p.bind f) s = (collect known p s).bind fun r => collect known (f r.1) r.2 := by
  induction p with
  | pure a => intro s; rfl
  | throw e => intro s; rfl
  | panic => intro s; rfl
  | alloc v k ih => intro s; cases known <;> cases v <;> first | rfl | exact ih _ _ _
  | allocInput v k ih => intro s; cases known <;> cases v <;> first | rfl | exact ih _ _ _
  | enforceZero lc k ih => intro s; exact ih _
  | multiply v k ih => intro s; cases known <;> cases v <;> first | rfl | exact ih _ _ _ _ _

omit [HaloCurve E1 B S] [HaloCurve E2 S B] in
theorem blank_ends {params : Params (Proj S)} {i i' : RecursiveCircuit S} (h : i'.basePayload = i.basePayload)
    {payload : List (BitVec 8)} {one : Var} :
    Ends ((blankCircuit params i payload : VerificationCircuit S B).synthesize E1 E2 one)
      ((blankCircuit params i' payload : VerificationCircuit S B).synthesize E1 E2 one)
      (fun x : List AllocatedBit × List AllocatedBit => i.synthesize one x.1 x.2) (fun x => i'.synthesize one x.1 x.2) := by
  unfold VerificationCircuit.synthesize blankCircuit
  simp only [Option.map_none, oldDeferredBytes, h]
  refine Ends.bind fun pb => Ends.bind fun _ => Ends.bind fun _ => Ends.bind fun _ => Ends.bind fun _ => Ends.bind fun _ =>
    Ends.bind fun _ => Ends.bind fun _ => Ends.bind fun _ => ?_
  split
  · exact Ends.panic
  refine Ends.bind fun op => Ends.bind fun _ => Ends.bind fun _ => Ends.bind fun _ => Ends.bind fun _ => ?_
  split
  · exact Ends.panic
  refine Ends.bind fun _ => Ends.bind fun _ => Ends.bind fun _ => Ends.bind fun _ => Ends.bind fun _ => Ends.bind fun _ =>
    Ends.bind fun _ => Ends.bind fun _ => Ends.bind fun _ => ?_
  exact Ends.last (K := fun x : List AllocatedBit × List AllocatedBit => i.synthesize one x.1 x.2)
    (K' := fun x => i'.synthesize one x.1 x.2) (op, pb)

/-- The first bit of the new payload is zero -/
def firstZero : RecursiveCircuit S where
  basePayload := List.replicate 8 false
  synthesize _ _ new := do
    let b ← Sha256.index new 0
    .enforce (LC.ofVar b.var)

omit [DecidableEq S] [LawfulField S] in
theorem firstZero_uniform {payload : List Bool} : (firstZero : RecursiveCircuit S).Uniform firstZero payload where
  base := rfl
  same V one h1 old old' new new' _ hn _ h _ := by
    refine (twin_index h (i := 0) ?_).bind fun b b' hb => ?_
    · rw [hn]
      exact Nat.zero_lt_succ _
    · obtain ⟨_, _, x, hx⟩ := hb
      exact twin_enforce' rfl (LC.in_ofVar hx) trivial

omit [Field S] [DecidableEq S] [LawfulField S] in
theorem firstZero_asks (one : Var) (old new : List AllocatedBit) :
    Asks ((firstZero : RecursiveCircuit S).synthesize one old new) fun a m l => a = 0 ∧ m = 0 ∧ l = 1 :=
  (Costs.free (costs_index (R := fun _ => True) fun _ _ => trivial) fun _ _ => costs_enforce).asks

/-- A circuit with a byte of payload that asks for one constraint: its shape and its size -/
theorem byte_shape {params : Params (Proj S)} (hp : GoodParams E2 params) (hk : params.k = 22)
    (hl : params.generators.length = 2 ^ 22) {i : RecursiveCircuit S} (hb : i.basePayload.length = 8)
    (hu : i.Uniform i (bytesBits [1#8]))
    (ha : ∀ one old new, Asks (i.synthesize one old new) fun a m l => a = 0 ∧ m = 0 ∧ l = 1) :
    ∃ a t, circuitSystem false ((blankCircuit params i [1#8] : VerificationCircuit S B).synthesize E1 E2) = .ok (a, t) ∧
      HasShape false ((blankCircuit params i [1#8] : VerificationCircuit S B).synthesize E1 E2) t.gates t.lcs
        (List.range' 1 ((blankCircuit params firstBit [1#8] : VerificationCircuit S B).publicBits E1 E2).length.succ) ∧
      t.gates = 648955 ∧ t.lcs.length = 1319688 := by
  have hw : (blankCircuit params i [1#8] : VerificationCircuit S B).WellShaped E2 :=
    ⟨hb.symm, nofun, nofun, nofun, nofun, nofun⟩
  obtain ⟨gates, lcs, ⟨a, t, ht, rfl, rfl, h3, h4⟩, -⟩ := C57_same_circuit (E1 := E1) (E2 := E2)
    (c := (blankCircuit params i [1#8] : VerificationCircuit S B)) hp rfl hu hw hw
  obtain ⟨_, _, _, ⟨rfl, rfl, rfl⟩, hc⟩ := C76_size (E1 := E1) (E2 := E2) (B := B) (inner := i) (payload := [1#8]) hp hu hb.symm
    (by rw [hb, hk, hl]; norm_num) fun one old new _ _ => ha one old new
  obtain ⟨counts, hc', -, hsame⟩ := C75_counts (E1 := E1) (E2 := E2)
    (c := (blankCircuit params i [1#8] : VerificationCircuit S B)) hp hu hb.symm hw
  have hsize := hc.symm.trans hc'
  simp only [Except.ok.injEq, Option.some.injEq] at hsize
  obtain ⟨e1, e2⟩ := hsame false a t ht
  refine ⟨a, t, ht, ⟨a, t, ht, rfl, rfl, h3, h4⟩, ?_, ?_⟩
  · rw [e1, ← hsize, hb, hk]; rfl
  · rw [e2, ← hsize, hb, hk]; rfl

omit [HaloCurve E1 B S] [HaloCurve E2 S B] in
theorem bits_differ {params : Params (Proj S)} {a a' : Unit} {t t' : System S}
    (h : circuitSystem false ((blankCircuit params firstBit [1#8] : VerificationCircuit S B).synthesize E1 E2) = .ok (a, t))
    (h' : circuitSystem false ((blankCircuit params firstZero [1#8] : VerificationCircuit S B).synthesize E1 E2) = .ok (a', t')) :
    Differ t.lcs t'.lcs := by
  obtain ⟨p, e, e'⟩ := blank_ends (E1 := E1) (E2 := E2) (B := B) (params := params) (i := firstBit) (i' := firstZero) rfl
    (payload := [1#8]) (one := .A 1)
  unfold circuitSystem at h h'
  simp only [e, e', collect_bind] at h h'
  generalize collect false p _ = r at h h'
  rcases r with f | ⟨⟨old, new⟩, s⟩
  · cases h
  simp only [Except.bind, firstBit, firstZero, Sha256.index, orPanic] at h h'
  cases hn : new[0]? with
  | none => rw [hn] at h; cases h
  | some b =>
    rw [hn] at h h'
    obtain ⟨-, rfl⟩ := Prod.mk.inj (Except.ok.inj h)
    obtain ⟨-, rfl⟩ := Prod.mk.inj (Except.ok.inj h')
    refine ⟨s.lcs.length, fun _ => 1, ?_⟩
    simp [System.constrain, LC.eval_subVar, LC.eval_ofVar]

/-- What the theorem says for these two, with `2^22` generators -/
theorem bits_apart {s : Setup E1 E2 B S} (hs : s.Good) (hk : s.params1.k = 22) :
    letI := HaloCurve.module (E := E1) (F := B) (S := S)
    ∃ T : Finset S, T.card ≤ 3 * 1319688 + 1 ∧ ∀ (p : RecursiveProof B S) (v : Inner B S), p.payload = [1#8] →
      OnCurve E1 p.proof.sNewCommitment → OnCurve E1 p.proof.innerProduct.g → OnCurve E2 p.oldproof2.sNewCommitment →
      OnCurve E2 p.oldproof2.gNew → p.verifyInner E1 E2 4 (fun _ => 3) s.params1 s.params2 firstBit firstBit = .ok v →
      v.leftovers1.yNew ∉ T → p.verify E1 E2 4 (fun _ => 3) s.params1 s.params2 firstBit firstBit = .ok true →
      p.verify E1 E2 4 (fun _ => 3) s.params1 s.params2 firstZero firstBit = .ok true →
      ∃ sx sx', computeSx s.params1.n ((blankCircuit s.params2 firstBit [1#8] : VerificationCircuit S B).synthesize E1 E2)
          v.leftovers1.yNew = .ok sx ∧
        computeSx s.params1.n ((blankCircuit s.params2 firstZero [1#8] : VerificationCircuit S B).synthesize E1 E2)
          v.leftovers1.yNew = .ok sx' ∧ Collide s.g1 sx sx' := by
  have hk2 : s.params2.k = 22 := hs.k_eq ▸ hk
  have hl1 : s.params1.generators.length = 2 ^ 22 := by rw [hs.one.valid.length, hk]
  have hl2 : s.params2.generators.length = 2 ^ 22 := by
    rw [← hk2]
    exact hs.two.valid.length
  have hn1 : s.params1.n = 2 ^ 20 := by rw [hs.one.valid.n_eq, hk]
  have hn2 : s.params2.n = 2 ^ 20 := by
    rw [show s.params2.n = 2 ^ (s.params2.k - 2) from hs.two.valid.n_eq, hk2]
  obtain ⟨_, t, h, h1, g, l⟩ := byte_shape (E1 := E1) (E2 := E2) (B := B) hs.two.good hk2 hl2 (i := firstBit) rfl
    firstBit_uniform firstBit_asks
  obtain ⟨_, t', h', h1', g', l'⟩ := byte_shape (E1 := E1) (E2 := E2) (B := B) hs.two.good hk2 hl2 (i := firstZero) rfl
    firstZero_uniform firstZero_asks
  obtain ⟨_, u, -, h2, g2, -⟩ := byte_shape (E1 := E2) (E2 := E1) (B := S) hs.one.good hk hl1 (i := firstBit) rfl
    firstBit_uniform firstBit_asks
  obtain ⟨T, _, hT, -, H⟩ := C87_recursive hs.one.valid hs.two.valid h1 h1' h2 h2 (by rw [g, hn1]; norm_num)
    (by rw [g', hn1]; norm_num) (by rw [g2]; exact (by norm_num : 648955 ≤ 2 ^ 20).trans_eq hn2.symm)
    (by rw [g2]; exact (by norm_num : 648955 ≤ 2 ^ 20).trans_eq hn2.symm)
  refine ⟨T, hT.trans (by rw [l, l']; norm_num), fun p v q0 q1 q2 q3 q4 hv hy a b => ?_⟩
  exact ((H (by norm_num) (by simp) q0 q1 q2 q3 q4 hv a b).1 (bits_differ h h')).resolve_left hy

/-- And there is such a setup, for the curves of the code. -/
example : ∃ s : Setup ec0 ec1 Fq Fp, s.Good ∧ s.params1.k = 22 := by
  obtain ⟨s, hs, hk, -⟩ := setup_example (E1 := ec0) (E2 := ec1) (B := Fq) (S := Fp) (k := 22) (by norm_num) (by norm_num)
  exact ⟨s, hs, hk⟩

end Recursion
end Halo
