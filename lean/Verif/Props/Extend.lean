import Verif.Lemmas.Recursion.ExtendStep
import Verif.Spec.Extend
import Verif.Props.ProverCheck
import Verif.Props.RecursionDev
import Verif.Props.Attest
/-!
# A prover that runs the code only extends right proofs (C86)

`create_proof` does not look at the verdict on the old proof, and a prover that does not run the code can extend proofs that are
rejected (C65). But the values that the code itself assigns satisfy the circuit only if the old proof is right.
-/
namespace Halo
namespace Recursion
open Circuit Proofs
variable {E1 E2 : CurveConsts} {B S : Type} [Field B] [DecidableEq B] [LawfulField B] [Field S] [DecidableEq S]
  [LawfulField S] [HaloCurve E1 B S] [HaloCurve E2 S B] {s : Setup E1 E2 B S} {i1 : RecursiveCircuit S}
  {i2 : RecursiveCircuit B} {payload : List (BitVec 8)}

theorem extends_of_provable (hs : s.Good) {cpus : ℕ} {lnCeil : ℕ → ℕ} {q : RecursiveProof S B}
    (hq : q.WellShaped E2 s.params2.k (8 * s.bytes))
    (hsm : q.deferred.Small) {v : Inner S B} (hv : carried E1 E2 cpus lnCeil s.params1 s.params2 (some q) i1 i2 = .ok v)
    {P : (Var → S) → Unit → Prop} (hsat : Provable ((newCircuit s.params2 (some q) i1 payload v).synthesize E1 E2) P) :
    Extends E1 E2 cpus lnCeil s.params1 s.params2 q i1 i2 payload v := by
  obtain ⟨hl, hw, hd, -⟩ := extend_checked hs hq hsm (R := fun _ _ => True)
    (fun _ _ _ _ _ _ _ _ _ => Sound.anyway _ fun _ => trivial) hv hsat
  refine ⟨hd, ?_, fun R hR => (extend_checked hs hq hsm hR hv hsat).2.2.2⟩
  have hv : q.verifyInner E2 E1 cpus lnCeil s.params2 s.params1 i2 i1 = .ok v := hv
  unfold RecursiveProof.verify
  simp only [hv, Except.bind_ok, hd, hl, hw, bind_eq_ok, ofOption_eq_ok, Except.ok.injEq, Bool.and_eq_true, Option.some.injEq,
    exists_eq_left']
  constructor
  · rintro ⟨d, h1, a, h2, ⟨⟨⟨-, -⟩, rfl⟩, rfl⟩, h3⟩
    exact ⟨h1, h2, h3⟩
  · rintro ⟨h1, h2, h3⟩
    exact ⟨_, h1, _, h2, ⟨⟨⟨h3, trivial⟩, rfl⟩, rfl⟩, h3⟩

/-- **C86.** Whatever old proof `recursive_is_satisfied` is given, if it answers `Ok(true)` then the old proof is right, but for
the records that the new proof will carry. -/
theorem C86_satisfied (hs : s.Good) {e : Env} (h1 : s.user1 i1) (hp : s.admitted payload) {q : RecursiveProof S B}
    (hq : q.WellShaped E2 s.params2.k (8 * s.bytes)) (hsm : q.deferred.Small)
    (h : recursiveIsSatisfied E1 E2 e.cpus e.lnCeil s.params1 s.params2 (some q) i1 i2 payload = .ok true) :
    ∃ v, carried E1 E2 e.cpus e.lnCeil s.params1 s.params2 (some q) i1 i2 = .ok v ∧
      Extends E1 E2 e.cpus e.lnCeil s.params1 s.params2 q i1 i2 payload v := by
  unfold recursiveIsSatisfied at h
  cases hv : carried E1 E2 e.cpus e.lnCeil s.params1 s.params2 (some q) i1 i2 with
  | error f => rw [hv] at h; cases f <;> cases h
  | ok v =>
    rw [hv] at h
    simp only at h
    obtain ⟨t, ht, -, -, hsat⟩ := (C29_is_satisfied _ _).1 h
    have hin := any_inputs (E1 := E1) hs h1 hp (any_wellShaped hs h1 hp hq hv) ht
    refine ⟨v, rfl, extends_of_provable hs hq hsm hv (P := fun _ _ => True) ⟨(), t, ht, ?_, trivial⟩⟩
    rw [hin]
    convert hsat using 2
    simp [satisfiedBytes, VerificationCircuit.publicBits, bytesBits_append, newCircuit, bitsOr]

/-- **C86**, the first step: if the answer is `Ok(true)`, the user's circuit allows the step from the base payload. -/
theorem C86_first (hs : s.Good) {e : Env} (he : e.Good) (h1 : s.user1 i1) (h2 : s.user2 i2) (hp : s.admitted payload)
    (h : recursiveIsSatisfied E1 E2 e.cpus e.lnCeil s.params1 s.params2 none i1 i2 payload = .ok true) :
    ∀ R, Demands i1 R → R i1.basePayload (bytesBits payload) := by
  intro R hR
  obtain ⟨v, hv, hok, -⟩ := carried_ok hs (old := none) nofun h1 h2 he.cpus he.ln
  have hw := newCircuit_wellShaped hs (old := none) nofun h1 h2 hok.toCarriable hp
  unfold recursiveIsSatisfied at h
  rw [hv] at h
  simp only at h
  obtain ⟨t, ht, -, -, hsat⟩ := (C29_is_satisfied _ _).1 h
  have hin := any_inputs (E1 := E1) hs h1 hp hw ht
  refine must_of_provable (R := fun _ _ => True) ⟨(), t, ht, ?_, trivial⟩ fun w one hone =>
    synthesize_must_base (E := E2) (E1 := E1) (c := newCircuit s.params2 none i1 payload v) hone rfl hR
  rw [hin]
  convert hsat using 2
  simp [satisfiedBytes, VerificationCircuit.publicBits, bytesBits_append, newCircuit, bitsOr]

omit [HaloCurve E1 B S] [HaloCurve E2 S B] [Field B] [DecidableEq B] [LawfulField B] [DecidableEq S] in
theorem leftovers_congr {C α β : Type} [CurveOps C B S] {cpus : ℕ} {lnCeil : ℕ → ℕ} {l : Leftovers C S} {params : Params C}
    {c : Var → Prog S α} {c' : Var → Prog S β} (h : ∀ n y, computeSx n c y = computeSx n c' y) :
    l.verify cpus lnCeil params c = l.verify cpus lnCeil params c' := by
  unfold Leftovers.verify
  rw [h]

/-- **C86**: if the answer is `Ok(true)`, and the proof that `create_proof` returns is accepted, and the other leftovers of the
old proof are correct, then the old proof is accepted, too. -/
theorem C86_accepted (hs : s.Good) {e : Env} (h1 : s.user1 i1) (h2 : s.user2 i2) (hp : s.admitted payload)
    {q : RecursiveProof S B} (hq : q.WellShaped E2 s.params2.k (8 * s.bytes)) (hsm : q.deferred.Small)
    (hqp : s.admitted q.payload)
    (h : recursiveIsSatisfied E1 E2 e.cpus e.lnCeil s.params1 s.params2 (some q) i1 i2 payload = .ok true)
    {p : RecursiveProof B S}
    (hc : RecursiveProof.createProof E1 E2 e.cpus e.lnCeil e.fuel s.params1 s.params2 (some q) i1 i2 payload = .ok p)
    (hv : p.verify E1 E2 e.cpus e.lnCeil s.params1 s.params2 i1 i2 = .ok true)
    (hl : @Leftovers.verify _ _ _ _ _ (Proj.curveOps E1 B S) e.cpus e.lnCeil _ q.oldproof2 s.params1
      ((blankCircuit s.params2 i1 q.payload : VerificationCircuit S B).synthesize E1 E2) = .ok true) :
    q.verify E2 E1 e.cpus e.lnCeil s.params2 s.params1 i2 i1 = .ok true := by
  obtain ⟨v, hcar, hx⟩ := C86_satisfied hs h1 hp hq hsm h
  unfold RecursiveProof.createProof at hc
  simp only [hcar, Except.bind_ok, bind_eq_ok, Except.ok.injEq] at hc
  obtain ⟨⟨π, l⟩, -, rfl⟩ := hc
  unfold RecursiveProof.verify at hv
  simp only [bind_eq_ok, Except.ok.injEq, Bool.and_eq_true, ofOption_eq_ok] at hv
  obtain ⟨v', hv', d1, hd1, d2, -, a, -, b, hb, ⟨⟨⟨-, rfl⟩, -⟩, -⟩, rfl⟩ := hv
  refine hx.rest.2 ⟨hd1, ?_, hl⟩
  have e2 : v'.leftovers2 = v.leftovers1 := by
    unfold RecursiveProof.verifyInner at hv'
    simp only [bind_eq_ok, ofOption_eq_ok, ite_panic_eq_ok, Except.bind_error, Except.ok.injEq] at hv'
    obtain ⟨-, _, -, _, -, _, -, rfl⟩ := hv'
    rfl
  rw [e2] at hb
  let := Proj.curveOps E2 S B
  rw [← hb]
  exact leftovers_congr (same_sx (s := s.swap) (E1 := E2) hs.swap (blank_wellShaped hs.two h2 hqp)
    (blank_wellShaped hs.two h2 hp) rfl rfl h2 h2 hqp hp)

/-- **C86**, without asking `recursive_is_satisfied`: if `create_proof` returns a proof, then the old proof is right in this
sense, or the first challenge that the prover drew is one of the few at which the violation of the constraints happens to vanish
(at most `2n + Q` of them, by C83). -/
theorem C86_create (hs : s.Good) {e : Env} (he : e.Good) (h1 : s.user1 i1) (hp : s.admitted payload)
    {q : RecursiveProof S B} (hq : q.WellShaped E2 s.params2.k (8 * s.bytes)) (hsm : q.deferred.Small)
    (hqp : s.admitted q.payload)
    {p : RecursiveProof B S}
    (h : RecursiveProof.createProof E1 E2 e.cpus e.lnCeil e.fuel s.params1 s.params2 (some q) i1 i2 payload = .ok p) :
    letI := Proj.curveOps E1 B S
    letI := HaloCurve.module (E := E1) (F := B) (S := S)
    ValidLeftovers (Denotes (E1.b : B)) s.g1 s.params1
      ((blankCircuit s.params2 i1 q.payload : VerificationCircuit S B).synthesize E1 E2) q.oldproof2 →
    ∃ v t, carried E1 E2 e.cpus e.lnCeil s.params1 s.params2 (some q) i1 i2 = .ok v ∧
      circuitSystem true ((newCircuit s.params2 (some q) i1 payload v).synthesize E1 E2) = .ok ((), t) ∧
      (Extends E1 E2 e.cpus e.lnCeil s.params1 s.params2 q i1 i2 payload v ∨
        ¬ t.Satisfied t.w t.publicInputs ∧ ∃ K R y t1,
          s.params1.commit e.cpus e.lnCeil (kPoly ((t.inputs.map fun p => p.1).zip (1 :: t.publicInputs))) false = some K ∧
          s.params1.commit e.cpus e.lnCeil (t.values s.params1.n) true = some R ∧
          Proofs.getChallenge S Transcript.rescue (appendPoint Transcript.rescue R
            (appendPoint Transcript.rescue K Transcript.rescue.new)) = some (y, t1) ∧ y ≠ 0 ∧
          t.violation s.params1.n y = 0) := by
  let := Proj.curveOps E1 B S
  let := HaloCurve.module (E := E1) (F := B) (S := S)
  intro hl
  unfold RecursiveProof.createProof at h
  simp only [bind_eq_ok, Except.ok.injEq] at h
  obtain ⟨v, hv, ⟨π, l⟩, hnew, rfl⟩ := h
  have hw := any_wellShaped hs h1 hp hq hv
  have hg : GoodParams E2 (newCircuit s.params2 (some q) i1 payload v).params := hs.two.good
  obtain ⟨⟨⟩, t, ht, hn, hd⟩ := new_fits hnew
  refine ⟨v, t, hv, ht, ?_⟩
  by_cases hsat : t.Satisfied t.w t.publicInputs
  · exact .inl (extends_of_provable hs hq hsm hv (P := fun _ _ => True) ⟨(), t, ht, hsat, trivial⟩)
  refine .inr ⟨hsat, ?_⟩
  obtain ⟨gates, lcs, hb, hsh⟩ := C57_same_circuit (E1 := E1) hg rfl (hs.one.same _ _ _ h1 h1 hp) hw hw
  obtain ⟨⟨_, _, k1, rfl, rfl, k4, -⟩, -⟩ := hsh _ _ _ ht
  rw [ht] at k1
  cases k1
  have hl2 : v.leftovers2 = q.oldproof2 := (inner_verify (s := s.swap) hs.swap hq hv).1
  have hl' := (leftoversOk_of hs (blank_wellShaped hs.one h1 hqp) rfl h1 hqp hl).to hs hw rfl h1 hp
  rw [hl2] at hnew
  obtain ⟨K, R, y, t1, c1, c2, c3, c4, c5, -⟩ := C83_prover (E := E1) Transcript.rescue (fun t => C69_rescue t) he.cpus he.ln
    hs.one.valid ht (k4 ▸ hb) hn hd hl'
  refine ⟨K, R, y, t1, c1, c2, c3, c4, ?_⟩
  by_contra hne
  have := (c5 hne e.fuel).symm.trans hnew
  cases this

/-! ### Instances -/

/-- Old proofs of an honest history meet the hypotheses, and the answer is `Ok(true)`. -/
example (hs : s.Good) {e : Env} (he : e.Good) (h1 : s.user1 i1) (h2 : s.user2 i2) (hp : s.admitted payload)
    {q : RecursiveProof S B} (hq : Made s (.inr q)) (hapart : Apart s.g2 (bytesBits (q.inputBytes E2 E1)))
    (hacc : Accepts i1 (bytesBits q.payload) (bytesBits payload)) :
    q.WellShaped E2 s.params2.k (8 * s.bytes) ∧ q.deferred.Small ∧ s.admitted q.payload ∧
    recursiveIsSatisfied E1 E2 e.cpus e.lnCeil s.params1 s.params2 (some q) i1 i2 payload = .ok true := by
  have hv := (made_valid hs hq).2 q rfl
  exact ⟨hv.shape, hv.smallD, hv.admitted, C75_honest hs he h1 h2 hp (old := some q) (by rintro _ ⟨⟩; exact hq)
    (by rintro _ ⟨⟩; exact hapart) hacc⟩

/-- For the first step the answer is `Ok(true)`, for the curves of the code and `2^22` generators. -/
example : ∃ s : Setup ec0 ec1 Fq Fp, s.Good ∧ s.user1 firstBit ∧ s.user2 firstBit ∧ s.admitted [1#8] ∧
    recursiveIsSatisfied ec0 ec1 4 (fun _ => 3) s.params1 s.params2 none firstBit firstBit [1#8] = .ok true ∧
    (bytesBits [1#8])[0]? = some true := by
  obtain ⟨s, hs, -, h1, h2, hp, h, -⟩ := dev_example
  have he : Env.Good ⟨4, fun _ => 3, 1⟩ := ⟨by norm_num, by simp, by norm_num⟩
  exact ⟨s, hs, h1, h2, hp, h, C86_first hs he h1 h2 hp h _ firstBit_demands⟩

/-- A well-formed deferred record that is not true is noticed. -/
theorem C86_wrong_record (hs : s.Good) {e : Env} (h1 : s.user1 i1) (hp : s.admitted payload) {q : RecursiveProof S B}
    (hq : q.WellShaped E2 s.params2.k (8 * s.bytes)) (hsm : q.deferred.Small) (hf : WellFormedDeferred s.params1.k q.deferred)
    (hd : ¬ TrueDeferred s.params1.k q.deferred) :
    recursiveIsSatisfied E1 E2 e.cpus e.lnCeil s.params1 s.params2 (some q) i1 i2 payload ≠ .ok true := by
  intro h
  obtain ⟨_, -, hx⟩ := C86_satisfied hs h1 hp hq hsm h
  obtain ⟨b, m1, m2⟩ := (C45_deferred _ _).1 hf
  rw [hx.deferred, Option.some.injEq] at m1
  exact hd (m2.1 m1.symm)

theorem wrong_record {k : ℕ} {d : Deferred S} (h : TrueDeferred k d) : ¬ TrueDeferred k { d with bX := d.bX + 1 } := by
  intro h'
  obtain ⟨us, hus, hbx, -⟩ := h'.new
  obtain ⟨us', hus', hbx', -⟩ := h.new
  have := roots_unique hus hus'
  subst this
  have : d.bX + 1 = d.bX := hbx.trans hbx'.symm
  simp at this

theorem refused_example (hs : s.Good) (hk : 2 ≤ s.params1.k) (h1 : s.user1 i1) (h2 : s.user2 i2) {e : Env} (he : e.Good)
    {pq : List (BitVec 8)} (hpq : s.admitted pq) :
    ∃ q : RecursiveProof S B, q.payload = pq ∧ q.WellShaped E2 s.params2.k (8 * s.bytes) ∧ q.deferred.Small ∧
    WellFormedDeferred s.params1.k q.deferred ∧ ¬ TrueDeferred s.params1.k q.deferred ∧
    (letI := HaloCurve.module (E := E1) (F := B) (S := S)
    ValidLeftovers (Denotes (E1.b : B)) s.g1 s.params1
      ((blankCircuit s.params2 i1 q.payload : VerificationCircuit S B).synthesize E1 E2) q.oldproof2) := by
  obtain ⟨l1, -, -, k1⟩ := dummy_leftovers hs.swap h2 he.cpus he.ln
  obtain ⟨l2, -, -, k2⟩ := dummy_leftovers hs h1 he.cpus he.ln
  obtain ⟨d, -, hw, ht, hsm, e5, e6, -⟩ := dummy_record (E := E1) (F := B) (S := S) hk
  have hone : OnCurve E2 (Proj.one E2 : Proj S) := by
    obtain ⟨G, h, -⟩ := one_denotes E2 S B
    exact ⟨G, h⟩
  have hsh := fake_wellShaped (s := s.swap) hs.swap (payload := pq) hpq k1 k2 h2 h1 (d := { d with bX := d.bX + 1 })
    e5 e6 hone hone 0
  exact ⟨⟨fakeInner E2 s.params2.k (Proj.one E2) 0 (Proj.one E2), l1, l2, { d with bX := d.bX + 1 }, pq⟩, rfl, hsh, hsm,
    ⟨hw.1, hw.2, hw.3, hw.4, hw.5, hw.6, hw.7⟩, wrong_record ht, k2 _ _ h1 hpq⟩

/-- A made-up proof (the one of C65) with a wrong number in its deferred record meets the hypotheses, also that about its
leftovers, and the answer is not `Ok(true)`. -/
example : ∃ (s : Setup ec0 ec1 Fq Fp) (q : RecursiveProof Fp Fq), s.Good ∧ s.user1 firstBit ∧ s.admitted [1#8] ∧
    s.admitted q.payload ∧ q.WellShaped ec1 s.params2.k (8 * s.bytes) ∧ q.deferred.Small ∧
    (letI := HaloCurve.module (E := ec0) (F := Fq) (S := Fp)
    ValidLeftovers (Denotes ((ec0.b : ℕ) : Fq)) s.g1 s.params1
      ((blankCircuit s.params2 firstBit q.payload : VerificationCircuit Fp Fq).synthesize ec0 ec1) q.oldproof2) ∧
    recursiveIsSatisfied ec0 ec1 4 (fun _ => 3) s.params1 s.params2 (some q) firstBit firstBit [1#8] ≠ .ok true := by
  obtain ⟨s, hs, hk, h1, h2, hb, ha⟩ := setup_example (E1 := ec0) (E2 := ec1) (B := Fq) (S := Fp) (k := 22) (by norm_num)
    (by norm_num)
  have he : Env.Good ⟨4, fun _ => 3, 1⟩ := ⟨by norm_num, by simp, by norm_num⟩
  have hp : s.admitted [1#8] := (hb _).2 rfl
  obtain ⟨q, hqp, c1, c2, c3, c4, c5⟩ := refused_example hs (by rw [hk]; norm_num) h1 h2 he ((hb [2#8]).2 rfl)
  exact ⟨s, q, hs, h1, hp, by rw [hqp]; exact (hb _).2 rfl, c1, c2, c5,
    C86_wrong_record (e := ⟨4, fun _ => 3, 1⟩) hs h1 hp c1 c2 c3 c4⟩

end Recursion
end Halo
