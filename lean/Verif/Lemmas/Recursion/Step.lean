import Verif.Lemmas.Recursion.Valid
/-!
# One step of the recursion
-/
set_option linter.unusedSectionVars false

namespace Halo
namespace Recursion
open Circuit Proofs Util
variable {E1 E2 : CurveConsts} {B S : Type} [Field B] [DecidableEq B] [LawfulField B] [Field S] [DecidableEq S]
  [LawfulField S] [HaloCurve E1 B S] [HaloCurve E2 S B] {s : Setup E1 E2 B S}

theorem LeftoversOk.facts (hs : s.Half) {l : Leftovers (Proj B) S} (h : LeftoversOk s l) {i : RecursiveCircuit S}
    (hi : s.user1 i) : l.challengesSqPackedNew.length = s.params1.k ∧ OnCurve E1 l.sNewCommitment ∧
      OnCurve E1 l.gNew := by
  obtain ⟨payload, hp⟩ := hs.inhabited
  obtain ⟨⟨_, -, h1⟩, h2, _, -, h3⟩ := h i _ hi hp
  exact ⟨h2, ⟨_, h1⟩, ⟨_, h3⟩⟩

variable {old : Option (RecursiveProof S B)} {i1 : RecursiveCircuit S} {i2 : RecursiveCircuit B} {v : Inner S B}
  {payload : List (BitVec 8)}

theorem newCircuit_wellShaped (hs : s.Good) (hold : ∀ q ∈ old, q.WellShaped E2 s.params2.k (8 * s.bytes))
    (h1 : s.user1 i1) (h2 : s.user2 i2) (hv : Carriable s v) (hp : s.admitted payload) :
    (newCircuit s.params2 old i1 payload v).WellShaped E2 where
  newPayload := by
    show 8 * payload.length = i1.basePayload.length
    rw [hs.one.base i1 h1, hs.one.size _ hp]
  proof p hp := by
    show p.WellShaped E2 s.params2.k i1.basePayload.length
    rw [hs.one.base i1 h1]
    exact hold p hp
  forkvalues := by
    rintro _ ⟨⟩
    exact hv.forks
  oldLeftovers := by
    rintro _ ⟨⟩
    exact (hv.l2.facts hs.one h1).1.trans hs.k_eq
  newLeftovers := by
    rintro _ ⟨⟩
    exact (hv.l1.facts (s := s.swap) hs.two h2).1
  deferred := by
    rintro _ ⟨⟩
    exact ⟨hv.lenO, hv.lenN⟩

theorem inputBytes_length {k : ℕ} {p : RecursiveProof B S} (h0 : p.payload.length = s.bytes)
    (h1 : p.oldproof1.challengesSqPackedNew.length = k) (h2 : p.oldproof2.challengesSqPackedNew.length = k)
    (h3 : p.deferred.challengesSqPackedOld.length = k) (h4 : p.deferred.challengesSqPackedNew.length = k) :
    (bytesBits (p.inputBytes E1 E2)).length = 8 * s.bytes + 2 * leftoversBits k + deferredBits k := by
  rw [RecursiveProof.inputBytes, bytesBits_append, bytesBits_append, bytesBits_append, List.length_append,
    List.length_append, List.length_append, leftovers_length h1, leftovers_length h2, deferred_length h3 h4,
    length_bytesBits, h0]
  ring

/-- What a prover makes of the circuit is right in every respect, even if the old proof is not and the prover
folds in its own way. -/
theorem new_valid (hs : s.Good) {e : Env} (he : e.Good) (h1 : s.user1 i1) (h2 : s.user2 i2)
    (hp : s.admitted payload) (hold : ∀ q ∈ old, q.WellShaped E2 s.params2.k (8 * s.bytes)) (hok : Carriable s v)
    {fold : Fold S} (hfold : ∀ V, FoldTwin V E2 B s.params2.k fold) {π : Proof (Proj B) S} {l : Leftovers (Proj B) S}
    (hnew : @Proof.new _ _ _ _ _ _ _ _ _ (Proj.curveOps E1 B S) Transcript.rescue e.fuel e.cpus e.lnCeil _ s.params1
      ((newCircuit s.params2 old i1 payload v).synthesizeWith E1 E2 fold) v.leftovers2 = .ok (π, l)) :
    Valid s ⟨π, v.leftovers2, v.leftovers1, v.deferred, payload⟩ := by
  obtain ⟨a, t, ht⟩ : ∃ a t, circuitSystem true ((newCircuit s.params2 old i1 payload v).synthesizeWith E1 E2 fold) =
      .ok (a, t) := by
    let := Proj.curveOps E1 B S
    exact new_system hnew
  obtain ⟨a0, t0, ht0⟩ : ∃ a t,
      circuitSystem false ((newCircuit s.params2 old i1 payload v).synthesizeWith E1 E2 fold) = .ok (a, t) := by
    let := Proj.curveOps E1 B S
    exact new_system_blank hnew
  have hw := newCircuit_wellShaped hs hold h1 h2 hok hp
  let := HaloCurve.module (E := E1) (F := B) (S := S)
  have hl0 := hok.l2.to hs hw rfl h1 hp
  rw [← new_exact] at hnew
  have hg : GoodParams E2 (newCircuit s.params2 old i1 payload v).params := hs.two.good
  have hsx : ∀ n (y : S), computeSx n ((newCircuit s.params2 old i1 payload v).synthesizeWith E1 E2 fold) y =
      computeSx n ((newCircuit s.params2 old i1 payload v).synthesize E1 E2) y := by
    obtain ⟨g, l, k1, k2⟩ := same_circuitWith (E1 := E1) hfold hg rfl (hs.one.same _ _ _ h1 h1 hp) hw hw
    exact computeSx_shape (k2 false _ _ ht0).1 k1
  have hl : ValidLeftovers (Denotes (E1.b : B)) s.g1 s.params1
      ((newCircuit s.params2 old i1 payload v).synthesizeWith E1 E2 fold) v.leftovers2 :=
    ⟨by simpa only [hsx] using hl0.s, hl0.len, hl0.g⟩
  have hpb := C57_public_inputs (E1 := E1) (E2 := E2) (c := newCircuit s.params2 old i1 payload v)
    (proof := ⟨π, v.leftovers2, v.leftovers1, v.deferred, payload⟩) rfl rfl rfl rfl
  have hlen := inputBytes_length (s := s) (k := s.params1.k)
    (p := ⟨π, v.leftovers2, v.leftovers1, v.deferred, payload⟩) (hs.one.size _ hp) (hok.l2.facts hs.one h1).1
    ((hok.l1.facts (s := s.swap) hs.two h2).1.trans hs.k_eq.symm) (hok.lenO.trans hs.k_eq.symm)
    (hok.lenN.trans hs.k_eq.symm)
  have hgl := hs.one.valid.length
  have hroom := hs.one.room
  obtain ⟨K, hK, hd⟩ := inputCommitment_eq (HaloCurve.good E1 B S) hs.one.valid.gens
    (by have := hs.one.length_ge; omega)
    (bits := bytesBits (RecursiveProof.inputBytes E1 E2 ⟨π, v.leftovers2, v.leftovers1, v.deferred, payload⟩))
    (by rw [hlen, hgl]; rw [Setup.bits] at hroom; omega)
  have key : ∀ i, s.user1 i → ∀ (cpus : ℕ) (lnCeil : ℕ → ℕ), 0 < cpus →
      (∀ n, 32 ≤ n → n < 2 ^ 32 → 1 ≤ lnCeil n ∧ lnCeil n ≤ 57) → ∃ d forks,
      @Proof.verify _ _ _ _ _ _ _ _ _ (Proj.curveOps E1 B S).exact
        Transcript.rescue cpus lnCeil _ π v.leftovers2 s.params1
        ((blankCircuit s.params2 i payload : VerificationCircuit S B).synthesize E1 E2)
        ((bytesBits (RecursiveProof.inputBytes E1 E2
          ⟨π, v.leftovers2, v.leftovers1, v.deferred, payload⟩)).map fun b => if b then 1 else 0) (some K) =
        .ok (true, l, d, forks) ∧ forks.length = s.params1.k ∧ WellFormedDeferred s.params1.k d ∧
      TrueDeferred s.params1.k d ∧ ValidLeftovers (Denotes (E1.b : B)) s.g1 s.params1
        ((newCircuit s.params2 old i1 payload v).synthesizeWith E1 E2 fold) l ∧
      ShapedProof (Denotes (E1.b : B)) s.params1.k π := fun i hi cpus lnCeil hc hln => by
    obtain ⟨gates, lcs, ⟨b, t', ht', -, -, hpos', -⟩, hsame⟩ := same_circuitWith (E1 := E1) hfold
      (c' := (blankCircuit s.params2 i payload : VerificationCircuit S B)) hg rfl
      (hs.one.same _ _ _ h1 hi hp) hw (blank_wellShaped hs.one hi hp)
    obtain ⟨⟨_, _, ht2, -, -, hpos, -⟩, hin⟩ := hsame _ _ _ ht
    rw [ht] at ht2
    cases ht2
    have hpub : t.publicInputs = (bytesBits (RecursiveProof.inputBytes E1 E2
        ⟨π, v.leftovers2, v.leftovers1, v.deferred, payload⟩)).map fun b => if b then 1 else 0 := by
      have : (t.inputs.map fun p => p.2.getD 0) = (t.inputs.map Prod.snd).map fun o => o.getD 0 := by simp
      rw [System.publicInputs, this, hin, hpb]
      simp
    let := (Proj.curveOps E1 B S).exact
    have := honest HaloCurve.exactOps he.cpus he.ln he.fuel hs.one.valid hl hnew ht ht' (hpos'.trans hpos.symm) hc
      hln (kc := some K) (by
        rintro _ ⟨⟩
        rw [hpos, hpub, hpb, combine_inputs]
        exact hd)
    rw [hpub] at this
    exact this
  obtain ⟨_, _, -, -, -, -, -, hsh⟩ := key i1 h1 e.cpus e.lnCeil he.cpus he.ln
  have hle : ∀ {a : ℕ}, a = 5 → 5 ≤ a := fun h => h.ge
  exact
    { admitted := hp
      shape :=
        { payload := by rw [hs.one.size _ hp]
          old1 := (hok.l2.facts hs.one h1).1
          old2 := (hok.l1.facts (s := s.swap) hs.two h2).1.trans hs.k_eq.symm
          deferredOld := hok.lenO.trans hs.k_eq.symm
          deferredNew := hok.lenN.trans hs.k_eq.symm
          r := hsh.r
          sCur := hsh.sCur
          tPositive := hsh.tPositive
          tNegative := hsh.tNegative
          c := hsh.c
          sNew := hsh.sNew
          g := hsh.opening.g
          sOld := (hok.l2.facts hs.one h1).2.1
          gOld := (hok.l2.facts hs.one h1).2.2
          a := hsh.opening.a.ge
          rounds := hsh.opening.rounds.ge
          sizes := fun r hr => by
            obtain ⟨m1, m2, m3, m4⟩ := hsh.opening.sizes r hr
            exact ⟨hle m1, hle m2, hle m3, hle m4⟩
          points := hsh.opening.points }
      rounds := hsh.opening.rounds
      a := hsh.opening.a
      small1 := hok.small2
      small2 := hok.small1
      smallD := hok.smallD
      old2 := hok.l1
      wf := hok.wf
      holds := hok.holds
      verified := fun i hi cpus lnCeil hc hln => by
        obtain ⟨d, forks, k1, -, k3, k4, k5, -⟩ := key i hi cpus lnCeil hc hln
        exact ⟨K, l, d, forks, hK, hd, k1, k3, k4, leftoversOk_of hs hw rfl h1 hp
          ⟨by simpa only [hsx] using k5.s, k5.len, k5.g⟩⟩ }

/-- Whatever `create_proof` returns is right in every respect. -/
theorem createProof_valid (hs : s.Good) {e : Env} (he : e.Good) (h1 : s.user1 i1) (h2 : s.user2 i2)
    (hp : s.admitted payload) (hold : ∀ q ∈ old, Valid s.swap q) {p : RecursiveProof B S}
    (h : RecursiveProof.createProof E1 E2 e.cpus e.lnCeil e.fuel s.params1 s.params2 old i1 i2 payload = .ok p) :
    Valid s p := by
  obtain ⟨v, hv, hok, -⟩ := carried_ok hs hold h1 h2 he.cpus he.ln
  unfold RecursiveProof.createProof at h
  simp only [hv, Except.bind_ok, bind_eq_ok, Except.ok.injEq] at h
  obtain ⟨⟨π, l⟩, hnew, rfl⟩ := h
  have e1 : (newCircuit s.params2 old i1 payload v).synthesize E1 E2 =
      (newCircuit s.params2 old i1 payload v).synthesizeWith E1 E2 (realFold E2 B) := by
    funext one
    rw [synthesizeWith_realFold]
  rw [e1] at hnew
  exact new_valid hs he h1 h2 hp (fun q hq => (hold q hq).shape) hok.toCarriable (fun V => foldTwin_realFold) hnew

/-- The honest prover satisfies the circuit of the step. -/
theorem step_provable (hs : s.Good) {e : Env} (h1 : s.user1 i1) (h2 : s.user2 i2) (hold : ∀ q ∈ old, Valid s.swap q)
    (hapart : ∀ bits, OldBits s e i1 old bits → Apart s.g2 bits)
    (hacc : Accepts i1 (oldPayload i1 old) (bytesBits payload)) {v : Inner S B} (hok : CarriedOk s old v)
    (hv : old = none → @Leftovers.dummy _ _ _ _ _ _ (Proj.curveOps E1 B S) e.cpus e.lnCeil s.params1 =
        some v.leftovers2) :
    Provable ((newCircuit s.params2 old i1 payload v).synthesize E1 E2) fun _ _ => True := by
  obtain ⟨chs, hc1, hc2, hrun⟩ := hok.run
  have hl1 := (hok.l1.facts (s := s.swap) hs.two h2).1
  have hl2 := (hok.l2.facts hs.one h1).1
  have hk : 2 ≤ s.params2.k := by have := hs.two.valid.k_gt; simp only [Setup.swap] at this; omega
  have hgens : Gens E2 s.params2.generators s.g2 := hs.two.gens
  have hglen : s.params2.generators.length = 2 ^ s.params2.k := hs.two.valid.length
  have hge : 16 ≤ s.params2.generators.length := hs.two.length_ge
  have hroom : 8 * s.bytes + 2 * leftoversBits s.params2.k + deferredBits s.params2.k + 2 ≤ 2 ^ s.params2.k :=
    hs.two.room
  refine provable_of_complete fun w one hone => ?_
  cases old with
  | some q =>
    have hq := hold q rfl
    obtain ⟨hl, K, ζ, T1, T2, T3, T4, T5, hK, hR⟩ := hrun q rfl
    have hbl := inputBytes_length (s := s.swap) (by have := hq.shape.payload; simp only [Setup.swap] at this ⊢; omega)
      hq.shape.old1 hq.shape.old2 hq.shape.deferredOld hq.shape.deferredNew
    have hwf := hq.wf
    have hh := hq.holds
    rw [show s.swap.params2.k = s.params2.k from hs.k_eq] at hwf hh
    refine synthesize_follow (E := E2) (E1 := E1) hone (P := q) rfl rfl hq.shape hq.rounds hq.a rfl rfl hl1 rfl
      hok.lenO hok.lenN rfl (dOld := q.deferred) rfl hq.shape.deferredOld hq.shape.deferredNew hq.smallD hwf hh hgens
      (show 2 ≤ s.params2.generators.length by omega) (bits := bytesBits (q.inputBytes E2 E1)) ?_ ?_
      (hapart _ (.some q)) (hacc w one hone) hK hc1 (by rw [← hc2]; rfl) fun _ => hR
    · show _ = bytesBits q.payload ++ bytesBits _ ++ bytesBits _ ++ _
      rw [RecursiveProof.inputBytes, bytesBits_append, bytesBits_append, bytesBits_append, hl]
    · show _ ≤ s.params2.generators.length - 2
      rw [hglen, hbl]
      show 8 * s.bytes + 2 * leftoversBits s.params2.k + deferredBits s.params2.k ≤ _
      omega
  | none =>
    obtain ⟨d, e1, e2, e3, e4, e5, e6, -⟩ := dummy_record (E := E1) (F := B) (S := S) hk
    have ho := OldBits.none (i1 := i1) (hv rfl) e1
    have hbl : (i1.basePayload ++ List.replicate (leftoversBits s.params2.k) false ++
        bytesBits (@Leftovers.toBytes _ _ _ _ _ _ (Proj.curveOps E1 B S) v.leftovers2) ++
        bytesBits d.toBytes).length ≤ s.params2.generators.length - 2 := by
      rw [List.length_append, List.length_append, List.length_append, hs.one.base i1 h1, List.length_replicate,
        leftovers_length (hl2.trans hs.k_eq), deferred_length e5 e6, hglen]
      omega
    obtain ⟨K, -, hK⟩ := inputCommitment_eq (HaloCurve.good E2 S B) (fun i h => (hgens i h).2) (by omega) hbl
    have T : Rescue S := Transcript.rescue.new
    exact synthesize_follow (E := E2) (E1 := E1) hone (P := blankProof S B s.params2.k) rfl rfl
      (blankProof_wellShaped _) (by simp [blankProof]; rfl) (by simp [blankProof]) rfl rfl hl1 rfl
      hok.lenO hok.lenN rfl (dOld := d) (by simp only [oldDeferredBytes, newCircuit, e1]; rfl) e5 e6 e4 e2 e3 hgens
      (show 2 ≤ s.params2.generators.length by omega) rfl hbl
      (hapart _ ho) (hacc w one hone) hK hc1 (by rw [← hc2]; rfl) (ζ := 0) (T1 := T) (T2 := T) (T3 := T) (T4 := T)
      (T5 := T) nofun

theorem step_satisfied (hs : s.Good) {e : Env} (he : e.Good) (h1 : s.user1 i1) (h2 : s.user2 i2)
    (hp : s.admitted payload) (hold : ∀ q ∈ old, Valid s.swap q)
    (hapart : ∀ bits, OldBits s e i1 old bits → Apart s.g2 bits)
    (hacc : Accepts i1 (oldPayload i1 old) (bytesBits payload)) :
    ∃ v, carried E1 E2 e.cpus e.lnCeil s.params1 s.params2 old i1 i2 = .ok v ∧
      isSatisfied ((newCircuit s.params2 old i1 payload v).synthesize E1 E2)
        (((newCircuit s.params2 old i1 payload v).publicBits E1 E2).map fun b => if b then 1 else 0) = .ok true := by
  obtain ⟨v, hv, hok, hdum⟩ := carried_ok hs hold h1 h2 he.cpus he.ln
  have hw := newCircuit_wellShaped hs (fun q hq => (hold q hq).shape) h1 h2 hok.toCarriable hp
  have hg : GoodParams E2 (newCircuit s.params2 old i1 payload v).params := hs.two.good
  obtain ⟨⟨⟩, t, ht, hsat, -⟩ := step_provable hs h1 h2 hold hapart hacc hok hdum
  obtain ⟨gates, lcs, ⟨_, t0, ht0, hg0, hl0, -, hw0⟩, hsame⟩ :=
    C57_same_circuit (E1 := E1) hg rfl (hs.one.same _ _ _ h1 h1 hp) hw hw
  obtain ⟨⟨_, _, ht2, hgt, hlt, hpos, -⟩, hin⟩ := hsame _ _ _ ht
  rw [ht] at ht2
  cases ht2
  have hpub : t.publicInputs = ((newCircuit s.params2 old i1 payload v).publicBits E1 E2).map
      fun b => if b then 1 else 0 := by
    have : (t.inputs.map fun p => p.2.getD 0) = (t.inputs.map Prod.snd).map fun o => o.getD 0 := by simp
    rw [System.publicInputs, this, hin]
    simp
  refine ⟨v, hv, (C29_is_satisfied _ _).2 ⟨t, ht, ?_, ?_, hpub ▸ hsat⟩⟩
  · have := congrArg List.length hin
    simpa using this
  · have := (computeSx_of 0 0 ht0 hw0).2
    rw [hg0, hl0, ← hgt, ← hlt] at this
    exact this

/-- All proofs of a history are right in every respect. -/
theorem made_valid (hs : s.Good) {x : RecursiveProof B S ⊕ RecursiveProof S B} (h : Made s x) :
    (∀ p, x = .inl p → Valid s p) ∧ ∀ q, x = .inr q → Valid s.swap q := by
  induction h with
  | first he h1 h2 hp hold h ih =>
    refine ⟨?_, nofun⟩
    rintro _ ⟨⟩
    exact createProof_valid hs he h1 h2 hp (fun q hq => (ih q hq).2 q rfl) h
  | second he h1 h2 hp hold h ih =>
    refine ⟨nofun, ?_⟩
    rintro _ ⟨⟩
    exact createProof_valid hs.swap he h2 h1 hp (fun q hq => (ih q hq).1 q rfl) h

end Recursion
end Halo
