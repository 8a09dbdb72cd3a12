import Verif.Spec.Forgery
import Verif.Lemmas.Recursion.Step
import Verif.Lemmas.Recursion.Cheat
/-!
# The attack on the recursion
-/
set_option linter.unusedSectionVars false

namespace Halo
namespace Recursion
open Circuit Proofs Util
variable {E1 E2 : CurveConsts} {B S : Type} [Field B] [DecidableEq B] [LawfulField B] [Field S] [DecidableEq S]
  [LawfulField S] [HaloCurve E1 B S] [HaloCurve E2 S B] {s : Setup E1 E2 B S}
  {i1 : RecursiveCircuit S} {i2 : RecursiveCircuit B} {payload : List (BitVec 8)} {cpus : ℕ} {lnCeil : ℕ → ℕ}

/-- What `verify_inner` does -/
theorem inner_verify (hs : s.Good) {p : RecursiveProof B S} (hp : p.WellShaped E1 s.params1.k (8 * s.bytes))
    {v : Inner B S} (hv : p.verifyInner E1 E2 cpus lnCeil s.params1 s.params2 i1 i2 = .ok v) :
    v.leftovers2 = p.oldproof2 ∧ ∃ K sat,
      inputCommitment E1 s.params1.generators (bytesBits (p.inputBytes E1 E2)) = some K ∧
      Denotes (E1.b : B) K (inputSum s.g1 (bytesBits (p.inputBytes E1 E2))) ∧ PointsOk E1 K p.proof p.oldproof1 ∧
      @Proof.verify _ _ _ _ _ _ _ _ _ (Proj.curveOps E1 B S)
        Transcript.rescue cpus lnCeil _ p.proof p.oldproof1 s.params1
        ((blankCircuit s.params2 i1 p.payload : VerificationCircuit S B).synthesize E1 E2)
        ((bytesBits (p.inputBytes E1 E2)).map fun b => if b then 1 else 0) (some K) =
        .ok (sat, v.leftovers1, v.deferred, v.forkvalues) := by
  have hlen := inputBytes_length (E1 := E1) (E2 := E2) (s := s) (k := s.params1.k) (p := p)
    (by have := hp.payload; omega) hp.old1 hp.old2 hp.deferredOld hp.deferredNew
  have hroom := hs.one.room
  have hgl := hs.one.valid.length
  obtain ⟨K, hK, hd⟩ := inputCommitment_eq (HaloCurve.good E1 B S) hs.one.valid.gens
    (by have := hs.one.length_ge; omega) (bits := bytesBits (p.inputBytes E1 E2))
    (by rw [hlen, hgl]; rw [Setup.bits] at hroom; omega)
  unfold RecursiveProof.verifyInner at hv
  simp only [bind_eq_ok, ofOption_eq_ok, ite_panic_eq_ok, Except.bind_error, Except.ok.injEq] at hv
  obtain ⟨-, K', hK', ⟨sat, l, d, f⟩, hver, w2, -, rfl⟩ := hv
  rw [hK] at hK'
  cases hK'
  exact ⟨rfl, K, sat, hK, hd, ⟨⟨_, hd⟩, hp.r, hp.sCur, hp.tPositive, hp.tNegative, hp.c, hp.sNew, hp.g,
    hp.sOld, hp.gOld, hp.points⟩, hver⟩

theorem one_denotes (E1 : CurveConsts) (B S : Type) [Field B] [DecidableEq B] [LawfulField B] [Field S]
    [DecidableEq S] [LawfulField S] [HaloCurve E1 B S] :
    ∃ G : Pt (E1.b : B), Denotes (E1.b : B) (Proj.one E1) G ∧ G ≠ 0 := by
  let := Proj.curveOps E1 B S
  let := HaloCurve.module (E := E1) (F := B) (S := S)
  have L := HaloCurve.lawfulOps (E := E1) (F := B) (S := S)
  exact L.one

/-- Made-up proofs have the shape of proofs. -/
theorem fake_wellShaped (hs : s.Good) (hp : s.admitted payload) {l1 : Leftovers (Proj B) S}
    {l2 : Leftovers (Proj S) B} {d : Deferred B} (hl1 : LeftoversOk s l1) (hl2 : LeftoversOk s.swap l2)
    (h1 : s.user1 i1) (h2 : s.user2 i2)
    (hdo : d.challengesSqPackedOld.length = s.params2.k) (hdn : d.challengesSqPackedNew.length = s.params2.k)
    {sNew g : Proj B} (hs' : OnCurve E1 sNew) (hg : OnCurve E1 g) (tx : S) :
    (⟨fakeInner E1 s.params1.k sNew tx g, l1, l2, d, payload⟩ : RecursiveProof B S).WellShaped E1 s.params1.k
      (8 * s.bytes) := by
  have ho : OnCurve E1 (Proj.one E1 : Proj B) := by
    obtain ⟨G, h, -⟩ := one_denotes E1 B S
    exact ⟨G, h⟩
  refine ⟨by rw [hs.one.size _ hp], (hl1.facts hs.one h1).1, (hl2.facts (s := s.swap) hs.two h2).1.trans hs.k_eq.symm,
    hdo.trans hs.k_eq.symm, hdn.trans hs.k_eq.symm, ho, ho, ho, ho, ho, hs', hg, (hl1.facts hs.one h1).2.1,
    (hl1.facts hs.one h1).2.2, ?_, ?_, ?_, ?_⟩
  · simp [fakeInner]
  · simp [fakeInner]
  · intro r hr
    rw [List.eq_of_mem_replicate hr]
    simp [fakeRound]
  · intro r hr
    rw [List.eq_of_mem_replicate hr]
    exact ⟨fun q hq => by rw [List.eq_of_mem_replicate hq]; exact ho,
      fun q hq => by rw [List.eq_of_mem_replicate hq]; exact ho⟩

theorem Attackable.entries {q : RecursiveProof B S} (h : Attackable s q) (es : List (Entry B S))
    (hes : (entriesOf q.proof)[s.params1.k - 1]? = some es) : ∀ e ∈ es, EntryNonzero E1 e := by
  rw [entriesOf, List.getElem?_map, Option.map_eq_some_iff, ← h.rounds, ← List.getLast?_eq_getElem?] at hes
  obtain ⟨r, hr, rfl⟩ := hes
  obtain ⟨h1, h2⟩ := h.last r hr
  intro e he
  have he := List.mem_of_mem_take he
  have m1 := List.of_mem_zip (b := e.2) (a := e.1) he
  have m2 := List.of_mem_zip (b := e.2.2) (a := e.2.1) m1.2
  have m3 := List.of_mem_zip (b := e.2.2.2) (a := e.2.2.1) m2.2
  exact ⟨fun A hA => h1 _ (List.mem_append_left _ m1.1) A hA, fun A hA => h1 _ (List.mem_append_right _ m2.1) A hA,
    h2 _ (List.mem_append_left _ m3.1), h2 _ (List.mem_append_right _ m3.2)⟩

theorem fake_last (k : ℕ) (sNew g : Proj B) (tx : S) (r : InnerProductRound (Proj B) S)
    (h : r ∈ (fakeInner E1 k sNew tx g).innerProduct.rounds) :
    (∀ p ∈ r.L ++ r.R, ∀ A : Pt (E1.b : B), Denotes (E1.b : B) p A → A ≠ 0) ∧ ∀ u ∈ r.l ++ r.r, u ≠ 0 := by
  obtain ⟨G, hG, hG0⟩ := one_denotes E1 B S
  rw [List.eq_of_mem_replicate h]
  constructor
  · intro p hp A hA
    obtain rfl : p = Proj.one E1 := by simpa [fakeRound] using hp
    exact denotes_unique hA hG ▸ hG0
  · intro u hu
    obtain rfl : u = 1 := by simpa [fakeRound] using hu
    exact one_ne_zero

/-- The first challenges do not depend on the rest of the made-up proof. -/
theorem fake_start {K : Proj B} {k : ℕ} {o : Leftovers (Proj B) S} {sNew sNew' g g' : Proj B} {tx tx' : S}
    {d d' : Deferred S} {l l' : Leftovers (Proj B) S} {ζ ζ' : S} {chs chs' : List (Challenge S)}
    {T1 T2 T3 T4 T5 T1' T2' T3' T4' T5' : Rescue B}
    (h : Steps E1 K (fakeInner E1 k sNew tx g) o d l ζ chs T1 T2 T3 T4 T5)
    (h' : Steps E1 K (fakeInner E1 k sNew' tx' g') o d' l' ζ' chs' T1' T2' T3' T4' T5') :
    d'.yCur = d.yCur ∧ d'.x = d.x ∧ d'.yNew = d.yNew ∧ T3' = T3 := by
  have e1 := h'.yCur
  rw [show afterR E1 K (fakeInner E1 k sNew' tx' g') = afterR E1 K (fakeInner E1 k sNew tx g) from rfl, h.yCur,
    Option.some.injEq, Prod.mk.injEq] at e1
  obtain ⟨e1, rfl⟩ := e1
  have e2 := h'.x
  rw [show afterT E1 (fakeInner E1 k sNew' tx' g') T1 = afterT E1 (fakeInner E1 k sNew tx g) T1 from rfl, h.x,
    Option.some.injEq, Prod.mk.injEq] at e2
  obtain ⟨e2, rfl⟩ := e2
  have e3 := h'.yNew
  rw [show afterC E1 (fakeInner E1 k sNew' tx' g') T2 = afterC E1 (fakeInner E1 k sNew tx g) T2 from rfl, h.yNew,
    Option.some.injEq, Prod.mk.injEq] at e3
  exact ⟨e1.symm, e2.symm, e3.1.symm, e3.2.symm⟩

/-- The made-up proof can be used for the attack: although its verification fails, everything that is carried
over from it is right. -/
theorem fake_ok (hs : s.Good) (h1 : s.user1 i1) (h2 : s.user2 i2) (hp : s.admitted payload) (hcpus : 0 < cpus)
    (hln : ∀ n, 32 ≤ n → n < 2 ^ 32 → 1 ≤ lnCeil n ∧ lnCeil n ≤ 57) {q : RecursiveProof B S}
    (hq : fakeProof E1 E2 cpus lnCeil s.params1 s.params2 i1 i2 payload = .ok q) :
    q.payload = payload ∧ Attackable s q ∧
      ∀ v, q.verifyInner E1 E2 cpus lnCeil s.params1 s.params2 i1 i2 = .ok v → Carriable s.swap v := by
  let := Proj.curveOps E1 B S
  let := HaloCurve.module (E := E1) (F := B) (S := S)
  obtain ⟨l1, a1, a2, a3⟩ := dummy_leftovers hs h1 hcpus hln
  obtain ⟨l2, b1, b2, b3⟩ := dummy_leftovers hs.swap h2 hcpus hln
  have b1 : @Leftovers.dummy _ _ _ _ _ _ (Proj.curveOps E2 S B) cpus lnCeil s.params2 = some l2 := b1
  have hk1 := hs.one.valid.k_gt
  have hk2 : 2 ≤ s.params2.k := by rw [← hs.k_eq]; omega
  obtain ⟨d, c1, c2, c3, c4, c5, c6, -⟩ := dummy_record (E := E2) (F := S) (S := B) hk2
  unfold fakeProof at hq
  simp only [bind_eq_ok, ofOption_eq_ok, a1, b1, c1, Option.some.injEq, exists_eq_left', Except.ok.injEq] at hq
  obtain ⟨v0, hv0, sx, hsx, sNew, hsNew, xInv, hx, yInv, hy, v1, hv1, ⟨sq, us, inv, allinv⟩, hex, g, hg, rfl⟩ := hq
  obtain ⟨G, hG, -⟩ := one_denotes E1 B S
  have hone : OnCurve E1 (Proj.one E1 : Proj B) := ⟨G, hG⟩
  have L := HaloCurve.lawfulOps (E := E1) (F := B) (S := S)
  have hw := blank_wellShaped hs.one h1 hp
  -- the commitment to `s(X, y)`
  obtain ⟨P, hP, hPd⟩ : ∃ P, s.params1.commit cpus lnCeil sx false = some P ∧
      Denotes (E1.b : B) P (combine s.g1 0 sx) := by
    obtain ⟨-, t, -, -, rfl⟩ := computeSx_ok hsx
    obtain ⟨P, hP, hPd⟩ := commit_rep L.toLawfulCurve hcpus hln hs.one.valid.size hs.one.valid.gens
      (v := sxVec s.params1.n t.lcs v0.deferred.yNew) (by
        rw [sxVec_length, hs.one.valid.length, hs.one.valid.n_eq]
        obtain ⟨m, hm⟩ : ∃ m, s.params1.k = m + 2 := ⟨s.params1.k - 2, by omega⟩
        have : 1 ≤ 2 ^ m := Nat.one_le_two_pow
        rw [hm, Nat.add_sub_cancel, pow_add]
        omega) false
    exact ⟨P, hP, by simpa [offset] using hPd⟩
  rw [hP] at hsNew
  obtain rfl : P = sNew := Option.some.inj hsNew
  have hx0 : v0.deferred.x ≠ 0 := by
    intro h0
    rw [h0, LawfulField.invert_zero] at hx
    cases hx
  have hy0 : v0.deferred.yCur ≠ 0 := by
    intro h0
    rw [h0, LawfulField.invert_zero] at hy
    cases hy
  rw [LawfulField.invert_eq _ hx0] at hx
  cases hx
  -- the three runs
  have sh0 := fake_wellShaped (E1 := E1) (E2 := E2) hs hp a3 b3 h1 h2 c5 c6 hone hone (0 : S)
  obtain ⟨-, K, sat0, k1, kd, p0, u0⟩ := inner_verify hs sh0 hv0
  have hol : 0 < l1.challengesSqPackedNew.length := by rw [(a3.facts hs.one h1).1]; omega
  obtain ⟨-, ⟨_, chs0, T01, T02, T03, _, _, st0, -, -⟩, -, -, -, -, a, drv, hsyn, hky0⟩ :=
    verify_steps (by omega) hol u0 p0
  have sh1 := fake_wellShaped (E1 := E1) (E2 := E2) hs hp a3 b3 h1 h2 c5 c6 (⟨_, hPd⟩ : OnCurve E1 P) hone
    (-(v0.deferred.kyOpening * v0.deferred.yCur ^ s.params1.n) * v0.deferred.x⁻¹)
  obtain ⟨-, K1, sat1, k11, -, p1, u1⟩ := inner_verify hs sh1 hv1
  obtain rfl : K = K1 := Option.some.inj (k1.symm.trans k11)
  obtain ⟨-, ⟨ζ1, chs1, T11, T12, T13, T14, T15, st1, l1c, -⟩, -, ⟨us1, hus1, gx1⟩, ⟨un1, hun1, -⟩, o1, a', drv',
    hsyn1, hky1⟩ := verify_steps (by omega) hol u1 p1
  rw [hsyn] at hsyn1
  cases hsyn1
  obtain ⟨y01, x01, n01, rfl⟩ := fake_start st0 st1
  rw [y01] at hky1
  have hky1 := Option.some.inj (hky0.symm.trans hky1)
  -- the generator
  rw [st1.leftovers, ← st1.new, expandChallenges_eq hun1, Option.some.injEq] at hex
  simp only [Prod.mk.injEq] at hex
  obtain ⟨rfl, rfl, -, rfl⟩ := hex
  have hlun : un1.length = s.params1.k := by rw [hun1.length, st1.new, List.length_map, l1c]
  obtain ⟨g', hg', hgd⟩ : ∃ P, computeG cpus lnCeil s.params1.generators (un1.map (· ^ 2)) (un1.map (·⁻¹)).prod =
      some P ∧ Denotes (E1.b : B) P (collapse un1 s.g1) := by
    exact computeG_rep L.toLawfulCurve hcpus hln hun1.ne (by have := hs.one.valid.k_le; omega)
      (by rw [hs.one.valid.length, hlun]) hs.one.valid.gens
  rw [hg'] at hg
  obtain rfl : g' = g := Option.some.inj hg
  have sh2 := fake_wellShaped (E1 := E1) (E2 := E2) hs hp a3 b3 h1 h2 c5 c6 (⟨_, hPd⟩ : OnCurve E1 P)
    (⟨_, hgd⟩ : OnCurve E1 g')
    (-(v0.deferred.kyOpening * v0.deferred.yCur ^ s.params1.n) * v0.deferred.x⁻¹)
  refine ⟨rfl, ⟨sh2, by simp [fakeInner], by simp [fakeInner], fun r hr => fake_last _ _ _ _ r (List.mem_of_getLast? hr), c4, c2, c3⟩,
    fun v2 hv2 => ?_⟩
  obtain ⟨hl2, K2, sat2, k12, -, p2, u2⟩ := inner_verify hs sh2 hv2
  obtain rfl : K = K2 := Option.some.inj (k1.symm.trans k12)
  obtain ⟨-, ⟨ζ2, chs2, T21, T22, T23, T24, T25, st2, l2c, hf2⟩, hsm, ⟨us2, hus2, gx2⟩, hnew2, o2, a'', drv'',
    hsyn2, hky2⟩ := verify_steps (by omega) hol u2 p2
  rw [hsyn] at hsyn2
  cases hsyn2
  obtain ⟨y02, x02, n02, rfl⟩ := fake_start st0 st2
  rw [y02] at hky2
  have hky2 := Option.some.inj (hky0.symm.trans hky2)
  obtain rfl := roots_unique hus1 hus2
  have hz := st2.z
  rw [show afterOpenings E1 (fakeInner E1 s.params1.k P
      (-(v0.deferred.kyOpening * v0.deferred.yCur ^ s.params1.n) * v0.deferred.x⁻¹) g') v2.deferred T23 =
    afterOpenings E1 (fakeInner E1 s.params1.k P
      (-(v0.deferred.kyOpening * v0.deferred.yCur ^ s.params1.n) * v0.deferred.x⁻¹) (Proj.one E1)) v1.deferred T23 by
      simp only [afterOpenings, gx1, gx2, x01, x02, o1, o2, ← hky1, ← hky2]
      rfl, st1.z, Option.some.injEq, Prod.mk.injEq] at hz
  obtain ⟨rfl, rfl⟩ := hz
  obtain rfl : chs1 = chs2 := st1.rounds.unique st2.rounds (by rw [l1c]; simp [entriesOf, fakeInner])
    (by rw [l2c]; simp [entriesOf, fakeInner])
  obtain ⟨hsd, hsl⟩ := hsm a2
  refine ⟨?_, hl2 ▸ b3, hsl, hl2 ▸ b2, hsd, ⟨?_, ?_, ?_, ?_, ?_, ?_, ?_⟩, ⟨?_, ?_, hnew2⟩, ?_, ?_, ?_⟩
  · show LeftoversOk s _
    refine leftoversOk_of hs hw rfl h1 hp ⟨⟨sx, ?_, ?_⟩, ?_, un1, ?_, ?_⟩
    · rw [st2.leftovers, n02]
      exact hsx
    · rw [st2.leftovers]
      exact hPd
    · rw [st2.leftovers]
      simpa using l2c
    · rw [st2.leftovers, ← st1.new]
      exact hun1
    · rw [st2.leftovers]
      exact hgd
  · show 2 ≤ s.params1.k
    omega
  · rw [x02]; exact hx0
  · rw [y02]; exact hy0
  · rw [st2.old, ← List.length_pos_iff]; exact hol
  · rw [← List.length_pos_iff, st2.new, List.length_map, l2c]; omega
  · rw [st2.old]
    exact (roots_iff _).1 ⟨_, hus1⟩
  · obtain ⟨_, h, -⟩ := hnew2
    exact (roots_iff _).1 ⟨_, h⟩
  · obtain ⟨q1, q2, q3, q4, q5⟩ := o2
    show DeferredRelation (2 ^ (s.params1.k - 2)) _
    rw [DeferredRelation, q1, q2, q3, q4, q5, ← hs.one.valid.n_eq, x02, y02, ← hky2]
    simp only [fakeInner]
    field_simp
    ring
  · exact ⟨_, by rw [st2.old]; exact hus1, gx2⟩
  · rw [st2.old]; exact (a3.facts hs.one h1).1
  · rw [st2.new, List.length_map, l2c]; rfl
  · rw [hf2, List.length_map, l2c]; rfl

theorem xy_eq {p : Proj B} {A : Pt (E1.b : B)} (h : Denotes (E1.b : B) p A) : xy p = coordinates A := by
  rw [xy, getXy_spec h]
  cases A <;> rfl

/-- The lies pass the final check. -/
theorem lies_good {K : Proj B} {π : Proof (Proj B) S} {o : Leftovers (Proj B) S} {d : Deferred S} {ζ : S}
    {G GN : Pt (E1.b : B)} (hG : Denotes (E1.b : B) (Proj.one E1) G) (hGN : Denotes (E1.b : B) π.innerProduct.g GN) :
    GoodClaims G GN (instancesOf E1 K π o d ζ) π.innerProduct.a (lies E1 π d) := by
  have gc := HaloCurve.good E1 B S
  intro j y a hy ha
  have hy : [d.bX, d.bXy, d.bYOld, d.bYCur, d.bYNew][j]? = some y := hy
  have e1 : π.innerProduct.a.getD j 0 = a := by rw [List.getD_eq_getElem?_getD, ha]; rfl
  have e2 : [d.bX, d.bXy, d.bYOld, d.bYCur, d.bYNew].getD j 0 = y := by rw [List.getD_eq_getElem?_getD, hy]; rfl
  simp only [lies, e1, e2, xy_eq hG, xy_eq (denotes_mul gc hGN a), xy_eq (denotes_mul gc hG (a * y))]

/-- The lying prover satisfies the circuit. -/
theorem lying_provable (hs : s.Good) {q : RecursiveProof S B} (hq : Attackable s.swap q) {v : Inner S B}
    (hv : q.verifyInner E2 E1 cpus lnCeil s.params2 s.params1 i2 i1 = .ok v)
    (hapart : Apart s.g2 (bytesBits (q.inputBytes E2 E1)))
    (hacc : Accepts i1 (bytesBits q.payload) (bytesBits payload)) :
    Provable ((newCircuit s.params2 (some q) i1 payload v).synthesizeWith E1 E2
      (cheatFold E2 B s.params2.k (lies E2 q.proof v.deferred))) fun _ _ => True := by
  obtain ⟨hl, K, sat, -, hK, hpts, hver⟩ := inner_verify hs.swap hq.shape hv
  have hk : 3 < s.params2.k := hs.two.valid.k_gt
  obtain ⟨-, ⟨ζ, chs, T1, T2, T3, T4, T5, hst, hc, hf⟩, -, -, -, -, -⟩ :=
    verify_steps (show 0 < s.swap.params1.k by show 0 < s.params2.k; omega)
      (by rw [hq.shape.old1]; show 0 < s.params2.k; omega) hver hpts
  have hc : chs.length = s.params2.k := hc
  have hgens : Gens E2 s.params2.generators s.g2 := hs.two.gens
  have hglen : s.params2.generators.length = 2 ^ s.params2.k := hs.two.valid.length
  have hge : 16 ≤ s.params2.generators.length := hs.two.length_ge
  have hroom : 8 * s.bytes + 2 * leftoversBits s.params2.k + deferredBits s.params2.k + 2 ≤ 2 ^ s.params2.k :=
    hs.two.room
  have hbl := inputBytes_length (E1 := E2) (E2 := E1) (s := s.swap)
    (by have := hq.shape.payload; simp only [Setup.swap] at this ⊢; omega)
    hq.shape.old1 hq.shape.old2 hq.shape.deferredOld hq.shape.deferredNew
  have hbl : _ = 8 * s.bytes + 2 * leftoversBits s.params2.k + deferredBits s.params2.k := hbl
  have hwf := hq.wf
  have hh := hq.holds
  rw [show s.swap.params2.k = s.params2.k from hs.k_eq] at hwf hh
  have hnl : v.leftovers1.challengesSqPackedNew.length = s.params2.k := by
    rw [hst.leftovers]; simpa using hc
  refine provable_of_complete fun w one hone => ?_
  refine synthesizeWith_follow (E := E2) (E1 := E1) (c := newCircuit s.params2 (some q) i1 payload v) hone (P := q) rfl rfl hq.shape hq.rounds hq.a rfl rfl hnl rfl
    (by rw [hst.old]; exact hq.shape.old1) (by rw [hst.new, List.length_map]; exact hc) rfl (dOld := q.deferred) rfl
    hq.shape.deferredOld hq.shape.deferredNew hq.small hwf hh hgens
    (show 2 ≤ s.params2.generators.length by omega) (bits := bytesBits (q.inputBytes E2 E1)) ?_ ?_
    hapart (hacc w one hone) hK hc (by rw [← hf]; rfl) (fun _ => hst) fun G GN hG hG0 hGN => ?_
  · show _ = bytesBits q.payload ++ bytesBits _ ++ bytesBits _ ++ _
    rw [RecursiveProof.inputBytes, bytesBits_append, bytesBits_append, bytesBits_append, hl]
  · show _ ≤ s.params2.generators.length - 2
    rw [hglen, hbl]
    omega
  · refine folds_cheat ⟨q, rfl⟩ hone hG0 ?_ (by omega) ?_ hq.a hq.entries (lies_good hG hGN)
    · rw [entriesOf, List.length_map]
      exact hq.rounds
    · intro es he
      obtain ⟨r, hr, rfl⟩ := List.mem_map.1 he
      obtain ⟨m1, m2, m3, m4⟩ := hq.shape.sizes r hr
      show _ = 5
      simp only [List.length_take, List.length_zip]
      omega

/-- The verifier's circuit is satisfiable with the public inputs of the liar. -/
theorem lying_satisfies (hs : s.Good) (h1 : s.user1 i1) (hp : s.admitted payload)
    {q : RecursiveProof S B} (hq : Attackable s.swap q) {v : Inner S B}
    (hv : q.verifyInner E2 E1 cpus lnCeil s.params2 s.params1 i2 i1 = .ok v)
    (hapart : Apart s.g2 (bytesBits (q.inputBytes E2 E1)))
    (hacc : Accepts i1 (bytesBits q.payload) (bytesBits payload)) {i1' : RecursiveCircuit S} (h1' : s.user1 i1') :
    ∃ a t w, circuitSystem false ((blankCircuit s.params2 i1' payload : VerificationCircuit S B).synthesize E1 E2) =
      .ok (a, t) ∧ t.Satisfied w ((stepBits E1 E2 v payload).map
          fun b => if b then 1 else 0) := by
  obtain ⟨hl, K, sat, -, hK, hpts, hver⟩ := inner_verify hs.swap hq.shape hv
  have hk : 3 < s.params2.k := hs.two.valid.k_gt
  obtain ⟨-, ⟨ζ, chs, T1, T2, T3, T4, T5, hst, hc, hf⟩, -, -, -, -, -⟩ :=
    verify_steps (show 0 < s.swap.params1.k by show 0 < s.params2.k; omega)
      (by rw [hq.shape.old1]; show 0 < s.params2.k; omega) hver hpts
  have hc : chs.length = s.params2.k := hc
  have hw : (newCircuit s.params2 (some q) i1 payload v).WellShaped E2 :=
    { newPayload := by
        show 8 * payload.length = i1.basePayload.length
        rw [hs.one.base i1 h1, hs.one.size _ hp]
      proof := by
        rintro _ ⟨⟩
        show q.WellShaped E2 s.params2.k i1.basePayload.length
        rw [hs.one.base i1 h1]
        exact hq.shape
      forkvalues := by
        rintro _ ⟨⟩
        rw [hf, List.length_map, hc]
        rfl
      oldLeftovers := by
        rintro _ ⟨⟩
        rw [hl]
        exact hq.shape.old2
      newLeftovers := by
        rintro _ ⟨⟩
        rw [hst.leftovers]
        show (chs.map _).length = s.params2.k
        rw [List.length_map, hc]
      deferred := by
        rintro _ ⟨⟩
        exact ⟨by rw [hst.old]; exact hq.shape.old1, by rw [hst.new, List.length_map]; exact hc⟩ }
  obtain ⟨⟨⟩, t, ht, hsat, -⟩ := lying_provable (payload := payload) hs hq hv hapart hacc
  obtain ⟨gates, lcs, ⟨b, t0, ht0, hg0, hl0, hpos0, -⟩, hsame⟩ := same_circuitWith (E1 := E1)
    (fun V => foldTwin_cheatFold) (c := newCircuit s.params2 (some q) i1 payload v)
    (c' := (blankCircuit s.params2 i1' payload : VerificationCircuit S B)) hs.two.good rfl
    (hs.one.same _ _ _ h1 h1' hp) hw (blank_wellShaped hs.one h1' hp)
  obtain ⟨⟨_, _, ht2, hgt, hlt, hpos, -⟩, hin⟩ := hsame _ _ _ ht
  rw [ht] at ht2
  cases ht2
  have hpb : (newCircuit s.params2 (some q) i1 payload v).publicBits E1 E2 = stepBits E1 E2 v payload := by
    rw [stepBits, bytesBits_append, bytesBits_append, bytesBits_append]
    rfl
  have hpub : t.publicInputs = (stepBits E1 E2 v payload).map
          fun b => if b then 1 else 0 := by
    have : (t.inputs.map fun p => p.2.getD 0) = (t.inputs.map Prod.snd).map fun o => o.getD 0 := by simp
    rw [System.publicInputs, this, hin, hpb]
    simp
  refine ⟨b, t0, t.w, ht0, ?_⟩
  rw [← hpub]
  rw [System.Satisfied, hgt, hlt, hpos] at hsat
  rw [System.Satisfied, hg0, hl0, hpos0]
  exact hsat

/-- With other numbers at the end, the inner product argument is rejected, and everything else is as before. -/
theorem opening_rejected {ip : MultiPolynomialOpening (Proj B) S}
    {c0 : PolynomialOpening (Proj B) S} {cs : List (PolynomialOpening (Proj B) S)} {k : ℕ} {T T' : Rescue B}
    {sat : Bool} {packed : List S} {g : Proj B} {forks : List ℕ} {sq us inv : List S} {p b : S}
    (h : @MultiPolynomialOpening.verifyProof _ _ _ _ _ _ _ _ _ (Proj.curveOps E1 B S) Transcript.rescue ip
      (c0 :: cs) k T = some (sat, packed, g, forks, T'))
    (hlen : (c0 :: cs).length = 5) (hc : ∀ c ∈ c0 :: cs, OnCurve E1 c.commitment)
    (hr : ∀ r ∈ ip.rounds, (∀ q ∈ r.L, OnCurve E1 q) ∧ ∀ q ∈ r.R, OnCurve E1 q)
    (hex : expandChallenges packed = some (sq, us, inv, p)) (hb : Util.computeB c0.point us inv = some b)
    (hb0 : b ≠ 0) :
    ∃ a : List S, a.length = 5 ∧
      @MultiPolynomialOpening.verifyProof _ _ _ _ _ _ _ _ _ (Proj.curveOps E1 B S) Transcript.rescue
        { ip with a := a } (c0 :: cs) k T = some (false, packed, g, forks, T') := by
  let := Proj.curveOps E1 B S
  unfold MultiPolynomialOpening.verifyProof at h
  by_cases hk : ip.rounds.length ≠ k
  · rw [if_pos hk] at h
    cases h
  rw [if_neg hk] at h
  simp only [Option.bind_eq_bind, Option.bind_eq_some_iff] at h
  obtain ⟨⟨pv, chs, T1⟩, hv, ok, hcf, h⟩ := h
  simp only [Option.some.injEq, Prod.mk.injEq] at h
  obtain ⟨rfl, rfl, rfl, rfl, rfl⟩ := h
  obtain ⟨-, -, -, r4, -⟩ := verifyRounds_run hv (by rw [List.length_map, hlen]) (by
    intro e he
    obtain ⟨c, hc', rfl⟩ := List.mem_map.1 he
    exact hc c hc') hr
  have hroots : Roots (chs.map (·.challengeSqPacked)) (chs.map (·.challenge)) := by
    unfold Roots
    rw [List.forall₂_map_left_iff, List.forall₂_map_right_iff, List.forall₂_same]
    intro c hc
    rw [(r4 c hc).1.packed]
    exact (r4 c hc).1.sqrt
  have hinv : chs.map (·.challengeInv) = (chs.map (·.challenge)).map (·⁻¹) := by
    rw [List.map_map]
    exact List.map_congr_left fun c hc => (r4 c hc).1.inv
  rw [expandChallenges_eq hroots] at hex
  simp only [Option.some.injEq, Prod.mk.injEq] at hex
  obtain ⟨-, rfl, rfl, -⟩ := hex
  rw [List.map_cons] at hcf
  obtain ⟨⟨P, v⟩, pv, rfl⟩ : ∃ e pv', pv = e :: pv' := by
    cases pv with
    | nil => simp [checkFinal] at hcf
    | cons e pv' => exact ⟨_, _, rfl⟩
  refine ⟨[(v + 1) / b, 1, 1, 1, 1], rfl, ?_⟩
  unfold MultiPolynomialOpening.verifyProof
  rw [if_neg hk]
  simp only [Option.bind_eq_bind, Option.bind_eq_some_iff]
  refine ⟨_, hv, false, ?_, rfl⟩
  rw [hinv, List.map_cons]
  simp only [checkFinal, Option.bind_eq_bind]
  rw [hb, Option.bind_some]
  split
  · rfl
  · rw [if_pos]
    rw [div_mul_cancel₀ _ hb0]
    simp

/-- With other numbers at the end of the inner product argument, the verifier rejects, and everything else is as
before. -/
theorem other_rejected {params : Params (Proj B)} {α : Type} {circuit : Var → Prog S α} {inputs : List S}
    {π : Proof (Proj B) S} {o : Leftovers (Proj B) S} {K : Proj B} {sat : Bool} {l : Leftovers (Proj B) S}
    {d : Deferred S} {forks : List ℕ} (hb : d.bX ≠ 0) (hp : PointsOk E1 K π o)
    (h : @Proof.verify _ _ _ _ _ _ _ _ _ (Proj.curveOps E1 B S) Transcript.rescue cpus lnCeil _ π o params
      circuit inputs (some K) = .ok (sat, l, d, forks)) :
    ∃ a : List S, a.length = 5 ∧
      @Proof.verify _ _ _ _ _ _ _ _ _ (Proj.curveOps E1 B S) Transcript.rescue cpus lnCeil _
        { π with innerProduct := { π.innerProduct with a := a } } o params circuit inputs (some K) =
        .ok (false, l, d, forks) := by
  have gc := HaloCurve.good E1 B S
  unfold Proof.verify at h
  simp only [bind_eq_ok, ofOption_eq_ok, ite_panic_eq_ok, Except.bind_error, Except.ok.injEq, exists_eq_left'] at h
  obtain ⟨⟨a, drv⟩, hsyn, hlen, ⟨y, T1⟩, hy, ⟨x, T2⟩, hx, ⟨yn, T3⟩, hyn, ky, hky, h⟩ := h
  obtain ⟨⟨sqo, uso, invo, po⟩, hexo, gx, hgx, ⟨ζ, T4⟩, hz, ⟨sat, packed, gN, fk, T5⟩, hip, h⟩ := h
  obtain ⟨⟨sqn, usn, invn, pn⟩, hexn, bX, hbX, bXy, hbXy, bYO, hbYO, bYC, hbYC, bYN, hbYN, h⟩ := h
  simp only [Prod.mk.injEq] at h
  obtain ⟨rfl, rfl, rfl, rfl⟩ := h
  have hma : ∀ {p q : Proj B} (z : S), OnCurve E1 p → OnCurve E1 q → OnCurve E1 (Proj.add E1 (Proj.mul E1 p z) q) :=
    fun z ⟨_, hA⟩ ⟨_, hB⟩ => ⟨_, denotes_add gc (denotes_mul gc hA z) hB⟩
  have hq : ∀ (z : S), OnCurve E1 (Proj.add E1 π.cCommitment (Proj.mul E1 K z)) := fun z => by
    obtain ⟨A, hA⟩ := hp.c
    obtain ⟨B, hB⟩ := hp.k
    exact ⟨_, denotes_add gc hA (denotes_mul gc hB z)⟩
  obtain ⟨a, ha, hip'⟩ := opening_rejected hip rfl (by
    simp only [List.forall_mem_cons]
    exact ⟨hma _ (hma _ (hma _ (hma _ (hma _ (hma _ hp.r hp.sOld) hp.sCur) hp.tPositive) hp.tNegative) hp.sNew)
      hp.gOld, hp.r, hp.c, hq _, hp.c, by simp⟩) hp.points hexn hbX hb
  refine ⟨a, ha, ?_⟩
  unfold Proof.verify
  simp only [bind_eq_ok, ofOption_eq_ok, ite_panic_eq_ok, Except.bind_error, Except.ok.injEq, exists_eq_left']
  exact ⟨_, hsyn, hlen, _, hy, _, hx, _, hyn, _, hky, _, hexo, _, hgx, _, hz, _, hip', _, hexn, _, hbX, _, hbXy, _,
    hbYO, _, hbYC, _, hbYN, rfl⟩

/-- The same for recursive proofs -/
theorem other_inner (hs : s.Good) {q : RecursiveProof B S} (hq : Attackable s q) {v : Inner B S}
    (hv : q.verifyInner E1 E2 cpus lnCeil s.params1 s.params2 i1 i2 = .ok v) (hb : v.deferred.bX ≠ 0) :
    ∃ a : List S, Attackable s (q.withLast a) ∧
      (q.withLast a).verifyInner E1 E2 cpus lnCeil s.params1 s.params2 i1 i2 = .ok { v with worked := false } := by
  obtain ⟨hl, K, sat, hK, -, hpts, hver⟩ := inner_verify hs hq.shape hv
  obtain ⟨a, ha, hver'⟩ := other_rejected hb hpts hver
  refine ⟨a, ⟨⟨hq.shape.payload, hq.shape.old1, hq.shape.old2, hq.shape.deferredOld, hq.shape.deferredNew, hq.shape.r,
    hq.shape.sCur, hq.shape.tPositive, hq.shape.tNegative, hq.shape.c, hq.shape.sNew, hq.shape.g, hq.shape.sOld,
    hq.shape.gOld, ha.ge, hq.shape.rounds, hq.shape.sizes, hq.shape.points⟩, hq.rounds, ha, hq.last, hq.small, hq.wf,
    hq.holds⟩, ?_⟩
  unfold RecursiveProof.verifyInner at hv ⊢
  simp only [bind_eq_ok, ofOption_eq_ok, ite_panic_eq_ok, Except.bind_error, Except.ok.injEq] at hv ⊢
  obtain ⟨hg, K', hK', ⟨sat', l, d, f⟩, hver1, w2, hw2, rfl⟩ := hv
  obtain rfl := Option.some.inj (hK'.symm.trans hK)
  exact ⟨hg, _, hK, _, hver', w2, hw2, rfl⟩

end Recursion
end Halo
