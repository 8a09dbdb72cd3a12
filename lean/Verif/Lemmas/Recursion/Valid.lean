import Verif.Lemmas.Recursion.FollowRun
import Verif.Spec.RecursionHonest
import Verif.Props.Honest
import Verif.Props.RecursionShape
/-!
# Recursive proofs that keep the recursion going
-/
set_option linter.unusedSectionVars false

namespace Halo
namespace Recursion
open Circuit Proofs Util
variable {E1 E2 : CurveConsts} {B S : Type} [Field B] [DecidableEq B] [LawfulField B] [Field S] [DecidableEq S]
  [LawfulField S]

/-- Leftovers of the first curve are correct. -/
def LeftoversOk [HaloCurve E1 B S] (s : Setup E1 E2 B S) (l : Leftovers (Proj B) S) : Prop :=
  letI := HaloCurve.module (E := E1) (F := B) (S := S)
  ∀ i (payload : List (BitVec 8)), s.user1 i → s.admitted payload →
    ValidLeftovers (Denotes (E1.b : B)) s.g1 s.params1
      ((blankCircuit s.params2 i payload : VerificationCircuit S B).synthesize E1 E2) l

/-- A recursive proof is right in every respect. -/
structure Valid [HaloCurve E1 B S] [HaloCurve E2 S B] (s : Setup E1 E2 B S) (p : RecursiveProof B S) : Prop where
  admitted : s.admitted p.payload
  shape : p.WellShaped E1 s.params1.k (8 * s.bytes)
  rounds : p.proof.innerProduct.rounds.length = s.params1.k
  a : p.proof.innerProduct.a.length = 5
  small1 : p.oldproof1.Small
  small2 : p.oldproof2.Small
  smallD : p.deferred.Small
  old2 : LeftoversOk s.swap p.oldproof2
  wf : WellFormedDeferred s.params2.k p.deferred
  holds : TrueDeferred s.params2.k p.deferred
  verified : ∀ i, s.user1 i → ∀ (cpus : ℕ) (lnCeil : ℕ → ℕ), 0 < cpus →
      (∀ n, 32 ≤ n → n < 2 ^ 32 → 1 ≤ lnCeil n ∧ lnCeil n ≤ 57) → ∃ K l d forks,
    inputCommitment E1 s.params1.generators (bytesBits (p.inputBytes E1 E2)) = some K ∧
    Denotes (E1.b : B) K (inputSum s.g1 (bytesBits (p.inputBytes E1 E2))) ∧
    @Proof.verify _ _ _ _ _ _ _ _ _ (Proj.curveOps E1 B S).exact
      Transcript.rescue cpus lnCeil _ p.proof p.oldproof1 s.params1
      ((blankCircuit s.params2 i p.payload : VerificationCircuit S B).synthesize E1 E2)
      ((bytesBits (p.inputBytes E1 E2)).map fun b => if b then 1 else 0) (some K) = .ok (true, l, d, forks) ∧
    WellFormedDeferred s.params1.k d ∧ TrueDeferred s.params1.k d ∧ LeftoversOk s l

variable [HaloCurve E1 B S] [HaloCurve E2 S B] {s : Setup E1 E2 B S}

theorem Valid.points {p : RecursiveProof B S} (h : Valid s p) {K : Proj B}
    (hK : OnCurve E1 K) : PointsOk E1 K p.proof p.oldproof1 :=
  ⟨hK, h.shape.r, h.shape.sCur, h.shape.tPositive, h.shape.tNegative, h.shape.c, h.shape.sNew, h.shape.g,
    h.shape.sOld, h.shape.gOld, h.shape.points⟩

theorem leftovers_verify (hs : s.Half) {l : Leftovers (Proj B) S} (hl : LeftoversOk s l) {i : RecursiveCircuit S}
    (hi : s.user1 i) {payload : List (BitVec 8)} (hp : s.admitted payload) {cpus : ℕ} (hcpus : 0 < cpus)
    {lnCeil : ℕ → ℕ} (hln : ∀ n, 32 ≤ n → n < 2 ^ 32 → 1 ≤ lnCeil n ∧ lnCeil n ≤ 57) :
    @Leftovers.verify _ _ _ _ _ (Proj.curveOps E1 B S) cpus lnCeil _ l s.params1
      ((blankCircuit s.params2 i payload : VerificationCircuit S B).synthesize E1 E2) = .ok true := by
  let := Proj.curveOps E1 B S
  let := HaloCurve.module (E := E1) (F := B) (S := S)
  exact (C45_leftovers_partial hcpus hln hs.valid).1 (hl i payload hi hp)

theorem deferred_true {F : Type} [Field F] [DecidableEq F] [LawfulField F] {k : ℕ} {d : Deferred F}
    (h1 : WellFormedDeferred k d) (h2 : TrueDeferred k d) : d.verify k = some true := by
  obtain ⟨b, m1, m2⟩ := (C45_deferred k d).1 h1
  rw [m1, m2.2 h2]

/-- What `verify_inner` returns -/
theorem Valid.inner (hs : s.Good) {p : RecursiveProof B S} (h : Valid s p) {i1 : RecursiveCircuit S}
    {i2 : RecursiveCircuit B} (h1 : s.user1 i1) (h2 : s.user2 i2) {cpus : ℕ} (hcpus : 0 < cpus)
    {lnCeil : ℕ → ℕ} (hln : ∀ n, 32 ≤ n → n < 2 ^ 32 → 1 ≤ lnCeil n ∧ lnCeil n ≤ 57) :
    ∃ v, p.verifyInner E1 E2 cpus lnCeil s.params1 s.params2 i1 i2 = .ok v ∧ v.worked = true ∧
      v.leftovers2 = p.oldproof2 ∧ WellFormedDeferred s.params1.k v.deferred ∧
      TrueDeferred s.params1.k v.deferred ∧ LeftoversOk s v.leftovers1 ∧ v.deferred.Small ∧
      v.leftovers1.Small ∧ ∃ K ζ chs T1 T2 T3 T4 T5,
        Denotes (E1.b : B) K (inputSum s.g1 (bytesBits (p.inputBytes E1 E2))) ∧
        Run E1 K p.proof p.oldproof1 v.deferred v.leftovers1 ζ chs T1 T2 T3 T4 T5 ∧ chs.length = s.params1.k ∧
        v.forkvalues = chs.map (·.fork) := by
  obtain ⟨K, l, d, forks, hK, hd, hv, hw, ht, hl⟩ := h.verified i1 h1 cpus lnCeil hcpus hln
  have hk := hs.one.valid.k_gt
  obtain ⟨⟨ζ, chs, T1, T2, T3, T4, T5, hrun, hc, hf⟩, hsm, hver⟩ :=
    verify_run (by omega) hv (h.points ⟨_, hd⟩)
  have hb := h.admitted
  have hver2 : @Leftovers.verify _ _ _ _ _ (Proj.curveOps E2 S B) cpus lnCeil _ p.oldproof2 s.params2
      ((blankCircuit s.params1 i2 p.payload : VerificationCircuit B S).synthesize E2 E1) = .ok true :=
    leftovers_verify hs.two h.old2 h2 hb hcpus hln
  have hlen : ¬ s.params1.generators.length < 2 := by
    have := Nat.pow_le_pow_right (n := 2) (by norm_num) hk.le
    rw [hs.one.valid.length]
    omega
  refine ⟨⟨true, d, l, p.oldproof2, forks⟩, ?_, rfl, rfl, hw, ht, hl, (hsm h.small1).1, (hsm h.small1).2,
    K, ζ, chs, T1, T2, T3, T4, T5, hd, hrun, hc, hf⟩
  unfold RecursiveProof.verifyInner
  simp only [if_neg hlen, hK, hver, ofOption, Except.bind_ok, hver2]
  rfl

/-- Such a proof is accepted. -/
theorem Valid.verify (hs : s.Good) {p : RecursiveProof B S} (h : Valid s p) {i1 : RecursiveCircuit S}
    {i2 : RecursiveCircuit B} (h1 : s.user1 i1) (h2 : s.user2 i2) {cpus : ℕ} (hcpus : 0 < cpus)
    {lnCeil : ℕ → ℕ} (hln : ∀ n, 32 ≤ n → n < 2 ^ 32 → 1 ≤ lnCeil n ∧ lnCeil n ≤ 57) :
    p.verify E1 E2 cpus lnCeil s.params1 s.params2 i1 i2 = .ok true := by
  obtain ⟨v, hv, hw, hl2, hwf, ht, hl1, -⟩ := h.inner hs h1 h2 hcpus hln
  have hb := h.admitted
  have e1 := leftovers_verify hs.one hl1 h1 hb hcpus hln
  have e2 := leftovers_verify hs.two h.old2 h2 hb hcpus hln
  unfold RecursiveProof.verify
  simp only [hv, Except.bind_ok, deferred_true h.wf h.holds, deferred_true hwf ht, ofOption, e1, hl2]
  have e2 : @Leftovers.verify _ _ _ _ _ (Proj.curveOps E2 S B) cpus lnCeil _ p.oldproof2 s.params2
      ((blankCircuit s.params1 i2 p.payload : VerificationCircuit B S).synthesize E2 E1) = .ok true := e2
  rw [e2, hw]
  rfl

theorem Setup.Good.swap (hs : s.Good) : s.swap.Good := ⟨hs.k_eq.symm, hs.two, hs.one⟩

theorem Setup.Half.gens (hs : s.Half) : Gens E1 s.params1.generators s.g1 :=
  fun i h => ⟨hs.affine _ (List.getElem_mem h), hs.valid.gens i h⟩

theorem Setup.Half.length_ge (hs : s.Half) : 16 ≤ s.params1.generators.length := by
  rw [hs.valid.length]
  exact Nat.pow_le_pow_right (n := 2) (i := 4) (by norm_num) hs.valid.k_gt

theorem Setup.Half.good (hs : s.Half) : GoodParams E1 s.params1 where
  k_ge := by have := hs.valid.k_gt; omega
  two := by have := hs.length_ge; omega
  gens p hp := by
    obtain ⟨i, h, rfl⟩ := List.mem_iff_getElem.1 hp
    exact ⟨hs.affine _ hp, _, hs.valid.gens i h⟩
  first p q hp hq A B hA hB := by
    obtain ⟨h1, rfl⟩ := List.getElem?_eq_some_iff.1 hp
    obtain ⟨h2, rfl⟩ := List.getElem?_eq_some_iff.1 hq
    rw [denotes_unique hA (hs.valid.gens 1 h1), denotes_unique hB (hs.valid.gens 2 h2)]
    exact hs.first

theorem blank_wellShaped (hs : s.Half) {i : RecursiveCircuit S} (hi : s.user1 i) {payload : List (BitVec 8)}
    (hp : s.admitted payload) :
    (blankCircuit s.params2 i payload : VerificationCircuit S B).WellShaped E2 where
  newPayload := by
    show 8 * payload.length = i.basePayload.length
    rw [hs.base i hi, hs.size _ hp]
  proof := nofun
  forkvalues := nofun
  oldLeftovers := nofun
  newLeftovers := nofun
  deferred := nofun

/-- All circuits have the same `s(X, y)`. -/
theorem same_sx (hs : s.Good) {c c' : VerificationCircuit S B} (hc : c.WellShaped E2) (hc' : c'.WellShaped E2)
    (h1 : c.params = s.params2) (h1' : c'.params = s.params2) (h2 : s.user1 c.inner) (h2' : s.user1 c'.inner)
    (h3 : s.admitted c.newPayload) (h3' : s.admitted c'.newPayload) :
    ∀ n (y : S), computeSx n (c.synthesize E1 E2) y = computeSx n (c'.synthesize E1 E2) y := by
  have hg : GoodParams E2 c.params := by rw [h1]; exact hs.two.good
  obtain ⟨_, _, ⟨a, t, ht, -⟩, -⟩ := C57_same_circuit (E1 := E1) hg rfl (hs.one.same _ _ _ h2 h2 h3) hc hc
  obtain ⟨g, l, k1, k2⟩ := C57_same_circuit (E1 := E1) hg (h1'.trans h1.symm)
    (hs.one.same _ _ _ h2 h2' h3') hc hc'
  exact computeSx_shape (k2 false a t ht).1 k1

theorem sx_ok (hs : s.Good) {c : VerificationCircuit S B} (hc : c.WellShaped E2)
    (h1 : c.params = s.params2) (h2 : s.user1 c.inner) (h3 : s.admitted c.newPayload) (n : ℕ) (y : S) :
    ∃ sx, computeSx n (c.synthesize E1 E2) y = .ok sx := by
  have hg : GoodParams E2 c.params := by rw [h1]; exact hs.two.good
  obtain ⟨_, _, ⟨a, t, ht, -, -, -, hw⟩, -⟩ := C57_same_circuit (E1 := E1) hg rfl (hs.one.same _ _ _ h2 h2 h3) hc hc
  exact ⟨_, (computeSx_of n y ht hw).1⟩

/-- The circuit of a prover that folds in its own way is the same circuit. -/
theorem same_circuitWith {c c' : VerificationCircuit S B} {fold : Fold S}
    (hfold : ∀ V, FoldTwin V E2 B c.params.k fold) (hp : GoodParams E2 c.params) (hpar : c'.params = c.params)
    (hin : c.inner.Uniform c'.inner (bytesBits c'.newPayload)) (hc : c.WellShaped E2) (hc' : c'.WellShaped E2) :
    ∃ gates lcs,
      HasShape false (c'.synthesize E1 E2) gates lcs (List.range' 1 ((c.publicBits E1 E2).length + 1)) ∧
      ∀ known a s, circuitSystem known (c.synthesizeWith E1 E2 fold) = .ok (a, s) →
        HasShape known (c.synthesizeWith E1 E2 fold) gates lcs (List.range' 1 ((c.publicBits E1 E2).length + 1)) ∧
        s.inputs.map Prod.snd = some 1 :: (c.publicBits E1 E2).map fun b => some (if b then 1 else 0) := by
  obtain ⟨b, t', h1, h2, h3, h4⟩ := twin_system (F := S) (R := fun _ _ => True)
    fun V one h1 => twin_synthesizeWith (E1 := E1) (E2 := E2) (V := V) (one := one) (hfold V) h1
      ⟨hpar, hin, hc, hc'⟩ hp
  rw [List.length_map] at h3 h4
  refine ⟨t'.gates, t'.lcs, ⟨b, t', h1, rfl, rfl, h3, h2⟩, fun known a s hs => ?_⟩
  obtain ⟨-, h5, h6⟩ := h4 known a s hs
  refine ⟨⟨a, s, hs, h5.gates, h5.lcs, h5.inputs.trans h3, h5.wellScoped.trans h2⟩, ?_⟩
  rw [h6, ← List.unzip_snd, List.unzip_zip (by simp)]
  simp [ofBool]

/-- Leftovers that are correct for one of the circuits are correct for all. -/
theorem leftoversOk_of (hs : s.Good) {c : VerificationCircuit S B} (hc : c.WellShaped E2)
    (h1 : c.params = s.params2) (h2 : s.user1 c.inner) (h3 : s.admitted c.newPayload) {l : Leftovers (Proj B) S} :
    letI := HaloCurve.module (E := E1) (F := B) (S := S)
    ValidLeftovers (Denotes (E1.b : B)) s.g1 s.params1 (c.synthesize E1 E2) l → LeftoversOk s l := by
  let := HaloCurve.module (E := E1) (F := B) (S := S)
  intro h i payload hi hp
  have := same_sx (E1 := E1) hs hc (blank_wellShaped hs.one hi hp) h1 rfl h2 hi h3 hp
  exact ⟨by simpa only [← this] using h.s, h.len, h.g⟩

theorem LeftoversOk.to (hs : s.Good) {l : Leftovers (Proj B) S} (h : LeftoversOk s l)
    {c : VerificationCircuit S B} (hc : c.WellShaped E2)
    (h1 : c.params = s.params2) (h2 : s.user1 c.inner) (h3 : s.admitted c.newPayload) :
    letI := HaloCurve.module (E := E1) (F := B) (S := S)
    ValidLeftovers (Denotes (E1.b : B)) s.g1 s.params1 (c.synthesize E1 E2) l := by
  let := HaloCurve.module (E := E1) (F := B) (S := S)
  obtain ⟨payload, hp⟩ := hs.one.inhabited
  have h := h c.inner _ h2 hp
  have := same_sx (E1 := E1) hs hc (blank_wellShaped hs.one h2 hp) h1 rfl h2 h2 h3 hp
  exact ⟨by simpa only [this] using h.s, h.len, h.g⟩

/-- The dummy leftovers -/
theorem dummy_leftovers (hs : s.Good) {i : RecursiveCircuit S} (hi : s.user1 i) {cpus : ℕ} (hcpus : 0 < cpus)
    {lnCeil : ℕ → ℕ} (hln : ∀ n, 32 ≤ n → n < 2 ^ 32 → 1 ≤ lnCeil n ∧ lnCeil n ≤ 57) :
    ∃ l, @Leftovers.dummy _ _ _ _ _ _ (Proj.curveOps E1 B S) cpus lnCeil s.params1 = some l ∧ l.Small ∧
      LeftoversOk s l := by
  let := Proj.curveOps E1 B S
  let := HaloCurve.module (E := E1) (F := B) (S := S)
  obtain ⟨payload, hp⟩ := hs.one.inhabited
  have hw := blank_wellShaped hs.one hi hp
  obtain ⟨sx, hsx⟩ := sx_ok (E1 := E1) hs hw rfl hi hp s.params1.n 0
  obtain ⟨l, k1, k2, k3, -⟩ := C45_leftovers_dummy hcpus hln hs.one.valid hsx
  refine ⟨l, k1, ⟨by rw [k2, LawfulField.val_zero]; norm_num, ?_⟩, leftoversOk_of hs hw rfl hi hp k3⟩
  unfold Leftovers.dummy at k1
  simp only [Option.bind_eq_bind, Option.bind_eq_some_iff, Option.some.injEq] at k1
  obtain ⟨_, -, _, -, rfl⟩ := k1
  intro a ha
  rw [List.eq_of_mem_replicate ha, LawfulField.fromU64_eq, LawfulField.val_of_lt]
  · exact MAGIC.isLt.trans_le (Nat.pow_le_pow_right (by omega) (by omega))
  · have := (LawfulField.modulus_bound (F := S)).1
    exact (MAGIC.isLt.trans_le (Nat.pow_le_pow_right (by omega) (by omega))).trans_le this.le

/-- What `create_proof` carries over is right, although the old proof may not be. -/
structure Carriable (s : Setup E1 E2 B S) (v : Inner S B) : Prop where
  l1 : LeftoversOk s.swap v.leftovers1
  l2 : LeftoversOk s v.leftovers2
  small1 : v.leftovers1.Small
  small2 : v.leftovers2.Small
  smallD : v.deferred.Small
  wf : WellFormedDeferred s.params2.k v.deferred
  holds : TrueDeferred s.params2.k v.deferred
  lenO : v.deferred.challengesSqPackedOld.length = s.params2.k
  lenN : v.deferred.challengesSqPackedNew.length = s.params2.k
  forks : s.params2.k ≤ v.forkvalues.length

/-- What `create_proof` carries over -/
structure CarriedOk (s : Setup E1 E2 B S) (old : Option (RecursiveProof S B)) (v : Inner S B) : Prop
    extends Carriable s v where
  run : ∃ chs : List (Challenge B), chs.length = s.params2.k ∧ v.forkvalues = chs.map (·.fork) ∧ ∀ q ∈ old,
    v.leftovers2 = q.oldproof2 ∧ ∃ K ζ T1 T2 T3 T4 T5,
      Denotes (E2.b : S) K (inputSum s.g2 (bytesBits (q.inputBytes E2 E1))) ∧
      Run E2 K q.proof q.oldproof1 v.deferred v.leftovers1 ζ chs T1 T2 T3 T4 T5

theorem carried_ok (hs : s.Good) {old : Option (RecursiveProof S B)} (hold : ∀ q ∈ old, Valid s.swap q)
    {i1 : RecursiveCircuit S} {i2 : RecursiveCircuit B} (h1 : s.user1 i1) (h2 : s.user2 i2) {cpus : ℕ}
    (hcpus : 0 < cpus) {lnCeil : ℕ → ℕ} (hln : ∀ n, 32 ≤ n → n < 2 ^ 32 → 1 ≤ lnCeil n ∧ lnCeil n ≤ 57) :
    ∃ v, carried E1 E2 cpus lnCeil s.params1 s.params2 old i1 i2 = .ok v ∧ CarriedOk s old v ∧
      (old = none → @Leftovers.dummy _ _ _ _ _ _ (Proj.curveOps E1 B S) cpus lnCeil s.params1 =
        some v.leftovers2) := by
  cases old with
  | some q =>
    have hq := hold q rfl
    obtain ⟨v, a1, -, a3, a4, a5, a6, a7, a8, K, ζ, chs, T1, T2, T3, T4, T5, b1, b2, b3, b4⟩ :=
      hq.inner hs.swap h2 h1 hcpus hln
    refine ⟨v, a1, ⟨⟨a6, by rw [a3]; exact hq.old2, a8, by rw [a3]; exact hq.small2, a7, a4, a5, ?_, ?_,
      by rw [b4, List.length_map, b3]; rfl⟩, chs, b3, b4, ?_⟩, nofun⟩
    · rw [b2.steps.old]; exact hq.shape.old1
    · rw [b2.steps.new, List.length_map, b3]; rfl
    · rintro _ ⟨⟩
      exact ⟨a3, K, ζ, T1, T2, T3, T4, T5, b1, b2⟩
  | none =>
    obtain ⟨l1, c1, c2, c3⟩ := dummy_leftovers hs.swap h2 hcpus hln
    obtain ⟨l2, d1, d2, d3⟩ := dummy_leftovers hs h1 hcpus hln
    have hk : 2 ≤ s.params2.k := by have := hs.two.valid.k_gt; simp only [Setup.swap] at this; omega
    obtain ⟨d, e1, e2, e3, e4, e5, e6, -⟩ := dummy_record (E := E2) (F := S) (S := B) hk
    refine ⟨⟨true, d, l1, l2, List.replicate s.params2.k 0⟩, ?_, ⟨⟨c3, d3, c2, d2, e4, e2, e3, e5, e6, by simp⟩,
      List.replicate s.params2.k ⟨0, 0, 0, 0, 0⟩, by simp, by simp, nofun⟩, fun _ => d1⟩
    unfold carried
    have c1 : @Leftovers.dummy _ _ _ _ _ _ (Proj.curveOps E2 S B) cpus lnCeil s.params2 = some l1 := c1
    simp only [e1, c1, d1, ofOption, Except.bind_ok]

end Recursion
end Halo
