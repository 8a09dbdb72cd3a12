import Verif.Lemmas.Recursion.FollowProof
/-!
# The circuit follows the native verifier: the commitments and the openings
-/
set_option linter.unusedSectionVars false

namespace Halo
namespace Recursion
open Circuit Proofs
open Circuit.Sha256 (foldProg index)
variable {E : CurveConsts} {F S : Type} [Field F] [DecidableEq F] [LawfulField F] [Field S] [DecidableEq S]
  [LawfulField S] {w : Var → F} {one : Var} {N : Prop}

local notation s " ⋆ " A => LawfulField.val s • A

/-! ### Slices of bytes -/

theorem take_drop_bytes {bytes pre mid : List (BitVec 8)} (h : pre ++ mid <+: bytes) {a b : ℕ}
    (ha : a = 8 * pre.length) (hb : b = a + 8 * mid.length) :
    ((bytesBits bytes).take b).drop a = bytesBits mid := by
  obtain ⟨post, rfl⟩ := h
  rw [bytesBits_append, bytesBits_append, List.take_left' (by simp [length_bytesBits, ha, hb]),
    List.drop_left' (by rw [length_bytesBits, ha])]

theorem slice_bytes {bits : List AllocatedBit} {bytes pre mid : List (BitVec 8)}
    (hb : BsOk N w bits (bytesBits bytes)) (h : pre ++ mid <+: bytes) {a b : ℕ}
    (ha : a = 8 * pre.length) (hb' : b = a + 8 * mid.length) :
    Complete w (slice bits a b) fun r => BsOk N w r (bytesBits mid) := by
  refine (slice_follow hb (by omega) ?_).mono fun r hr => ?_
  · have := h.length_le
    rw [length_bytesBits]
    rw [List.length_append] at this
    omega
  · rwa [take_drop_bytes h ha hb'] at hr

/-- A list of appended parts begins with some of them. -/
macro "is_prefix" : tactic => `(tactic|
  repeat (first | with_reducible exact List.prefix_rfl | refine List.IsPrefix.trans ?_ (List.prefix_append _ _)))

/-! ### Points of the proof -/

/-- A point, the given one if `N` -/
def PrOk (E : CurveConsts) (N : Prop) (w : Var → F) (P : CurvePoint F) (p : Proj F) : Prop :=
  ∃ A : Pt (E.b : F), Denotes (E.b : F) p A ∧ PtOk N w P A

theorem commitWitness_pr [HaloCurve E F S] (h1 : w one = 1) {t : RescueGadget F} {T : Rescue F}
    (ht : TrOk N h1 t T) {p : Proj F} (hp : OnCurve E p) :
    letI := Proj.curveOps E F S
    Complete w (commitWitness E one t p) fun r =>
      PrOk E N w r.1 p ∧ TrOk N h1 r.2 (appendPoint Transcript.rescue p T) := by
  obtain ⟨A, hA⟩ := hp
  exact (commitWitness_follow (S := S) h1 ht hA).mono fun r hr => ⟨⟨A, hA, hr.1⟩, hr.2⟩

theorem mulAdd_pr [HaloCurve E F S] (h1 : w one = 1) {P Q : CurvePoint F} {p q : Proj F}
    {bits : List AllocatedBit} {z : S} (hP : PrOk E N w P p) (hQ : PrOk E N w Q q) (hb : ChOk N w bits z) :
    Complete w (mulAdd E one bits P Q) fun R =>
      PrOk E N w R (Proj.add E (Proj.mul E p (Util.getChallengeScalar z : S)) q) := by
  obtain ⟨A, hA, hP⟩ := hP
  obtain ⟨B, hB, hQ⟩ := hQ
  have gc := HaloCurve.good E F S
  exact (mulAdd_follow h1 hP hQ hb).mono fun R hR => ⟨_, denotes_add gc (denotes_mul gc hA _) hB, hR⟩

theorem mulAdd_sc [HaloCurve E F S] (h1 : w one = 1) {P Q : CurvePoint F} {a b : S} {G : Pt (E.b : F)}
    {bits : List AllocatedBit} {z : S} (hP : PtOk N w P (a ⋆ G)) (hQ : PtOk N w Q (b ⋆ G)) (hb : ChOk N w bits z) :
    Complete w (mulAdd E one bits P Q) fun R => PtOk N w R ((a * Util.getChallengeScalar z + b : S) ⋆ G) := by
  refine (mulAdd_follow h1 hP hQ hb).mono fun R hR => hR.congr fun _ => ?_
  rw [HaloCurve.smul_add_scalar, mul_comm a, HaloCurve.smul_mul_scalar]

/-! ### What the native verifier computes -/

/-- The transcript up to the first challenge -/
def afterR (E : CurveConsts) (kc : Proj F) (π : Proof (Proj F) S) : Rescue F :=
  letI := Proj.curveOps E F S
  appendPoint Transcript.rescue π.rCommitment (appendPoint Transcript.rescue kc Transcript.rescue.new)

/-- From the first to the second challenge -/
def afterT (E : CurveConsts) (π : Proof (Proj F) S) (T : Rescue F) : Rescue F :=
  letI := Proj.curveOps E F S
  appendPoint Transcript.rescue π.tNegativeCommitment (appendPoint Transcript.rescue π.tPositiveCommitment
    (appendPoint Transcript.rescue π.sCurCommitment T))

/-- From the second to the third challenge -/
def afterC (E : CurveConsts) (π : Proof (Proj F) S) (T : Rescue F) : Rescue F :=
  letI := Proj.curveOps E F S
  appendPoint Transcript.rescue π.cCommitment T

/-- From the third challenge to the last one -/
def afterOpenings (E : CurveConsts) (π : Proof (Proj F) S) (d : Deferred S) (T : Rescue F) : Rescue F :=
  letI := Proj.curveOps E F S
  let app := fun s T => appendScalar (Proj F) (F := F) (S := S) Transcript.rescue s T
  app d.gxOldOpening <| app π.sxNewOpening <| app d.txNegativeOpening <| app d.txPositiveOpening <|
  app d.sxCurOpening <| app π.sxOldOpening <| app d.rxyOpening <| app d.rxOpening <| app d.kyOpening <|
    appendPoint Transcript.rescue π.sNewCommitment T

/-- The entries of the rounds -/
def entriesOf (π : Proof (Proj F) S) : List (List (Entry F S)) :=
  π.innerProduct.rounds.map fun r => (r.L.zip (r.R.zip (r.l.zip r.r))).take 5

/-- The commitments, openings and `b`s -/
def instancesOf (E : CurveConsts) (kc : Proj F) (π : Proof (Proj F) S) (o : Leftovers (Proj F) S) (d : Deferred S)
    (z : S) : List ((Proj F × S) × S) :=
  let z : S := Util.getChallengeScalar z
  let ma := fun p q => Proj.add E (Proj.mul E p z) q
  [((ma (ma (ma (ma (ma (ma π.rCommitment o.sNewCommitment) π.sCurCommitment) π.tPositiveCommitment)
      π.tNegativeCommitment) π.sNewCommitment) o.gNew,
    (((((d.rxOpening * z + π.sxOldOpening) * z + d.sxCurOpening) * z + d.txPositiveOpening) * z +
      d.txNegativeOpening) * z + π.sxNewOpening) * z + d.gxOldOpening), d.bX),
   ((π.rCommitment, d.rxyOpening), d.bXy),
   ((π.cCommitment, π.sxOldOpening), d.bYOld),
   ((Proj.add E π.cCommitment (Proj.mul E kc z), d.sxCurOpening + d.kyOpening * z), d.bYCur),
   ((π.cCommitment, π.sxNewOpening), d.bYNew)]

/-- A run of the native verifier -/
structure Steps (E : CurveConsts) (kc : Proj F) (π : Proof (Proj F) S) (o : Leftovers (Proj F) S) (d : Deferred S)
    (l : Leftovers (Proj F) S) (ζ : S) (chs : List (Challenge S)) (T1 T2 T3 T4 T5 : Rescue F) : Prop where
  yCur : Proofs.getChallenge S Transcript.rescue (afterR E kc π) = some (d.yCur, T1)
  x : Proofs.getChallenge S Transcript.rescue (afterT E π T1) = some (d.x, T2)
  yNew : Proofs.getChallenge S Transcript.rescue (afterC E π T2) = some (d.yNew, T3)
  z : Proofs.getChallenge S Transcript.rescue (afterOpenings E π d T3) = some (ζ, T4)
  rounds : RoundsRun E (entriesOf π) chs T4 T5
  yOld : d.yOld = o.yNew
  old : d.challengesSqPackedOld = o.challengesSqPackedNew
  new : d.challengesSqPackedNew = chs.map (·.challengeSqPacked)
  leftovers : l = ⟨π.sNewCommitment, d.yNew, π.innerProduct.g, chs.map (·.challengeSqPacked)⟩

/-- A run of the native verifier that accepts, with comparisons that are exact -/
structure Run (E : CurveConsts) (kc : Proj F) (π : Proof (Proj F) S) (o : Leftovers (Proj F) S) (d : Deferred S)
    (l : Leftovers (Proj F) S) (ζ : S) (chs : List (Challenge S)) (T1 T2 T3 T4 T5 : Rescue F) : Prop where
  steps : Steps E kc π o d l ζ chs T1 T2 T3 T4 T5
  final : ∀ A : Pt (E.b : F), Denotes (E.b : F) π.innerProduct.g A → ∀ (j : ℕ) p v (y a : S),
    (pvAfter E (entriesOf π) chs ((instancesOf E kc π o d ζ).map (·.1)))[j]? = some (p, v) →
    ((instancesOf E kc π o d ζ).map (·.2))[j]? = some y → π.innerProduct.a[j]? = some a →
    Denotes (E.b : F) p (a ⋆ A) ∧ v = a * y

/-- The proof that the circuit uses if there is none -/
def blankProof (F S : Type) [Field F] [Field S] (k : ℕ) : RecursiveProof F S where
  proof := ⟨.zero, .zero, .zero, .zero, .zero, .zero, 0, 0, 0, 0, 0, 0, 0,
    ⟨List.replicate k ⟨List.replicate 5 .zero, List.replicate 5 .zero, List.replicate 5 0, List.replicate 5 0⟩,
      List.replicate 5 0, .zero⟩⟩
  oldproof1 := ⟨.zero, 0, .zero, List.replicate k 0⟩
  oldproof2 := ⟨.zero, 0, .zero, List.replicate k 0⟩
  deferred := ⟨0, 0, 0, 0, 0, 0, 0, 0, 0, 0, List.replicate k 0, 0, List.replicate k 0, 0, 0, 0, 0, 0⟩
  payload := []

/-- The proof that the circuit uses -/
def VerificationCircuit.theProof (c : VerificationCircuit F S) : RecursiveProof F S :=
  c.proof.getD (blankProof F S c.params.k)

theorem proofPoint_eq (c : VerificationCircuit F S) (f : RecursiveProof F S → Proj F)
    (hf : f (blankProof F S c.params.k) = .zero) : proofPoint c f = f c.theProof := by
  rw [proofPoint, VerificationCircuit.theProof]
  cases c.proof with
  | none => exact hf.symm
  | some p => rfl

/-- What the first half of `verify_proof` produces -/
structure Committed.Ok (N : Prop) (w : Var → F) (G : Pt (E.b : F)) (π : Proof (Proj F) S) (d : Deferred S) (ζ : S)
    (q : Committed F) : Prop where
  r : PrOk E N w q.r π.rCommitment
  sCur : PrOk E N w q.sCur π.sCurCommitment
  tPositive : PrOk E N w q.tPositive π.tPositiveCommitment
  tNegative : PrOk E N w q.tNegative π.tNegativeCommitment
  c : PrOk E N w q.c π.cCommitment
  sNew : PrOk E N w q.sNew π.sNewCommitment
  ky : PtOk N w q.kyPt (d.kyOpening ⋆ G)
  rx : PtOk N w q.rxPt (d.rxOpening ⋆ G)
  rxy : PtOk N w q.rxyPt (d.rxyOpening ⋆ G)
  sxOld : PtOk N w q.sxOldPt (π.sxOldOpening ⋆ G)
  sxCur : PtOk N w q.sxCurPt (d.sxCurOpening ⋆ G)
  txPositive : PtOk N w q.txPositivePt (d.txPositiveOpening ⋆ G)
  txNegative : PtOk N w q.txNegativePt (d.txNegativeOpening ⋆ G)
  sxNew : PtOk N w q.sxNewPt (π.sxNewOpening ⋆ G)
  gxOld : PtOk N w q.gxOldPt (d.gxOldOpening ⋆ G)
  yCur : ChOk N w q.yCur d.yCur
  x : ChOk N w q.x d.x
  yNew : ChOk N w q.yNew d.yNew
  z : ChOk N w q.z ζ

theorem TrOk.congr {h1 : w one = 1} {t : RescueGadget F} {T T' : Rescue F} (h : TrOk N h1 t T) (e : N → T = T') :
    TrOk N h1 t T' := by
  obtain ⟨st, a, b⟩ := h
  exact ⟨st, a, fun n => e n ▸ b n⟩

/-- An opening of the proof as a witnessed point -/
theorem commitOpening_follow [HaloCurve E F S] (h1 : w one = 1) {c : VerificationCircuit F S}
    (hN : N → ∃ p, c.proof = some p) {t : RescueGadget F} {T : Rescue F} (ht : TrOk N h1 t T) {G : Pt (E.b : F)}
    (hG : Denotes (E.b : F) (Proj.one E) G) (f : RecursiveProof F S → S) (hf : f (blankProof F S c.params.k) = 0) :
    letI := Proj.curveOps E F S
    Complete w (commitWitness E one t (proofPoint c fun p => Proj.mul E (Proj.one E) (f p))) fun r =>
      PtOk N w r.1 (f c.theProof ⋆ G) ∧
        TrOk N h1 r.2 (appendScalar (Proj F) Transcript.rescue (f c.theProof) T) := by
  let := Proj.curveOps E F S
  have hp : Denotes (E.b : F) (proofPoint c fun p => Proj.mul E (Proj.one E) (f p)) (f c.theProof ⋆ G) := by
    rw [proofPoint, VerificationCircuit.theProof]
    cases c.proof with
    | none => simpa [hf, LawfulField.val_zero] using denotes_proj_zero (b := (E.b : F))
    | some p => exact denotes_mul (HaloCurve.good E F S) hG _
  refine (commitWitness_follow (S := S) h1 ht hp).mono fun r hr => ⟨hr.1, hr.2.congr fun n => ?_⟩
  obtain ⟨p, e⟩ := hN n
  simp only [proofPoint, VerificationCircuit.theProof, e]
  rfl

section
attribute [local irreducible] RescueGadget.new Complete

/-- The first half of `verify_proof` -/
theorem commitAll_follow [HaloCurve E F S] (h1 : w one = 1) {c : VerificationCircuit F S}
    (hN : N → ∃ p, c.proof = some p) {G : Pt (E.b : F)} (hG : Denotes (E.b : F) (Proj.one E) G) (hG0 : G ≠ 0)
    {n : ℕ} (hp : c.theProof.WellShaped E c.params.k n) {kc : Proj F} {kP : CurvePoint F} (hk : PrOk E N w kP kc)
    {d : Deferred S} (hd : d.challengesSqPackedOld.length = c.params.k) {bits : List AllocatedBit}
    (hb : BsOk N w bits (bytesBits d.toBytes)) {ζ : S} {T1 T2 T3 T4 : Rescue F}
    (eyCur : N → Proofs.getChallenge S Transcript.rescue (afterR E kc c.theProof.proof) = some (d.yCur, T1))
    (ex : N → Proofs.getChallenge S Transcript.rescue (afterT E c.theProof.proof T1) = some (d.x, T2))
    (eyNew : N → Proofs.getChallenge S Transcript.rescue (afterC E c.theProof.proof T2) = some (d.yNew, T3))
    (ez : N → Proofs.getChallenge S Transcript.rescue (afterOpenings E c.theProof.proof d T3) = some (ζ, T4)) :
    Complete w (commitAll E one c kP bits) fun r =>
      r.1.Ok N w G c.theProof.proof d ζ ∧ TrOk N h1 r.2 T4 := by
  let := Proj.curveOps E F S
  obtain ⟨K, hK, hkP⟩ := hk
  rw [commitAll]
  rw [proofPoint_eq c (·.proof.rCommitment) rfl, proofPoint_eq c (·.proof.sCurCommitment) rfl,
    proofPoint_eq c (·.proof.tPositiveCommitment) rfl, proofPoint_eq c (·.proof.tNegativeCommitment) rfl,
    proofPoint_eq c (·.proof.cCommitment) rfl, proofPoint_eq c (·.proof.sNewCommitment) rfl]
  refine Complete.bind (new_follow (N := N) h1) fun t ht => ?_
  refine Complete.bind (commitPoint_follow (S := S) h1 ht hkP hK) fun t ht => ?_
  refine Complete.bind (commitWitness_pr (S := S) h1 ht hp.r) ?_
  rintro ⟨r, t⟩ ⟨hr, ht⟩
  refine Complete.bind (getChallenge_follow h1 ht eyCur) ?_
  rintro ⟨yCur, t⟩ ⟨hyCur, ht⟩
  refine Complete.bind (commitWitness_pr (S := S) h1 ht hp.sCur) ?_
  rintro ⟨sCur, t⟩ ⟨hsCur, ht⟩
  refine Complete.bind (commitWitness_pr (S := S) h1 ht hp.tPositive) ?_
  rintro ⟨tPositive, t⟩ ⟨htPositive, ht⟩
  refine Complete.bind (commitWitness_pr (S := S) h1 ht hp.tNegative) ?_
  rintro ⟨tNegative, t⟩ ⟨htNegative, ht⟩
  refine Complete.bind (getChallenge_follow h1 ht ex) ?_
  rintro ⟨x, t⟩ ⟨hx, ht⟩
  refine Complete.bind (commitWitness_pr (S := S) h1 ht hp.c) ?_
  rintro ⟨cc, t⟩ ⟨hcc, ht⟩
  refine Complete.bind (getChallenge_follow h1 ht eyNew) ?_
  rintro ⟨yNew, t⟩ ⟨hyNew, ht⟩
  refine Complete.bind (commitWitness_pr (S := S) h1 ht hp.sNew) ?_
  rintro ⟨sNew, t⟩ ⟨hsNew, ht⟩
  refine Complete.bind (generator_follow (N := N) hG hG0) fun g hg => ?_
  refine Complete.bind (slice_bytes hb (mid := bytes32 d.kyOpening)
    (pre := bytes16 d.x ++ bytes16 d.yOld ++ bytes16 d.yCur ++ bytes16 d.yNew)
    (by rw [Deferred.toBytes]; is_prefix) (by simp) (by simp)) fun _ hs => ?_
  refine Complete.bind (commitMultiple_follow (S := S) h1 ht hG hg hs) ?_
  rintro ⟨ky, t⟩ ⟨hky, ht⟩
  refine Complete.bind (slice_bytes hb (mid := bytes32 d.rxOpening)
    (pre := bytes16 d.x ++ bytes16 d.yOld ++ bytes16 d.yCur ++ bytes16 d.yNew ++ bytes32 d.kyOpening ++
      bytes32 d.txPositiveOpening ++ bytes32 d.txNegativeOpening ++ bytes32 d.sxCurOpening)
    (by rw [Deferred.toBytes]; is_prefix) (by simp) (by simp)) fun _ hs => ?_
  refine Complete.bind (commitMultiple_follow (S := S) h1 ht hG hg hs) ?_
  rintro ⟨rx, t⟩ ⟨hrx, ht⟩
  refine Complete.bind (slice_bytes hb (mid := bytes32 d.rxyOpening)
    (pre := bytes16 d.x ++ bytes16 d.yOld ++ bytes16 d.yCur ++ bytes16 d.yNew ++ bytes32 d.kyOpening ++
      bytes32 d.txPositiveOpening ++ bytes32 d.txNegativeOpening ++ bytes32 d.sxCurOpening ++ bytes32 d.rxOpening)
    (by rw [Deferred.toBytes]; is_prefix) (by simp) (by simp)) fun _ hs => ?_
  refine Complete.bind (commitMultiple_follow (S := S) h1 ht hG hg hs) ?_
  rintro ⟨rxy, t⟩ ⟨hrxy, ht⟩
  refine Complete.bind (commitOpening_follow h1 hN ht hG (·.proof.sxOldOpening) rfl) ?_
  rintro ⟨sxOld, t⟩ ⟨hsxOld, ht⟩
  refine Complete.bind (slice_bytes hb (mid := bytes32 d.sxCurOpening)
    (pre := bytes16 d.x ++ bytes16 d.yOld ++ bytes16 d.yCur ++ bytes16 d.yNew ++ bytes32 d.kyOpening ++
      bytes32 d.txPositiveOpening ++ bytes32 d.txNegativeOpening)
    (by rw [Deferred.toBytes]; is_prefix) (by simp) (by simp)) fun _ hs => ?_
  refine Complete.bind (commitMultiple_follow (S := S) h1 ht hG hg hs) ?_
  rintro ⟨sxCur, t⟩ ⟨hsxCur, ht⟩
  refine Complete.bind (slice_bytes hb (mid := bytes32 d.txPositiveOpening)
    (pre := bytes16 d.x ++ bytes16 d.yOld ++ bytes16 d.yCur ++ bytes16 d.yNew ++ bytes32 d.kyOpening)
    (by rw [Deferred.toBytes]; is_prefix) (by simp) (by simp)) fun _ hs => ?_
  refine Complete.bind (commitMultiple_follow (S := S) h1 ht hG hg hs) ?_
  rintro ⟨txPositive, t⟩ ⟨htxPositive, ht⟩
  refine Complete.bind (slice_bytes hb (mid := bytes32 d.txNegativeOpening)
    (pre := bytes16 d.x ++ bytes16 d.yOld ++ bytes16 d.yCur ++ bytes16 d.yNew ++ bytes32 d.kyOpening ++
      bytes32 d.txPositiveOpening)
    (by rw [Deferred.toBytes]; is_prefix) (by simp) (by simp)) fun _ hs => ?_
  refine Complete.bind (commitMultiple_follow (S := S) h1 ht hG hg hs) ?_
  rintro ⟨txNegative, t⟩ ⟨htxNegative, ht⟩
  refine Complete.bind (commitOpening_follow h1 hN ht hG (·.proof.sxNewOpening) rfl) ?_
  rintro ⟨sxNew, t⟩ ⟨hsxNew, ht⟩
  refine Complete.bind (slice_bytes hb (mid := bytes32 d.gxOldOpening)
    (pre := bytes16 d.x ++ bytes16 d.yOld ++ bytes16 d.yCur ++ bytes16 d.yNew ++ bytes32 d.kyOpening ++
      bytes32 d.txPositiveOpening ++ bytes32 d.txNegativeOpening ++ bytes32 d.sxCurOpening ++ bytes32 d.rxOpening ++
      bytes32 d.rxyOpening ++ d.challengesSqPackedOld.flatMap bytes16)
    (by rw [Deferred.toBytes]; is_prefix) (by simp [hd]; ring)
    (by simp; ring)) fun _ hs => ?_
  refine Complete.bind (commitMultiple_follow (S := S) h1 ht hG hg hs) ?_
  rintro ⟨gxOld, t⟩ ⟨hgxOld, ht⟩
  refine Complete.bind (getChallenge_follow h1 ht ez) ?_
  rintro ⟨z, t⟩ ⟨hz, ht⟩
  exact (complete_ret _ _).2 ⟨⟨hr, hsCur, htPositive, htNegative, hcc, hsNew, hky, hrx, hrxy, hsxOld, hsxCur,
    htxPositive, htxNegative, hsxNew, hgxOld, hyCur, hx, hyNew, hz⟩, ht⟩

end

end Recursion
end Halo
