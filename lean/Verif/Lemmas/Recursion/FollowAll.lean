import Verif.Lemmas.Recursion.FollowCommit
/-!
# The circuit follows the native verifier: `verify_proof`
-/
set_option linter.unusedSectionVars false

namespace Halo
namespace Recursion
open Circuit Proofs
open Circuit.Sha256 (foldProg index)
variable {E : CurveConsts} {F S : Type} [Field F] [DecidableEq F] [LawfulField F] [Field S] [DecidableEq S]
  [LawfulField S] {w : Var → F} {one : Var} {N : Prop}

local notation s " ⋆ " A => LawfulField.val s • A

theorem combineAll_follow [HaloCurve E F S] (h1 : w one = 1) {k : ℕ} {G : Pt (E.b : F)} {π : Proof (Proj F) S}
    {o : Leftovers (Proj F) S} {d : Deferred S} {ζ : S} {kc : Proj F} {kP sOld gOld : CurvePoint F} {q : Committed F}
    (hk : PrOk E N w kP kc) (hs : PrOk E N w sOld o.sNewCommitment) (hg : PrOk E N w gOld o.gNew)
    (hq : q.Ok N w G π d ζ) {bits : List AllocatedBit} (hb : BsOk N w bits (bytesBits d.toBytes))
    (hd : d.challengesSqPackedOld.length = k) (hd' : d.challengesSqPackedNew.length = k) :
    Complete w (combineAll E one k kP sOld gOld q bits) fun r =>
      List.Forall₂ (InstOk N w G) r (instancesOf E kc π o d ζ) := by
  rw [combineAll]
  refine Complete.bind (mulAdd_pr h1 hq.r hs hq.z) fun p hp => ?_
  refine Complete.bind (mulAdd_pr h1 hp hq.sCur hq.z) fun p hp => ?_
  refine Complete.bind (mulAdd_pr h1 hp hq.tPositive hq.z) fun p hp => ?_
  refine Complete.bind (mulAdd_pr h1 hp hq.tNegative hq.z) fun p hp => ?_
  refine Complete.bind (mulAdd_pr h1 hp hq.sNew hq.z) fun p hp => ?_
  refine Complete.bind (mulAdd_pr h1 hp hg hq.z) fun p hp => ?_
  refine Complete.bind (mulAdd_sc h1 hq.rx hq.sxOld hq.z) fun v hv => ?_
  refine Complete.bind (mulAdd_sc h1 hv hq.sxCur hq.z) fun v hv => ?_
  refine Complete.bind (mulAdd_sc h1 hv hq.txPositive hq.z) fun v hv => ?_
  refine Complete.bind (mulAdd_sc h1 hv hq.txNegative hq.z) fun v hv => ?_
  refine Complete.bind (mulAdd_sc h1 hv hq.sxNew hq.z) fun v hv => ?_
  refine Complete.bind (mulAdd_sc h1 hv hq.gxOld hq.z) fun v hv => ?_
  refine Complete.bind (P := fun r => PrOk E N w r
    (Proj.add E π.cCommitment (Proj.mul E kc (Util.getChallengeScalar ζ : S)))) ?_ fun r hr => ?_
  · obtain ⟨A, hA, hP⟩ := hk
    obtain ⟨B, hB, hQ⟩ := hq.c
    have gc := HaloCurve.good E F S
    exact (mulAdd_follow h1 hP hQ hq.z).mono fun R hR =>
      ⟨_, denotes_add gc hB (denotes_mul gc hA _), hR.congr fun _ => add_comm _ _⟩
  refine Complete.bind (P := fun r => PtOk N w r
    ((d.sxCurOpening + d.kyOpening * Util.getChallengeScalar ζ : S) ⋆ G)) ?_ fun y hy => ?_
  · refine (mulAdd_sc h1 hq.ky hq.sxCur hq.z).mono fun R hR => ?_
    rwa [add_comm] at hR
  refine Complete.bind (slice_bytes hb (mid := bytes32 d.bX)
    (pre := bytes16 d.x ++ bytes16 d.yOld ++ bytes16 d.yCur ++ bytes16 d.yNew ++ bytes32 d.kyOpening ++
      bytes32 d.txPositiveOpening ++ bytes32 d.txNegativeOpening ++ bytes32 d.sxCurOpening ++ bytes32 d.rxOpening ++
      bytes32 d.rxyOpening ++ d.challengesSqPackedOld.flatMap bytes16 ++ bytes32 d.gxOldOpening ++
      d.challengesSqPackedNew.flatMap bytes16)
    (by rw [Deferred.toBytes]; is_prefix) (by simp [hd, hd']; ring) (by simp)) fun b0 hb0 => ?_
  refine Complete.bind (slice_bytes hb (mid := bytes32 d.bXy)
    (pre := bytes16 d.x ++ bytes16 d.yOld ++ bytes16 d.yCur ++ bytes16 d.yNew ++ bytes32 d.kyOpening ++
      bytes32 d.txPositiveOpening ++ bytes32 d.txNegativeOpening ++ bytes32 d.sxCurOpening ++ bytes32 d.rxOpening ++
      bytes32 d.rxyOpening ++ d.challengesSqPackedOld.flatMap bytes16 ++ bytes32 d.gxOldOpening ++
      d.challengesSqPackedNew.flatMap bytes16 ++ bytes32 d.bX)
    (by rw [Deferred.toBytes]; is_prefix) (by simp [hd, hd']; ring) (by simp)) fun b1 hb1 => ?_
  refine Complete.bind (slice_bytes hb (mid := bytes32 d.bYOld)
    (pre := bytes16 d.x ++ bytes16 d.yOld ++ bytes16 d.yCur ++ bytes16 d.yNew ++ bytes32 d.kyOpening ++
      bytes32 d.txPositiveOpening ++ bytes32 d.txNegativeOpening ++ bytes32 d.sxCurOpening ++ bytes32 d.rxOpening ++
      bytes32 d.rxyOpening ++ d.challengesSqPackedOld.flatMap bytes16 ++ bytes32 d.gxOldOpening ++
      d.challengesSqPackedNew.flatMap bytes16 ++ bytes32 d.bX ++ bytes32 d.bXy)
    (by rw [Deferred.toBytes]; is_prefix) (by simp [hd, hd']; ring) (by simp)) fun b2 hb2 => ?_
  refine Complete.bind (slice_bytes hb (mid := bytes32 d.bYCur)
    (pre := bytes16 d.x ++ bytes16 d.yOld ++ bytes16 d.yCur ++ bytes16 d.yNew ++ bytes32 d.kyOpening ++
      bytes32 d.txPositiveOpening ++ bytes32 d.txNegativeOpening ++ bytes32 d.sxCurOpening ++ bytes32 d.rxOpening ++
      bytes32 d.rxyOpening ++ d.challengesSqPackedOld.flatMap bytes16 ++ bytes32 d.gxOldOpening ++
      d.challengesSqPackedNew.flatMap bytes16 ++ bytes32 d.bX ++ bytes32 d.bXy ++ bytes32 d.bYOld)
    (by rw [Deferred.toBytes]; is_prefix) (by simp [hd, hd']; ring) (by simp)) fun b3 hb3 => ?_
  refine Complete.bind (slice_bytes hb (mid := bytes32 d.bYNew)
    (pre := bytes16 d.x ++ bytes16 d.yOld ++ bytes16 d.yCur ++ bytes16 d.yNew ++ bytes32 d.kyOpening ++
      bytes32 d.txPositiveOpening ++ bytes32 d.txNegativeOpening ++ bytes32 d.sxCurOpening ++ bytes32 d.rxOpening ++
      bytes32 d.rxyOpening ++ d.challengesSqPackedOld.flatMap bytes16 ++ bytes32 d.gxOldOpening ++
      d.challengesSqPackedNew.flatMap bytes16 ++ bytes32 d.bX ++ bytes32 d.bXy ++ bytes32 d.bYOld ++ bytes32 d.bYCur)
    (by rw [Deferred.toBytes]) (by simp [hd, hd']; ring) (by simp)) fun b4 hb4 => ?_
  exact (complete_ret _ _).2 (.cons ⟨⟨hp, hv⟩, hb0⟩ (.cons ⟨⟨hq.r, hq.rxy⟩, hb1⟩ (.cons ⟨⟨hq.c, hq.sxOld⟩, hb2⟩
    (.cons ⟨⟨hr, hy⟩, hb3⟩ (.cons ⟨⟨hq.c, hq.sxNew⟩, hb4⟩ .nil)))))

theorem pointIs_bytes [HaloCurve E F S] (h1 : w one = 1) {b : AllocatedBit} {v : Bool} (hb : b.Honest w v)
    (hv : v = true ∨ N) {P : CurvePoint F} {p q : Proj F} (hP : PrOk E N w P p) (hpq : N → q = p)
    {bits : List AllocatedBit} {bytes pre : List (BitVec 8)} (h : BsOk N w bits (bytesBits bytes)) {i : ℕ}
    (hpre : pre ++ @pointBytes _ _ S _ _ (Proj.curveOps E F S) q <+: bytes) (hi : i = 8 * pre.length) :
    Complete w (pointIs one b P bits i) fun _ => True := by
  let := Proj.curveOps E F S
  obtain ⟨A, hA, hP⟩ := hP
  have e := pointBytes_eq (F := F) (S := S) q
  have hpre1 : pre ++ bytes32 ((CurveOps.getXy (S := S) q).getD ((0 : F), 0)).1 <+: bytes := by
    refine List.IsPrefix.trans ?_ hpre
    rw [e, ← List.append_assoc]
    exact List.prefix_append _ _
  have hpre2 : (pre ++ bytes32 ((CurveOps.getXy (S := S) q).getD ((0 : F), 0)).1) ++
      bytes32 ((CurveOps.getXy (S := S) q).getD ((0 : F), 0)).2 <+: bytes := by
    rw [List.append_assoc, ← e]; exact hpre
  have hxy : N → (CurveOps.getXy (S := S) q).getD ((0 : F), 0) = coordinates A := fun n => by
    have : CurveOps.getXy (C := Proj F) (F := F) (S := S) q = Proj.getXy q := rfl
    rw [this, hpq n, getXy_spec hA]
    cases A <;> rfl
  have hl := hpre2.length_le
  simp only [List.length_append, bytes32_length] at hl
  refine pointIs_follow h1 hb hv hP h (by rw [length_bytesBits]; omega) (fun n => ?_) fun n => ?_
  · rw [take_drop_bytes hpre1 hi (by simp), hxy n]
  · rw [take_drop_bytes hpre2 (by simp [hi]; omega) (by simp), hxy n]

theorem flat_prefix {l : List S} {i : ℕ} (h : i < l.length) :
    (l.take i).flatMap bytes16 ++ bytes16 l[i] <+: l.flatMap bytes16 := by
  refine ⟨(l.drop (i + 1)).flatMap bytes16, ?_⟩
  have := congrArg (List.flatMap bytes16) (List.take_append_drop i l)
  rw [List.drop_eq_getElem_cons h, List.flatMap_append, List.flatMap_cons] at this
  rw [List.append_assoc]
  exact this

theorem challengeIs_follow (h1 : w one = 1) {k : ℕ} {b : AllocatedBit} {v : Bool} (hb : b.Honest w v)
    (hv : v = true ∨ N) {d : Deferred S} {l : Leftovers (Proj F) S} {dBits lBits : List AllocatedBit}
    (hdb : BsOk N w dBits (bytesBits d.toBytes))
    (hlb : BsOk N w lBits (bytesBits (@Leftovers.toBytes _ _ _ _ _ _ (Proj.curveOps E F S) l)))
    (hd : d.challengesSqPackedOld.length = k) (hd' : d.challengesSqPackedNew.length = k)
    (hl : l.challengesSqPackedNew.length = k) {e : List AllocatedBit × ℕ} (he : e.2 < k) {y : S} (hy : ChOk N w e.1 y)
    (h1y : N → d.challengesSqPackedNew[e.2]? = some y) (h2y : N → l.challengesSqPackedNew[e.2]? = some y) :
    Complete w (challengeIs one k b dBits lBits e) fun _ => True := by
  let := Proj.curveOps E F S
  obtain ⟨bits, i⟩ := e
  have hi1 : i < l.challengesSqPackedNew.length := by rw [hl]; exact he
  have hi2 : i < d.challengesSqPackedNew.length := by rw [hd']; exact he
  rw [challengeIs]
  refine Complete.bind (slice_bytes hlb (mid := bytes16 l.challengesSqPackedNew[i])
    (pre := (pointBytes l.sNewCommitment ++ bytes16 l.yNew ++ pointBytes l.gNew) ++
      (l.challengesSqPackedNew.take i).flatMap bytes16) ?_ ?_ (by simp)) fun s1 hs1 => ?_
  · rw [Leftovers.toBytes, List.append_assoc]
    exact (List.prefix_append_right_inj _).2 (flat_prefix hi1)
  · simp only [List.length_append, pointBytes_length, bytes16_length, flatMap16_length, List.length_take]
    omega
  refine Complete.bind (equal_follow h1 hb hv hy.bits hs1 (by simp [bits16_length]) fun n => ?_) fun _ _ => ?_
  · rw [List.getElem?_eq_getElem hi1, Option.some.injEq] at h2y
    rw [h2y n]
  refine Complete.bind (slice_bytes hdb (mid := bytes16 d.challengesSqPackedNew[i])
    (pre := (bytes16 d.x ++ bytes16 d.yOld ++ bytes16 d.yCur ++ bytes16 d.yNew ++ bytes32 d.kyOpening ++
      bytes32 d.txPositiveOpening ++ bytes32 d.txNegativeOpening ++ bytes32 d.sxCurOpening ++ bytes32 d.rxOpening ++
      bytes32 d.rxyOpening ++ d.challengesSqPackedOld.flatMap bytes16 ++ bytes32 d.gxOldOpening) ++
      (d.challengesSqPackedNew.take i).flatMap bytes16) ?_ ?_ (by simp)) fun s2 hs2 => ?_
  · rw [Deferred.toBytes, List.append_assoc]
    refine ((List.prefix_append_right_inj _).2 (flat_prefix hi2)).trans ?_
    is_prefix
  · simp only [List.length_append, bytes32_length, bytes16_length, flatMap16_length, List.length_take, hd]
    omega
  refine equal_follow h1 hb hv hy.bits hs2 (by simp [bits16_length]) fun n => ?_
  rw [List.getElem?_eq_getElem hi2, Option.some.injEq] at h1y
  rw [h1y n]

theorem orPanic_bind {α β : Type} (a : α) (f : α → Prog F β) : (orPanic (some a) >>= f) = f a := rfl

/-- The entries of the rounds of the proof that the circuit uses -/
theorem entriesOf_are [HaloCurve E F S] {c : VerificationCircuit F S} {P : RecursiveProof F S} (hP : c.theProof = P)
    {n : ℕ} {G : Pt (E.b : F)} (hG : Denotes (E.b : F) (Proj.one E) G) (hp : P.WellShaped E c.params.k n) (j : ℕ)
    (h : j < (entriesOf P.proof).length) :
    (entriesOf P.proof)[j].length = 5 ∧ EntriesAre c.proof j G (entriesOf P.proof)[j] := by
  have gc := HaloCurve.good E F S
  have hj : j < P.proof.innerProduct.rounds.length := by simpa [entriesOf] using h
  have hm := List.getElem_mem hj
  obtain ⟨s1, s2, s3, s4⟩ := hp.sizes _ hm
  obtain ⟨p1, p2⟩ := hp.points _ hm
  have hlen : (entriesOf P.proof)[j].length = 5 := by
    simp only [entriesOf, List.getElem_map, List.length_take, List.length_zip]
    omega
  refine ⟨hlen, fun i hi => ?_⟩
  have i1 : i < P.proof.innerProduct.rounds[j].L.length := by omega
  have i2 : i < P.proof.innerProduct.rounds[j].R.length := by omega
  have i3 : i < P.proof.innerProduct.rounds[j].l.length := by omega
  have i4 : i < P.proof.innerProduct.rounds[j].r.length := by omega
  have e : (entriesOf P.proof)[j][i] = (P.proof.innerProduct.rounds[j].L[i], P.proof.innerProduct.rounds[j].R[i],
      P.proof.innerProduct.rounds[j].l[i], P.proof.innerProduct.rounds[j].r[i]) := by
    simp [entriesOf]
  rw [e]
  dsimp only
  have q1 := p1 _ (List.getElem_mem i1)
  have q2 := p2 _ (List.getElem_mem i2)
  rw [VerificationCircuit.theProof] at hP
  cases hc : c.proof with
  | none =>
    rw [hc, Option.getD_none] at hP
    subst hP
    have z1 : (blankProof F S c.params.k).proof.innerProduct.rounds[j].L[i] = .zero := by
      simp only [blankProof, List.getElem_replicate]
    have z2 : (blankProof F S c.params.k).proof.innerProduct.rounds[j].R[i] = .zero := by
      simp only [blankProof, List.getElem_replicate]
    have z3 : (blankProof F S c.params.k).proof.innerProduct.rounds[j].l[i] = 0 := by
      simp only [blankProof, List.getElem_replicate]
    have z4 : (blankProof F S c.params.k).proof.innerProduct.rounds[j].r[i] = 0 := by
      simp only [blankProof, List.getElem_replicate]
    refine ⟨.zero, .zero, ?_, q1, q2, ?_, ?_⟩
    · rw [z1, z2]; rfl
    · rw [z3, LawfulField.val_zero, zero_smul]; exact denotes_proj_zero
    · rw [z4, LawfulField.val_zero, zero_smul]; exact denotes_proj_zero
  | some p =>
    rw [hc, Option.getD_some] at hP
    subst hP
    refine ⟨_, _, ?_, q1, q2, denotes_mul gc hG _, denotes_mul gc hG _⟩
    simp only [roundEntry, index, List.getElem?_eq_getElem hj, orPanic_bind, List.getElem?_eq_getElem i1,
      List.getElem?_eq_getElem i2, List.getElem?_eq_getElem i3, List.getElem?_eq_getElem i4]
    rfl

theorem finalScalar_eq {c : VerificationCircuit F S} {P : RecursiveProof F S} (hP : c.theProof = P) {j : ℕ}
    (h : j < P.proof.innerProduct.a.length) :
    finalScalar c.proof j = (.pure P.proof.innerProduct.a[j] : Prog F S) := by
  rw [VerificationCircuit.theProof] at hP
  cases hc : c.proof with
  | none =>
    rw [hc, Option.getD_none] at hP
    subst hP
    simp only [finalScalar, blankProof, List.getElem_replicate]
  | some p =>
    rw [hc, Option.getD_some] at hP
    subst hP
    rw [finalScalar, index, List.getElem?_eq_getElem h]
    rfl

theorem exists_gen (E : CurveConsts) (F S : Type) [Field F] [LawfulField F] [Field S] [LawfulField S]
    [h : HaloCurve E F S] : ∃ G : Pt (E.b : F), Denotes (E.b : F) (Proj.one E) G ∧ G ≠ 0 :=
  ⟨h.is.gen rfl, h.is.denotes_one rfl, WeierstrassCurve.Affine.Point.some_ne_zero (h.is.gen_nonsing rfl)⟩

/-- A run of the native verifier that accepts can be folded as in the code. -/
theorem Run.folds [HaloCurve E F S] (h1 : w one = 1) {k n : ℕ} {P : RecursiveProof F S} (hp : P.WellShaped E k n)
    (hr : P.proof.innerProduct.rounds.length = k)
    {kc : Proj F} {d : Deferred S} {l : Leftovers (Proj F) S} {ζ : S} {chs : List (Challenge S)}
    {T1 T2 T3 T4 T5 : Rescue F} (hchs : chs.length = k)
    (hrun : N → Run E kc P.proof P.oldproof1 d l ζ chs T1 T2 T3 T4 T5) (G GN : Pt (E.b : F))
    (hGN : Denotes (E.b : F) P.proof.innerProduct.g GN) :
    Folds N w one (realFold E S) G GN (entriesOf P.proof) chs (instancesOf E kc P.proof P.oldproof1 d ζ)
      P.proof.innerProduct.a := by
  refine folds_real h1 ?_ ?_ fun n => (hrun n).final GN hGN
  · rw [entriesOf, List.length_map, hr, hchs]
  · intro es hes
    obtain ⟨r, hm, rfl⟩ := List.mem_map.1 hes
    obtain ⟨s1, s2, s3, s4⟩ := hp.sizes _ hm
    simp only [List.length_take, List.length_zip]
    rw [instancesOf]
    simp only [List.length_cons, List.length_nil]
    omega

section
attribute [local irreducible] RescueGadget.new Complete

/-- `verify_proof`, of a proof that the prover can fold or of none -/
theorem verifyProof_follow [HaloCurve E F S] (h1 : w one = 1) {c : VerificationCircuit F S} {P : RecursiveProof F S}
    (hP : c.theProof = P) (hN : N → ∃ p, c.proof = some p) {n : ℕ} (hp : P.WellShaped E c.params.k n)
    (hr : P.proof.innerProduct.rounds.length = c.params.k) (ha : P.proof.innerProduct.a.length = 5)
    {b : AllocatedBit} {v : Bool} (hb : b.Honest w v) (hv : v = true ∨ N)
    {kc : Proj F} {kP : CurvePoint F} (hk : PrOk E N w kP kc) {d : Deferred S} {l : Leftovers (Proj F) S}
    (hd : d.challengesSqPackedOld.length = c.params.k) (hd' : d.challengesSqPackedNew.length = c.params.k)
    (hl : l.challengesSqPackedNew.length = c.params.k) {oBits dBits lBits : List AllocatedBit}
    (hob : BsOk N w oBits (bytesBits (@Leftovers.toBytes _ _ _ _ _ _ (Proj.curveOps E F S) P.oldproof1)))
    (hdb : BsOk N w dBits (bytesBits d.toBytes))
    (hlb : BsOk N w lBits (bytesBits (@Leftovers.toBytes _ _ _ _ _ _ (Proj.curveOps E F S) l)))
    {ζ : S} {chs : List (Challenge S)} {T1 T2 T3 T4 T5 : Rescue F} (hchs : chs.length = c.params.k)
    (hfs : c.forkvalues = some (chs.map (·.fork)))
    (hrun : N → Steps E kc P.proof P.oldproof1 d l ζ chs T1 T2 T3 T4 T5)
    {fold : Fold F} (hfold : ∀ G GN : Pt (E.b : F), Denotes (E.b : F) (Proj.one E) G → G ≠ 0 →
      Denotes (E.b : F) P.proof.innerProduct.g GN →
      Folds N w one fold G GN (entriesOf P.proof) chs (instancesOf E kc P.proof P.oldproof1 d ζ)
        P.proof.innerProduct.a) :
    Complete w (verifyProofWith E fold one c b kP oBits dBits lBits) fun _ => True := by
  let := Proj.curveOps E F S
  obtain ⟨G, hG, hG0⟩ := exists_gen E F S
  subst hP
  obtain ⟨GN, hGN⟩ := hp.g
  rw [verifyProofWith]
  refine Complete.bind (commitAll_follow h1 hN hG hG0 hp hk hd hdb (fun n => (hrun n).yCur) (fun n => (hrun n).x)
    (fun n => (hrun n).yNew) fun n => (hrun n).z) ?_
  rintro ⟨q, t⟩ ⟨hq, ht⟩
  rw [proofPoint_eq c (·.oldproof1.sNewCommitment) rfl, proofPoint_eq c (·.oldproof1.gNew) rfl]
  obtain ⟨SO, hSO⟩ := hp.sOld
  obtain ⟨GO, hGO⟩ := hp.gOld
  refine Complete.bind (witness_follow (N := N) (S := S) h1 hSO) fun sOld hsOld => ?_
  refine Complete.bind (pointIs_bytes (S := S) h1 hb hv ⟨SO, hSO, hsOld⟩ (fun _ => rfl) hob (pre := [])
    (by rw [Leftovers.toBytes, List.nil_append]; is_prefix) rfl) fun _ _ => ?_
  refine Complete.bind (witness_follow (N := N) (S := S) h1 hGO) fun gOld hgOld => ?_
  refine Complete.bind (pointIs_bytes (S := S) h1 hb hv ⟨GO, hGO, hgOld⟩ (fun _ => rfl) hob
    (pre := pointBytes c.theProof.oldproof1.sNewCommitment ++ bytes16 c.theProof.oldproof1.yNew)
    (by rw [Leftovers.toBytes]; is_prefix) (by simp)) fun _ _ => ?_
  refine Complete.bind (combineAll_follow h1 hk ⟨SO, hSO, hsOld⟩ ⟨GO, hGO, hgOld⟩ hq hdb hd hd') fun ins hins => ?_
  have hel : (entriesOf c.theProof.proof).length = c.params.k := by rw [entriesOf, List.length_map, hr]
  refine Complete.bind (verifyInnerProduct_follow (ess := entriesOf c.theProof.proof) (chs := chs) h1 hb hv hG hG0 hins ht hfs hel (by rw [hel, hchs])
    (fun es hes => ?_) (fun j h => (entriesOf_are rfl hG hp j h).2) (fun j h => ?_) (fun n => (hrun n).rounds)
    (GN := GN) ?_ (as := c.theProof.proof.innerProduct.a) ha (fun j h => ?_)
    (hfold G GN hG hG0 hGN)) ?_
  · obtain ⟨j, hj, rfl⟩ := List.getElem_of_mem hes
    exact (entriesOf_are rfl hG hp j hj).1
  · simp [h]
  · rw [VerificationCircuit.theProof] at hGN
    cases hc : c.proof with
    | none => rw [hc] at hGN; exact hGN
    | some p => rw [hc] at hGN; exact hGN
  · exact finalScalar_eq rfl h
  rintro ⟨gNew, cs⟩ ⟨hgNew, hcs⟩
  have hlN : N → l.sNewCommitment = c.theProof.proof.sNewCommitment := fun n => by rw [(hrun n).leftovers]
  have hlG : N → l.gNew = c.theProof.proof.innerProduct.g := fun n => by rw [(hrun n).leftovers]
  have hly : N → d.yNew = l.yNew := fun n => by rw [(hrun n).leftovers]
  have hlc : N → l.challengesSqPackedNew = chs.map (·.challengeSqPacked) := fun n => by rw [(hrun n).leftovers]
  refine Complete.bind (pointIs_bytes (S := S) h1 hb hv hq.sNew hlN hlb (pre := [])
    (by rw [Leftovers.toBytes, List.nil_append]; is_prefix) rfl) fun _ _ => ?_
  refine Complete.bind (slice_bytes hlb (pre := pointBytes l.sNewCommitment) (mid := bytes16 l.yNew)
    (by rw [Leftovers.toBytes]; is_prefix) (by simp) (by simp)) fun _ hs => ?_
  refine Complete.bind (equal_follow h1 hb hv hq.yNew.bits hs (by simp [bits16_length]) fun n => by rw [hly n])
    fun _ _ => ?_
  refine Complete.bind (pointIs_bytes (S := S) h1 hb hv ⟨GN, hGN, hgNew⟩ hlG hlb
    (pre := pointBytes l.sNewCommitment ++ bytes16 l.yNew)
    (by rw [Leftovers.toBytes]; is_prefix) (by simp)) fun _ _ => ?_
  refine Complete.bind (forEach_follow fun e he => ?_) fun _ _ => ?_
  · obtain ⟨j, hj, rfl⟩ := List.getElem_of_mem he
    rw [List.length_zipIdx] at hj
    have hj' : j < chs.length := by rw [← hcs.length_eq]; exact hj
    have hy := (List.forall₂_iff_get.1 hcs).2 j hj hj'
    simp only [List.get_eq_getElem] at hy
    rw [List.getElem_zipIdx, zero_add]
    refine challengeIs_follow (y := chs[j].challengeSqPacked) h1 hb hv hdb hlb hd hd' hl (by rw [← hchs]; exact hj') hy
      (fun n => ?_) fun n => ?_
    · simp [(hrun n).new, hj']
    · simp [hlc n, hj']
  refine Complete.bind (slice_bytes hdb (pre := []) (mid := bytes16 d.x)
    (by rw [Deferred.toBytes, List.nil_append]; is_prefix) (by simp) (by simp)) fun _ hs => ?_
  refine Complete.bind (equal_follow h1 hb hv hq.x.bits hs rfl fun _ => rfl) fun _ _ => ?_
  refine Complete.bind (slice_bytes hdb (pre := bytes16 d.x ++ bytes16 d.yOld) (mid := bytes16 d.yCur)
    (by rw [Deferred.toBytes]; is_prefix) (by simp) (by simp)) fun _ hs => ?_
  refine Complete.bind (equal_follow h1 hb hv hq.yCur.bits hs rfl fun _ => rfl) fun _ _ => ?_
  refine Complete.bind (slice_bytes hdb (pre := bytes16 d.x ++ bytes16 d.yOld ++ bytes16 d.yCur)
    (mid := bytes16 d.yNew) (by rw [Deferred.toBytes]; is_prefix) (by simp) (by simp)) fun _ hs => ?_
  exact equal_follow h1 hb hv hq.yNew.bits hs rfl fun _ => rfl

end

end Recursion
end Halo
