import Verif.Lemmas.Recursion.FollowAll
import Verif.Lemmas.Recursion.Deferred
import Verif.Lemmas.Recursion.KCommit
import Verif.Lemmas.Recursion.Dummy
import Verif.Lemmas.Recursion.TwinCircuit
/-!
# The circuit follows the native verifier: the whole circuit
-/
set_option linter.unusedSectionVars false

namespace Halo
namespace Recursion
open Circuit Proofs
open Circuit.Sha256 (foldProg index)
variable {E E1 : CurveConsts} {F S : Type} [Field F] [DecidableEq F] [LawfulField F] [Field S] [DecidableEq S]
  [LawfulField S] {w : Var → F} {one : Var} {N : Prop}

theorem inputBits_follow (vs : List Bool) : Complete w (inputBits (F := F) vs)
    fun bits => List.Forall₂ (fun b v => b.Honest w v) bits vs := by
  refine Logic.mono (Logic.complete w) ((Logic.complete w).mapProg
    (f := fun b => AllocatedBit.allocInputUnchecked (.ok b)) (P := fun (v : Bool) (b : AllocatedBit) => b.Honest w v)
    fun v _ => AllocatedBit.allocInputUnchecked_complete v) fun bits h => h.flip

theorem checks_follow {bits : List AllocatedBit} {vs : List Bool}
    (h : List.Forall₂ (fun b v => b.Honest w v) bits vs) :
    Complete w (foldProg (fun _ b => AllocatedBit.check (F := F) b) bits ()) fun _ => True := by
  refine forEach_follow fun b hb => ?_
  obtain ⟨i, hi, rfl⟩ := List.mem_iff_getElem.1 hb
  exact AllocatedBit.check_complete ((List.forall₂_iff_get.1 h).2 i hi (h.length_eq ▸ hi))

theorem basePayloadIs_follow (h1 : w one = 1) {b : AllocatedBit} {v : Bool} (hb : b.Honest w v) {bit u : Bool}
    {old : AllocatedBit} (ho : old.Honest w u) (h : v = true → u = bit) :
    Complete w (basePayloadIs (F := F) one b (bit, old)) fun _ => True := by
  obtain ⟨b1, b2⟩ := hb
  obtain ⟨o1, o2⟩ := ho
  simp only [AllocatedBit.Means] at b1 o1
  simp only [basePayloadIs, b2, o2]
  cases bit <;> cases v <;> cases u <;> simp at h <;>
    simp [ofBool, b1, o1, h1, sub_eq_zero, orMissing, complete_bind, complete_doMultiply, complete_enforce] <;>
    · intro a b c e1 e2 e3
      simp [e1, e2, e3]

theorem blankProof_wellShaped (k : ℕ) : (blankProof F S k).WellShaped E k 0 := by
  have h0 : OnCurve E (Proj.zero : Proj F) := ⟨0, denotes_proj_zero⟩
  constructor
  all_goals first
    | exact h0
    | rfl
    | simp [blankProof]
  · exact fun _ => h0

section
attribute [local irreducible] RescueGadget.new Complete

/-- The whole circuit, given a proof that the prover can fold or none -/
theorem synthesizeWith_follow [HaloCurve E F S] (h1 : w one = 1) {c : VerificationCircuit F S} {P : RecursiveProof F S}
    (hP : c.theProof = P) (hbc : c.baseCase = some c.proof.isNone) {n : ℕ} (hp : P.WellShaped E c.params.k n)
    (hr : P.proof.innerProduct.rounds.length = c.params.k) (ha : P.proof.innerProduct.a.length = 5)
    {o : Leftovers (Proj S) F} (ho : c.oldLeftovers = some o)
    {l : Leftovers (Proj F) S} (hl : c.newLeftovers = some l) (hll : l.challengesSqPackedNew.length = c.params.k)
    {d : Deferred S} (hd : c.deferred = some d) (hdo : d.challengesSqPackedOld.length = c.params.k)
    (hdn : d.challengesSqPackedNew.length = c.params.k)
    {op : List Bool} (hop : (match c.proof with
      | some proof => bytesBits proof.payload
      | none => c.inner.basePayload) = op)
    {dOld : Deferred F} (hdOld : oldDeferredBytes c = (.pure dOld.toBytes : Prog F _))
    (hold : dOld.challengesSqPackedOld.length = c.params.k) (holdn : dOld.challengesSqPackedNew.length = c.params.k)
    (hsmall : dOld.Small) (hwf : WellFormedDeferred c.params.k dOld) (htrue : TrueDeferred c.params.k dOld)
    {g : ℕ → Pt (E.b : F)} (hg : Gens E c.params.generators g) (h2 : 2 ≤ c.params.generators.length) {bits : List Bool}
    (hbits : bits = op ++ bitsOr (c.proof.map fun p => @Leftovers.toBytes _ _ _ _ _ _ (Proj.curveOps E F S) p.oldproof1)
      (leftoversBits c.params.k) ++ bytesBits (@Leftovers.toBytes _ _ _ _ _ _ (Proj.curveOps E1 S F) o) ++
      bytesBits dOld.toBytes) (hlen : bits.length ≤ c.params.generators.length - 2) (hapart : Apart g bits)
    (hinner : ∀ old new : List AllocatedBit, List.Forall₂ (fun b v => b.Honest w v) old op →
      List.Forall₂ (fun b v => b.Honest w v) new (bytesBits c.newPayload) →
      Complete w (c.inner.synthesize one old new) fun _ => True)
    {kc : Proj F} (hkc : Denotes (E.b : F) kc (inputSum g bits))
    {ζ : S} {chs : List (Challenge S)} {T1 T2 T3 T4 T5 : Rescue F} (hchs : chs.length = c.params.k)
    (hfs : c.forkvalues = some (chs.map (·.fork)))
    (hrun : (∃ p, c.proof = some p) → Steps E kc P.proof P.oldproof1 d l ζ chs T1 T2 T3 T4 T5)
    {fold : Fold F} (hfold : ∀ G GN : Pt (E.b : F), Denotes (E.b : F) (Proj.one E) G → G ≠ 0 →
      Denotes (E.b : F) P.proof.innerProduct.g GN →
      Folds (∃ p, c.proof = some p) w one fold G GN (entriesOf P.proof) chs
        (instancesOf E kc P.proof P.oldproof1 d ζ) P.proof.innerProduct.a) :
    Complete w (c.synthesizeWith E1 E fold one) fun _ => True := by
  set N : Prop := ∃ p, c.proof = some p with hN
  rw [VerificationCircuit.synthesizeWith, ho, hl, hd, Option.map_some, Option.map_some, Option.map_some, bitsOr, bitsOr,
    bitsOr]
  refine Complete.bind (inputBits_follow _) fun payloadBits hpb => ?_
  refine Complete.bind (inputBits_follow _) fun leftovers1 hl1 => ?_
  refine Complete.bind (inputBits_follow _) fun leftovers2 hl2 => ?_
  refine Complete.bind (inputBits_follow _) fun deferred hdb => ?_
  refine Complete.bind (checks_follow hpb) fun _ _ => ?_
  refine Complete.bind (checks_follow hl1) fun _ _ => ?_
  refine Complete.bind (checks_follow hl2) fun _ _ => ?_
  refine Complete.bind (checks_follow hdb) fun _ _ => ?_
  rw [hbc]
  refine Complete.bind (AllocatedBit.alloc_complete c.proof.isNone) fun baseCase hb => ?_
  have hv : c.proof.isNone = true ∨ N := by
    cases hc : c.proof with
    | none => exact .inl rfl
    | some p => exact .inr ⟨p, hc⟩
  rw [if_neg (by omega)]
  refine Complete.bind (P := fun bits => List.Forall₂ (fun b v => b.Honest w v) bits op) (by
    rw [← hop]; exact allocBits_follow _) fun oldPayload hopb => ?_
  refine Complete.bind (forEach_follow fun e he => ?_) fun _ _ => ?_
  · obtain ⟨i, hi, rfl⟩ := List.mem_iff_getElem.1 he
    rw [List.length_zip] at hi
    rw [List.getElem_zip]
    have hi' : i < oldPayload.length := by omega
    refine basePayloadIs_follow h1 hb ((List.forall₂_iff_get.1 hopb).2 i hi' (hopb.length_eq ▸ hi')) fun hv => ?_
    cases hc : c.proof with
    | none =>
      rw [hc] at hop
      simp only at hop
      simp [← hop]
    | some p => simp [hc] at hv
  refine Complete.bind (allocBits_follow _) fun oldLeftovers1 hol => ?_
  rw [hdOld]
  refine Complete.bind (P := fun r => dOld.toBytes = r) ((complete_pure _ _).2 rfl) ?_
  rintro _ rfl
  refine Complete.bind (allocBits_follow _) fun oldDeferred hodb => ?_
  have hlenD : oldDeferred.length = deferred.length := by
    rw [hodb.length_eq, hdb.length_eq, deferred_length hold holdn, deferred_length hdo hdn]
  rw [if_neg (not_not.2 hlenD)]
  refine Complete.bind (kCommitment_complete (HaloCurve.good E F S) h1 hg h2 (vs := bits) ?_ hlen hapart)
    fun kP hkP => ?_
  · rw [hbits]
    exact List.rel_append (List.rel_append (List.rel_append hopb hol) hl1) hodb
  obtain ⟨e1, e2⟩ := deferredOf_toBytes hsmall hold holdn
  refine Complete.bind (Complete.mono (fun _ _ => trivial) (verifyDeferred_holds (hon := true) h1
    (bitsOk_true.2 hodb) fun _ => ⟨e2, by rw [e1]; exact hwf, by rw [e1]; exact htrue⟩)) fun _ (_ : True) => ?_
  have hob : BsOk N w oldLeftovers1
      (bytesBits (@Leftovers.toBytes _ _ _ _ _ _ (Proj.curveOps E F S) P.oldproof1)) := by
    refine ⟨_, hol, ?_, ?_⟩
    · rw [leftovers_length hp.old1]
      cases hc : c.proof with
      | none => simp [bitsOr]
      | some p =>
        rw [VerificationCircuit.theProof, hc, Option.getD_some] at hP
        subst hP
        exact leftovers_length hp.old1
    · rintro ⟨p, hc⟩
      rw [VerificationCircuit.theProof, hc, Option.getD_some] at hP
      rw [hc, ← hP]
      rfl
  refine Complete.bind (verifyProof_follow (N := N) h1 hP id hp hr ha hb hv ⟨_, hkc, .of hkP⟩ hdo hdn hll hob
    (.of hdb) (.of hl2) hchs hfs hrun hfold) fun _ _ => ?_
  have hlol : oldLeftovers1.length = 1152 + 128 * c.params.k := by
    obtain ⟨vs, q1, q2, -⟩ := hob
    rw [q1.length_eq, q2, leftovers_length hp.old1, leftoversBits]
    ring
  let := Proj.curveOps E F S
  refine Complete.bind (slice_bytes (N := N) (.of hdb) (mid := d.challengesSqPackedOld.flatMap bytes16)
    (pre := bytes16 d.x ++ bytes16 d.yOld ++ bytes16 d.yCur ++ bytes16 d.yNew ++ bytes32 d.kyOpening ++
      bytes32 d.txPositiveOpening ++ bytes32 d.txNegativeOpening ++ bytes32 d.sxCurOpening ++ bytes32 d.rxOpening ++
      bytes32 d.rxyOpening) (by rw [Deferred.toBytes]; is_prefix) (by simp) (by simp [hdo]; ring)) fun _ hs1 => ?_
  refine Complete.bind (slice_bytes hob (mid := P.oldproof1.challengesSqPackedNew.flatMap bytes16)
    (pre := pointBytes P.oldproof1.sNewCommitment ++ bytes16 P.oldproof1.yNew ++ pointBytes P.oldproof1.gNew)
    (by rw [Leftovers.toBytes]) (by simp) (by rw [hlol]; simp [hp.old1]; ring)) fun _ hs2 => ?_
  refine Complete.bind (equal_follow h1 hb hv hs1 hs2 (by simp [length_bytesBits, hdo, hp.old1]) fun n => by
    rw [(hrun n).old]) fun _ _ => ?_
  refine Complete.bind (slice_bytes (N := N) (.of hdb) (mid := bytes16 d.yOld) (pre := bytes16 d.x)
    (by rw [Deferred.toBytes]; is_prefix) (by simp) (by simp)) fun _ hs1 => ?_
  refine Complete.bind (slice_bytes hob (mid := bytes16 P.oldproof1.yNew) (pre := pointBytes P.oldproof1.sNewCommitment)
    (by rw [Leftovers.toBytes]; is_prefix) (by simp) (by simp)) fun _ hs2 => ?_
  refine Complete.bind (equal_follow h1 hb hv hs1 hs2 (by simp [length_bytesBits]) fun n => by
    rw [(hrun n).yOld]) fun _ _ => ?_
  exact hinner _ _ hopb hpb

/-- The whole circuit, given a proof that the native verifier accepts or none -/
theorem synthesize_follow [HaloCurve E F S] (h1 : w one = 1) {c : VerificationCircuit F S} {P : RecursiveProof F S}
    (hP : c.theProof = P) (hbc : c.baseCase = some c.proof.isNone) {n : ℕ} (hp : P.WellShaped E c.params.k n)
    (hr : P.proof.innerProduct.rounds.length = c.params.k) (ha : P.proof.innerProduct.a.length = 5)
    {o : Leftovers (Proj S) F} (ho : c.oldLeftovers = some o)
    {l : Leftovers (Proj F) S} (hl : c.newLeftovers = some l) (hll : l.challengesSqPackedNew.length = c.params.k)
    {d : Deferred S} (hd : c.deferred = some d) (hdo : d.challengesSqPackedOld.length = c.params.k)
    (hdn : d.challengesSqPackedNew.length = c.params.k)
    {op : List Bool} (hop : (match c.proof with
      | some proof => bytesBits proof.payload
      | none => c.inner.basePayload) = op)
    {dOld : Deferred F} (hdOld : oldDeferredBytes c = (.pure dOld.toBytes : Prog F _))
    (hold : dOld.challengesSqPackedOld.length = c.params.k) (holdn : dOld.challengesSqPackedNew.length = c.params.k)
    (hsmall : dOld.Small) (hwf : WellFormedDeferred c.params.k dOld) (htrue : TrueDeferred c.params.k dOld)
    {g : ℕ → Pt (E.b : F)} (hg : Gens E c.params.generators g) (h2 : 2 ≤ c.params.generators.length) {bits : List Bool}
    (hbits : bits = op ++ bitsOr (c.proof.map fun p => @Leftovers.toBytes _ _ _ _ _ _ (Proj.curveOps E F S) p.oldproof1)
      (leftoversBits c.params.k) ++ bytesBits (@Leftovers.toBytes _ _ _ _ _ _ (Proj.curveOps E1 S F) o) ++
      bytesBits dOld.toBytes) (hlen : bits.length ≤ c.params.generators.length - 2) (hapart : Apart g bits)
    (hinner : ∀ old new : List AllocatedBit, List.Forall₂ (fun b v => b.Honest w v) old op →
      List.Forall₂ (fun b v => b.Honest w v) new (bytesBits c.newPayload) →
      Complete w (c.inner.synthesize one old new) fun _ => True)
    {kc : Proj F} (hkc : Denotes (E.b : F) kc (inputSum g bits))
    {ζ : S} {chs : List (Challenge S)} {T1 T2 T3 T4 T5 : Rescue F} (hchs : chs.length = c.params.k)
    (hfs : c.forkvalues = some (chs.map (·.fork)))
    (hrun : (∃ p, c.proof = some p) → Run E kc P.proof P.oldproof1 d l ζ chs T1 T2 T3 T4 T5) :
    Complete w (c.synthesize E1 E one) fun _ => True := by
  rw [← synthesizeWith_realFold]
  exact synthesizeWith_follow (E1 := E1) h1 hP hbc hp hr ha ho hl hll hd hdo hdn hop hdOld hold holdn hsmall hwf htrue hg h2
    hbits hlen hapart hinner hkc hchs hfs (fun n => (hrun n).steps)
    fun G GN _ _ hGN => Run.folds h1 hp hr hchs hrun G GN hGN

end

end Recursion
end Halo
