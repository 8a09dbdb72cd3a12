import Verif.Lemmas.Recursion.KCommit
import Verif.Lemmas.Recursion.Scalars
import Verif.Lemmas.Recursion.Equal
import Verif.Lemmas.Recursion.Layout
import Verif.Lemmas.Gadget.Rescue
import Verif.Lemmas.Rescue
import Verif.Lemmas.Proofs.Challenge
/-!
# The circuit follows the native verifier

The honest prover's values of the verification circuit are those of the native verifier, if there is a
proof to verify; this is the proposition `N`. In the base case the values are whatever they are.
-/
set_option linter.unusedSectionVars false

namespace Halo
namespace Recursion
open Circuit Proofs
open Circuit.Sha256 (foldProg index)
variable {E : CurveConsts} {F S : Type} [Field F] [DecidableEq F] [LawfulField F] [Field S] [DecidableEq S]
  [LawfulField S] {w : Var → F} {one : Var} {N : Prop}

local notation s " ⋆ " A => LawfulField.val s • A

/-- A point, the given one if `N` -/
def PtOk (N : Prop) (w : Var → F) (P : CurvePoint F) (A : Pt (E.b : F)) : Prop :=
  ∃ A' : Pt (E.b : F), P.Honest w A' ∧ (N → A' = A)

/-- Bits, the given ones if `N` -/
def BsOk (N : Prop) (w : Var → F) (bits : List AllocatedBit) (vs : List Bool) : Prop :=
  ∃ vs', List.Forall₂ (fun b v => b.Honest w v) bits vs' ∧ vs'.length = vs.length ∧ (N → vs' = vs)

/-- The bits of a challenge, of the given one if `N` -/
def ChOk (N : Prop) (w : Var → F) (bits : List AllocatedBit) (y : S) : Prop :=
  ∃ c : BitVec 128, List.Forall₂ (fun b v => b.Honest w v) bits (bitsOf c) ∧ (N → y = FieldApi.fromU128 c)

/-- A transcript, the given one if `N` -/
def TrOk (N : Prop) (h1 : w one = 1) (t : RescueGadget F) (T : Rescue F) : Prop :=
  ∃ st, RescueGadget.Rel (NumLogic.complete h1) t st ∧ (N → Rescue.Rel T st)

theorem forall₂_bitsOf {M : AllocatedBit → Bool → Prop} {bits : List AllocatedBit} {c : BitVec 128}
    (h : List.Forall₂ M bits (bitsOf c)) : CurvePoint.BitsOf M bits c := by
  have := CurvePoint.bitsOf_forall₂ h (by simp [bitsOf_eq])
  rwa [bitsValue_bitsOf, BitVec.ofNat_toNat, BitVec.setWidth_eq] at this

omit [DecidableEq S] in
theorem val_fromU128 (c : BitVec 128) : LawfulField.val (FieldApi.fromU128 c : S) = c.toNat := by
  rw [LawfulField.fromU128_eq, LawfulField.val_of_lt]
  have hm := (LawfulField.modulus_bound (F := S)).1
  have hc := c.isLt
  exact hc.trans (lt_trans (by norm_num) hm)

theorem getChallengeScalar_fromU128 (c : BitVec 128) :
    Util.getChallengeScalar (FieldApi.fromU128 c : S) = (Util.expandChallenge c : S) := by
  rw [Util.getChallengeScalar]
  congr 1
  apply BitVec.eq_of_toNat_eq
  rw [LawfulField.lower128_val, val_fromU128, Nat.mod_eq_of_lt c.isLt]

theorem bits16_fromU128 (c : BitVec 128) : bytesBits (bytes16 (FieldApi.fromU128 c : S)) = bitsOf c := by
  apply eq_bitsOf (bits16_length _)
  rw [leNat_append_bits, bytes16, bytes32, Util.leNat_take, LawfulField.toBytes_val, val_fromU128,
    Nat.mod_eq_of_lt (by simpa using c.isLt)]

omit [DecidableEq F] [LawfulField F] in
theorem ChOk.bits {bits : List AllocatedBit} {y : S} (h : ChOk N w bits y) :
    BsOk N w bits (bytesBits (bytes16 y)) := by
  obtain ⟨c, hb, hc⟩ := h
  exact ⟨_, hb, by rw [bits16_length]; simp [bitsOf_eq], fun n => by rw [hc n, bits16_fromU128]⟩

omit [DecidableEq F] [LawfulField F] in
theorem PtOk.of {P : CurvePoint F} {A : Pt (E.b : F)} (h : P.Honest w A) : PtOk N w P A := ⟨A, h, fun _ => rfl⟩

omit [DecidableEq F] [LawfulField F] in
theorem BsOk.of {bits : List AllocatedBit} {vs : List Bool}
    (h : List.Forall₂ (fun b v => b.Honest w v) bits vs) : BsOk N w bits vs := ⟨vs, h, rfl, fun _ => rfl⟩

/-! ### Points -/

omit [DecidableEq S] in
theorem add_follow [HaloCurve E F S] (h1 : w one = 1) {P Q : CurvePoint F} {A B : Pt (E.b : F)}
    (hP : PtOk N w P A) (hQ : PtOk N w Q B) :
    Complete w (CurvePoint.add E one P Q) fun R => PtOk N w R (A + B) := by
  obtain ⟨A', hA, eA⟩ := hP
  obtain ⟨B', hB, eB⟩ := hQ
  exact (CurvePoint.add_complete (HaloCurve.good E F S) h1 hA hB).mono fun R hR =>
    ⟨_, hR, fun n => by rw [eA n, eB n]⟩

theorem endo_follow [HaloCurve E F S] (h1 : w one = 1) {P : CurvePoint F} {A : Pt (E.b : F)}
    {bits : List AllocatedBit} {y : S} (hP : PtOk N w P A) (hb : ChOk N w bits y) :
    Complete w (CurvePoint.multiplyEndo one P bits) fun R =>
      PtOk N w R ((Util.getChallengeScalar y : S) ⋆ A) := by
  obtain ⟨A', hA, eA⟩ := hP
  obtain ⟨c, hc, ec⟩ := hb
  exact (CurvePoint.multiplyEndo_complete (S := S) h1 hA (forall₂_bitsOf hc)).mono fun R hR =>
    ⟨_, hR, fun n => by rw [eA n, ec n, getChallengeScalar_fromU128]⟩

theorem invEndo_follow [HaloCurve E F S] (h1 : w one = 1) {P : CurvePoint F} {A : Pt (E.b : F)}
    {bits : List AllocatedBit} {y : S} (hP : PtOk N w P A) (hb : ChOk N w bits y) :
    Complete w (CurvePoint.multiplyInvEndo E S one P bits) fun R =>
      PtOk N w R ((Util.getChallengeScalar y : S)⁻¹ ⋆ A) := by
  obtain ⟨A', hA, eA⟩ := hP
  obtain ⟨c, hc, ec⟩ := hb
  refine (CurvePoint.multiplyInvEndo_complete (S := S) h1 hA hc (by simp [bitsOf_eq])).mono fun R hR =>
    ⟨_, hR, fun n => ?_⟩
  rw [eA n, ec n, getChallengeScalar_fromU128, bitsValue_bitsOf, BitVec.ofNat_toNat, BitVec.setWidth_eq]

omit [DecidableEq S] in
theorem multiply_follow [HaloCurve E F S] (h1 : w one = 1) {P : CurvePoint F} {A : Pt (E.b : F)}
    {bits : List AllocatedBit} {s : S} (hP : PtOk N w P A) (hb : BsOk N w bits (bytesBits (bytes32 s))) :
    Complete w (CurvePoint.multiply E one P bits) fun R => PtOk N w R (s ⋆ A) := by
  obtain ⟨A', hA, eA⟩ := hP
  obtain ⟨vs, hb, -, eb⟩ := hb
  refine (CurvePoint.multiply_complete (HaloCurve.good E F S) h1 hA hb).mono fun R hR => ⟨_, hR, fun n => ?_⟩
  rw [eA n, eb n, leNat_append_bits, bytes32, LawfulField.toBytes_val]

theorem mulAdd_follow [HaloCurve E F S] (h1 : w one = 1) {P Q : CurvePoint F} {A B : Pt (E.b : F)}
    {bits : List AllocatedBit} {y : S} (hP : PtOk N w P A) (hQ : PtOk N w Q B) (hb : ChOk N w bits y) :
    Complete w (mulAdd E one bits P Q) fun R => PtOk N w R (((Util.getChallengeScalar y : S) ⋆ A) + B) :=
  Complete.bind (endo_follow h1 hP hb) fun _ hR => add_follow (S := S) h1 hR hQ

/-! ### The transcript -/

section
attribute [local irreducible] RescueGadget.new Complete

omit [DecidableEq F] in
theorem new_follow (h1 : w one = 1) : Complete w (RescueGadget.new one) fun t => TrOk N h1 t Rescue.new :=
  Logic.mono (NumLogic.complete h1).toLogic (RescueGadget.holds_new (NumLogic.complete h1)) fun t ht =>
    (⟨.absorbing (Vector.replicate Rescue.M 0) [], ht, fun _ => Rescue.rel_new⟩ : TrOk N h1 t Rescue.new)

end

omit [DecidableEq F] in
theorem absorb_follow (h1 : w one = 1) {t : RescueGadget F} {T : Rescue F} (ht : TrOk N h1 t T) {n : Num F}
    {v : F} (hn : n.Honest w) (hv : N → n.wire w = v) :
    Complete w (t.absorb one n) fun t => TrOk N h1 t (Rescue.absorb v T) := by
  obtain ⟨st, hst, hN⟩ := ht
  refine Complete.mono (fun t ht => ⟨_, ht, fun hh => ?_⟩)
    (RescueGadget.holds_absorb (NumLogic.complete h1) hst (n := n) ⟨hn, rfl⟩)
  rw [hv hh]
  exact Rescue.absorb_rel (hN hh) v

omit [DecidableEq S] in
theorem commitPoint_follow [HaloCurve E F S] (h1 : w one = 1) {t : RescueGadget F} {T : Rescue F}
    (ht : TrOk N h1 t T) {P : CurvePoint F} {p : Proj F} {A : Pt (E.b : F)} (hP : PtOk N w P A)
    (hp : Denotes (E.b : F) p A) :
    letI := Proj.curveOps E F S
    Complete w (commitPoint one t P) fun t => TrOk N h1 t (appendPoint Transcript.rescue p T) := by
  let := Proj.curveOps E F S
  obtain ⟨A', hA, eA⟩ := hP
  have e : appendPoint Transcript.rescue p T =
      Rescue.absorb (coordinates A).2 (Rescue.absorb (coordinates A).1 T) := by
    unfold appendPoint
    show (match Proj.getXy p with | some (x, y) => _ | none => _) = _
    rw [getXy_spec hp]
    cases A <;> rfl
  rw [e]
  refine Complete.bind (absorb_follow h1 ht hA.x fun n => ?_) fun t ht => absorb_follow h1 ht hA.y fun n => ?_
  · rw [hA.means.x, eA n]
  · rw [hA.means.y, eA n]

theorem getChallenge_follow (h1 : w one = 1) {t : RescueGadget F} {T T' : Rescue F} (ht : TrOk N h1 t T)
    {y : S} (hy : N → Proofs.getChallenge S Transcript.rescue T = some (y, T')) :
    Complete w (getChallenge one t) fun r => ChOk N w r.1 y ∧ TrOk N h1 r.2 T' := by
  obtain ⟨st, hst, hN⟩ := ht
  refine Complete.bind (RescueGadget.holds_squeeze (NumLogic.complete h1) hst) ?_
  rintro ⟨num, t'⟩ ⟨hnum, ht'⟩
  have hn : (Num.ofAllocated num).Honest w ∧ (Num.ofAllocated num).wire w = st.squeeze.1 :=
    (NumLogic.complete h1).allocN hnum
  refine Complete.bind (unpackFe_complete h1 hn.1) fun bits hbits => (complete_ret _ _).2 ?_
  rw [hn.2] at hbits
  refine ⟨⟨FieldApi.lower128 st.squeeze.1 ||| (1#128 <<< 127), ?_, fun n => ?_⟩, _, ht', fun n => ?_⟩
  · have : bitsOf (FieldApi.lower128 st.squeeze.1 ||| (1#128 <<< 127)) =
        (((List.range 256).map fun i => (LawfulField.val st.squeeze.1).testBit i).take 127) ++ [true] := by
      symm
      apply List.ext_getElem
      · simp [bitsOf_eq]
      · intro i h h'
        have hi : i < 128 := by simpa [bitsOf_eq] using h'
        simp only [bitsOf_eq, List.getElem_map, List.getElem_range]
        have e : (LawfulField.val st.squeeze.1 % 2 ^ 128).testBit i = (LawfulField.val st.squeeze.1).testBit i := by
          rw [Nat.testBit_mod_two_pow, decide_eq_true hi, Bool.true_and]
        rw [BitVec.toNat_or, Nat.testBit_or, LawfulField.lower128_val, e]
        by_cases h7 : i < 127
        · rw [List.getElem_append_left (by simpa using h7)]
          have : (1#128 <<< 127).toNat.testBit i = false := by
            rw [show (1#128 <<< 127).toNat = 2 ^ 127 by decide, Nat.testBit_two_pow]
            simp; omega
          rw [this, Bool.or_false, List.getElem_take, List.getElem_map, List.getElem_range]
        · obtain rfl : i = 127 := by omega
          rw [List.getElem_append_right (by simp)]
          have : (1#128 <<< 127).toNat.testBit 127 = true := by decide
          rw [this, Bool.or_true, List.getElem_singleton]
    rw [this]
    exact List.rel_append (List.forall₂_take _ hbits) (.cons (AllocatedBit.one_honest h1) .nil)
  · obtain ⟨r', hr, -⟩ := Rescue.squeeze_rel (hN n)
    have := hy n
    simp only [Proofs.getChallenge, Transcript.rescue, hr, Option.bind_eq_bind, Option.bind_some,
      Option.some.injEq, Prod.mk.injEq] at this
    exact this.1.symm
  · obtain ⟨r', hr, hrel⟩ := Rescue.squeeze_rel (hN n)
    have := hy n
    simp only [Proofs.getChallenge, Transcript.rescue, hr, Option.bind_eq_bind, Option.bind_some,
      Option.some.injEq, Prod.mk.injEq] at this
    rw [← this.2]
    exact hrel

/-! ### Committing to points -/

theorem witness_follow [HaloCurve E F S] (h1 : w one = 1) {p : Proj F} {A : Pt (E.b : F)}
    (hp : Denotes (E.b : F) p A) : Complete w (CurvePoint.witness E one (.ok p)) fun P => PtOk N w P A :=
  (CurvePoint.witness_complete h1 hp).mono fun _ h => .of h

theorem commitWitness_follow [HaloCurve E F S] (h1 : w one = 1) {t : RescueGadget F} {T : Rescue F}
    (ht : TrOk N h1 t T) {p : Proj F} {A : Pt (E.b : F)} (hp : Denotes (E.b : F) p A) :
    letI := Proj.curveOps E F S
    Complete w (commitWitness E one t p) fun r =>
      PtOk N w r.1 A ∧ TrOk N h1 r.2 (appendPoint Transcript.rescue p T) :=
  Complete.bind (witness_follow (S := S) h1 hp) fun _ hP =>
    Complete.bind (commitPoint_follow (S := S) h1 ht hP hp) fun _ ht => (complete_ret _ _).2 ⟨hP, ht⟩

theorem commitMultiple_follow [HaloCurve E F S] (h1 : w one = 1) {t : RescueGadget F} {T : Rescue F}
    (ht : TrOk N h1 t T) {g : CurvePoint F} {G : Pt (E.b : F)} (hG : Denotes (E.b : F) (Proj.one E) G)
    (hg : PtOk N w g G) {bits : List AllocatedBit} {s : S} (hb : BsOk N w bits (bytesBits (bytes32 s))) :
    letI := Proj.curveOps E F S
    Complete w (commitMultiple E one g bits t) fun r =>
      PtOk N w r.1 (s ⋆ G) ∧ TrOk N h1 r.2 (appendScalar (Proj F) Transcript.rescue s T) :=
  Complete.bind (multiply_follow (S := S) h1 hg hb) fun _ hP =>
    Complete.bind (commitPoint_follow (S := S) h1 ht hP (denotes_mul (HaloCurve.good E F S) hG s)) fun _ ht =>
      (complete_ret _ _).2 ⟨hP, ht⟩

theorem generator_follow {G : Pt (E.b : F)} (hG : Denotes (E.b : F) (Proj.one E) G) (h0 : G ≠ 0) :
    Complete w (generator E) fun g => PtOk N w g G := by
  rw [generator, getXy_spec hG]
  cases G with
  | zero => exact absurd rfl h0
  | some x y h =>
    exact (complete_ret _ _).2 (.of ⟨⟨rfl, rfl, rfl⟩, rfl, rfl, rfl⟩)

/-! ### Bits -/

theorem bits_testBit (x : F) :
    ((List.range 256).map fun i => (LawfulField.val x).testBit i) = bytesBits (bytes32 x) := by
  apply bitsValue_inj
  · rw [bits32_length]; simp
  · rw [bitsValue_range, leNat_append_bits, bytes32, LawfulField.toBytes_val]
    apply Nat.mod_eq_of_lt
    have := LawfulField.val_lt x
    have := (LawfulField.modulus_bound (F := F)).2
    omega

theorem slice_follow {bits : List AllocatedBit} {vs : List Bool} (h : BsOk N w bits vs) {a b : ℕ} (hab : a ≤ b)
    (hb : b ≤ vs.length) :
    Complete w (slice bits a b) fun r => BsOk N w r ((vs.take b).drop a) := by
  obtain ⟨vs', hv, hl, hN⟩ := h
  rw [slice, if_pos ⟨hab, by rw [hv.length_eq, hl]; exact hb⟩]
  exact (complete_ret _ _).2 ⟨_, List.forall₂_drop _ (List.forall₂_take _ hv), by simp [hl], fun n => by rw [hN n]⟩

theorem equal_follow (h1 : w one = 1) {b : AllocatedBit} {v : Bool} (hb : b.Honest w v) (hv : v = true ∨ N)
    {l r : List AllocatedBit} {x y : List Bool} (hl : BsOk N w l x) (hr : BsOk N w r y)
    (hlen : x.length = y.length) (hxy : N → x = y) :
    Complete w (equalUnlessBaseCase one b l r) fun _ => True := by
  obtain ⟨x', hl, el, nl⟩ := hl
  obtain ⟨y', hr, er, nr⟩ := hr
  refine Complete.mono (fun _ _ => trivial) (equalUnlessBaseCase_holds (hon := true) h1
    ⟨hb.1, fun _ => hb.2⟩ (bitsOk_true.2 hl) (bitsOk_true.2 hr) fun _ => ⟨by omega, ?_⟩)
  exact hv.imp id fun n => by rw [nl n, nr n, hxy n]

theorem pointIs_follow (h1 : w one = 1) {b : AllocatedBit} {v : Bool} (hb : b.Honest w v) (hv : v = true ∨ N)
    {P : CurvePoint F} {A : Pt (E.b : F)} (hP : PtOk N w P A) {bits : List AllocatedBit} {vs : List Bool}
    (h : BsOk N w bits vs) {i : ℕ} (hi : i + 512 ≤ vs.length)
    (hx : N → (vs.take (i + 256)).drop i = bytesBits (bytes32 (coordinates A).1))
    (hy : N → (vs.take (i + 512)).drop (i + 256) = bytesBits (bytes32 (coordinates A).2)) :
    Complete w (pointIs one b P bits i) fun _ => True := by
  obtain ⟨A', hA, eA⟩ := hP
  refine Complete.bind (unpackFe_complete h1 hA.x) fun x hx' => ?_
  refine Complete.bind (unpackFe_complete h1 hA.y) fun y hy' => ?_
  rw [bits_testBit] at hx' hy'
  refine Complete.bind (slice_follow h (by omega) (by omega)) fun s1 hs1 => ?_
  refine Complete.bind (equal_follow h1 hb hv (.of hx') hs1 ?_ fun n => ?_) fun _ _ => ?_
  · rw [bits32_length]; simp; omega
  · rw [hx n, hA.means.x, eA n]
  refine Complete.bind (slice_follow h (by omega) (by omega)) fun s2 hs2 => ?_
  refine equal_follow h1 hb hv (.of hy') hs2 ?_ fun n => ?_
  · rw [bits32_length]; simp; omega
  · rw [hy n, hA.means.y, eA n]

end Recursion
end Halo
