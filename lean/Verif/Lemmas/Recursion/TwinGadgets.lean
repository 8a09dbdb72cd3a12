import Verif.Lemmas.Gadget.TwinEcc
import Verif.Model.Recursion.Gadgets
/-!
# The parts of the verification circuit ask for the same constraints, whatever values they know
-/
set_option linter.unusedSectionVars false
namespace Halo
namespace Recursion
open Circuit
open Circuit.CurvePoint (Bits)
open Circuit.Sha256 (foldProg index)
open Circuit.RescueGadget (forall₂_refl)
variable {F : Type} [Field F] {α β : Type} {V : Var → Prop} {one : Var}

/-- The same number of the same bits, up to values -/
def BitsN (V : Var → Prop) (n : ℕ) (l l' : List AllocatedBit) : Prop := Bits V l l' ∧ l'.length = n

theorem twin_slice {A : α → β → Prop} {l : List α} {l' : List β} (h : List.Forall₂ A l l') {a b : ℕ}
    (hab : a ≤ b) (hb : b ≤ l'.length) :
    Twin V (slice l a b : Prog F _) (slice l' a b) fun m m' => List.Forall₂ A m m' ∧ m'.length = b - a := by
  unfold slice
  rw [if_pos ⟨hab, h.length_eq ▸ hb⟩, if_pos ⟨hab, hb⟩]
  refine Twin.ret ⟨List.forall₂_drop _ (List.forall₂_take _ h), ?_⟩
  rw [List.length_drop, List.length_take, min_eq_left hb]

theorem twin_sliceN {l l' : List AllocatedBit} {m : ℕ} (h : BitsN V m l l') {a b n : ℕ} (hab : a ≤ b)
    (hb : b ≤ m) (hn : b - a = n) : Twin V (slice l a b : Prog F _) (slice l' a b) (BitsN V n) :=
  hn ▸ twin_slice h.1 hab (h.2 ▸ hb)

theorem twin_split {l l' : List AllocatedBit} {n m : ℕ} (h : BitsN V (n + m) l l') :
    Twin V (split n l : Prog F _) (split n l') fun s s' => BitsN V n s.1 s'.1 ∧ BitsN V m s.2 s'.2 := by
  obtain ⟨h, hl⟩ := h
  unfold split
  rw [if_pos (by rw [h.length_eq]; omega), if_pos (by omega)]
  exact Twin.ret ⟨⟨List.forall₂_take _ h, by rw [List.length_take]; omega⟩,
    List.forall₂_drop _ h, by rw [List.length_drop]; omega⟩

theorem twin_numEqual (h1 : V one) {b b' : AllocatedBit} (hb : AllocatedBit.Twin V b b')
    {l l' r r' : Combination F} (hl : Combination.Twin V l l') (hr : Combination.Twin V r r') :
    Twin V (numEqualUnlessBaseCase one b l r) (numEqualUnlessBaseCase one b' l' r') fun _ _ => True := by
  have i1 := hl.in h1
  have i2 := hr.in h1
  have i3 := hb.mem
  unfold numEqualUnlessBaseCase
  twin_steps [hl.lc, hr.lc, hb.var]
  trivial

theorem packPairs_twin {ps ps' : List (AllocatedBit × AllocatedBit)}
    (h : List.Forall₂ (fun p p' => AllocatedBit.Twin V p.1 p'.1 ∧ AllocatedBit.Twin V p.2 p'.2) ps ps') :
    Combination.Twin (F := F) V (packPairs ps).1 (packPairs ps').1 ∧
      Combination.Twin (F := F) V (packPairs ps).2 (packPairs ps').2 := by
  unfold packPairs
  have : ∀ (k : F) (a a' b b' : Combination F), Combination.Twin V a a' → Combination.Twin V b b' →
      let f := fun (s : F × Combination F × Combination F) (p : AllocatedBit × AllocatedBit) =>
        (s.1 + s.1, s.2.1.addScaled (.full s.1) (.ofAllocated (.ofBit p.1)),
          s.2.2.addScaled (.full s.1) (.ofAllocated (.ofBit p.2)))
      Combination.Twin V (ps.foldl f (k, a, b)).2.1 (ps'.foldl f (k, a', b')).2.1 ∧
        Combination.Twin V (ps.foldl f (k, a, b)).2.2 (ps'.foldl f (k, a', b')).2.2 := by
    induction h with
    | nil => exact fun k a a' b b' h h' => ⟨h, h'⟩
    | cons h _ ih =>
      intro k a a' b b' ha hb
      exact ih _ _ _ _ _ (ha.addScaled _ (.ofAllocated (.ofBit h.1))) (hb.addScaled _ (.ofAllocated (.ofBit h.2)))
  exact this 1 .zero .zero .zero .zero .zero .zero

theorem forall₂_chunks {A : α → β → Prop} (n : ℕ) {l : List α} {l' : List β} (h : List.Forall₂ A l l') :
    List.Forall₂ (List.Forall₂ A) (Sha256.chunks n l) (Sha256.chunks n l') := by
  obtain ⟨m, hm⟩ : ∃ m, l.length ≤ m := ⟨_, le_rfl⟩
  induction m generalizing l l' with
  | zero =>
    have : l = [] := List.length_eq_zero_iff.1 (by omega)
    subst this
    cases h
    unfold Sha256.chunks
    simp
  | succ m ih =>
    rw [Sha256.chunks.eq_def n l, Sha256.chunks.eq_def n l']
    have e : l = [] ↔ l' = [] := by rw [← List.length_eq_zero_iff, h.length_eq, List.length_eq_zero_iff]
    simp only [e]
    split
    · exact .nil
    · rename_i hn
      rw [not_or, ← List.length_eq_zero_iff, ← h.length_eq] at hn
      exact .cons (List.forall₂_take _ h) (ih (List.forall₂_drop _ h) (by rw [List.length_drop]; omega))

theorem forall₂_zip {γ δ : Type} {A : α → β → Prop} {B : γ → δ → Prop} {l : List α} {l' : List β}
    (h : List.Forall₂ A l l') {m : List γ} {m' : List δ} (h' : List.Forall₂ B m m') :
    List.Forall₂ (fun p p' => A p.1 p'.1 ∧ B p.2 p'.2) (l.zip m) (l'.zip m') := by
  induction h generalizing m m' with
  | nil => simp
  | cons h _ ih =>
    cases h' with
    | nil => simp
    | cons g h' => exact .cons ⟨h, g⟩ (ih h')

theorem twin_equalUnless (h1 : V one) {b b' : AllocatedBit} (hb : AllocatedBit.Twin V b b') {n : ℕ}
    {l l' r r' : List AllocatedBit} (hl : BitsN V n l l') (hr : BitsN V n r r') :
    Twin V (equalUnlessBaseCase one b l r : Prog F _) (equalUnlessBaseCase one b' l' r') fun _ _ => True := by
  unfold equalUnlessBaseCase
  refine twin_guard (by rw [hl.2, hr.2]; simp) ?_
  refine twin_foldProg (R := fun _ _ => True) (forall₂_chunks 250 (forall₂_zip hl.1 hr.1)) ?_ trivial
  intro c c' _ _ hc _
  have := packPairs_twin (F := F) hc
  exact twin_numEqual h1 hb this.1 this.2

theorem twin_obtainScalar {l l' : List AllocatedBit} (h : Bits V l l') :
    Twin V (obtainScalarFromBits l : Prog F _) (obtainScalarFromBits l') (AllocatedNum.Twin V) := by
  obtain ⟨e1, e2⟩ := packBits_twin (F := F) h
  unfold obtainScalarFromBits
  twin_steps [e1]
  exact Twin.ret ⟨_, _, _, by assumption⟩

theorem twin_witnessBits {S : Type} [Field S] [FieldApi S] {v v' : S} :
    Twin V (witnessBitsFromFe v : Prog F _) (witnessBitsFromFe v') (BitsN V 256) := by
  unfold witnessBitsFromFe
  have := twin_mapProg (V := V) (A := fun _ _ => True) (f := fun b => (AllocatedBit.alloc (.ok b) : Prog F _))
    (f' := fun b => AllocatedBit.alloc (.ok b)) (xs := bytesBits (FieldApi.toBytes v).toList)
    (xs' := bytesBits (FieldApi.toBytes v').toList)
    (List.forall₂_iff_zip.2 ⟨by rw [toBytes_length, toBytes_length], fun _ => trivial⟩) fun _ _ _ => twin_bitAlloc'
  refine Twin.mono ?_ this
  intro bs bs' h
  exact ⟨h.1.imp fun _ _ h => h.1, by rw [h.2, toBytes_length]⟩

section
variable [FieldApi F]

theorem twin_challengeStep (h1 : V one) {bs bs' : List AllocatedBit} (hb : BitsN V 128 bs bs')
    {a a' : Combination F} (ha : Combination.Twin V a a') {i : ℕ} (hi : i < 64) :
    Twin V (challengeStep one bs a i) (challengeStep one bs' a' i) (Combination.Twin V) := by
  unfold challengeStep
  refine (twin_index hb.1 (by rw [hb.2]; omega)).bind fun n n' hn => ?_
  refine (twin_index hb.1 (by rw [hb.2]; omega)).bind fun e e' he => ?_
  have h0 : Combination.Twin (F := F) V (.ofAllocated (.one one)) (.ofAllocated (.one one)) :=
    .ofAllocated ⟨_, _, _, h1⟩
  have h2 := ((ha.scale (FieldApi.fromU128 2)).add h0).add
    ((Combination.Twin.ofAllocated (.ofBit hn)).scale (-FieldApi.fromU128 2))
  have i1 := h2.in h1
  have i2 := he.mem
  have e1 := h2.lc (one := one)
  twin_steps [e1, he.var]
  exact Twin.ret (h2.add (.ofNum (.ofAllocated ⟨_, _, _, by assumption⟩)))

theorem twin_getChallengeScalar (h1 : V one) {bs bs' : List AllocatedBit} (hb : BitsN V 128 bs bs') :
    Twin V (getChallengeScalar one bs : Prog F _) (getChallengeScalar one bs') (AllocatedNum.Twin V) := by
  unfold getChallengeScalar
  refine twin_guard (by simpa using hb.2) ?_
  refine Twin.bind (R := Combination.Twin V) (twin_foldProg (A := fun i j => i = j ∧ i < 64)
    (forall₂_refl fun i hi => ⟨rfl, by simp [List.mem_range'_1] at hi; omega⟩) ?_ (.ofNum (.const _))) ?_
  · rintro i _ A A' ⟨rfl, hi⟩ hA
    exact twin_challengeStep h1 hb hA hi
  · intro A A' hA
    have i1 := hA.in h1
    twin_steps [hA.lc]
    exact Twin.ret ⟨_, _, _, by assumption⟩

theorem twin_commitPoint (h1 : V one) {t t' : RescueGadget F} (ht : RescueGadget.Twin V t t')
    {p p' : CurvePoint F} (hp : CurvePoint.Like V p p') :
    Twin V (commitPoint one t p) (commitPoint one t' p') (RescueGadget.Twin V) := by
  unfold commitPoint
  exact (RescueGadget.twin_absorb h1 hp.x ht).bind fun t t' ht => RescueGadget.twin_absorb h1 hp.y ht

theorem twin_getChallenge (h1 : V one) {t t' : RescueGadget F} (ht : RescueGadget.Twin V t t') :
    Twin V (getChallenge one t) (getChallenge one t') fun s s' => BitsN V 128 s.1 s'.1 ∧
      RescueGadget.Twin V s.2 s'.2 := by
  unfold getChallenge
  refine (RescueGadget.twin_squeeze h1 ht).bind ?_
  rintro ⟨n, t⟩ ⟨n', t'⟩ ⟨hn, ht⟩
  refine (twin_unpackFe h1 (.ofAllocated hn)).bind fun bs bs' hb => ?_
  refine Twin.ret ⟨⟨List.rel_append (List.forall₂_take _ hb.1) (.cons ⟨_, _, _, h1⟩ .nil), ?_⟩, ht⟩
  rw [List.length_append, List.length_take, hb.2.1]
  rfl

theorem twin_computeBRev (h1 : V one) {us us' : List (AllocatedNum F)}
    (hu : List.Forall₂ (AllocatedNum.Twin V) us us') :
    ∀ {x x' : AllocatedNum F} {vs vs' : List (AllocatedNum F)}, AllocatedNum.Twin V x x' →
      List.Forall₂ (AllocatedNum.Twin V) vs vs' → us'.length = vs'.length → us' ≠ [] →
      Twin V (computeBRev one x us vs) (computeBRev one x' us' vs') (Combination.Twin V) := by
  induction hu with
  | nil => intro x x' vs vs' _ _ _ h; exact absurd rfl h
  | @cons u u' us us' h hu ih =>
    intro x x' vs vs' hx hv hl _
    cases hv with
    | nil => simp at hl
    | cons g hv =>
      cases hu with
      | nil =>
        unfold computeBRev
        exact (twin_mul hx h).bind fun t t' ht => Twin.ret ((Combination.Twin.ofAllocated g).addAllocated ht)
      | cons h' hu =>
        rw [computeBRev, computeBRev]
        refine (twin_mul hx h).bind fun t t' ht => (twin_mul hx hx).bind fun y y' hy => ?_
        refine (ih hy hv (by simpa using hl) (by simp)).bind fun r r' hr => ?_
        exact (twin_combMul h1 hr ((Combination.Twin.ofAllocated g).addAllocated ht)).bind fun s s' hs =>
          Twin.ret (.ofAllocated hs)
        all_goals simp

/-- The same number of the same numbers, up to values -/
def NumsN (V : Var → Prop) (n : ℕ) (l l' : List (AllocatedNum F)) : Prop :=
  List.Forall₂ (AllocatedNum.Twin V) l l' ∧ l'.length = n

theorem twin_computeB (h1 : V one) {x x' : AllocatedNum F} (hx : AllocatedNum.Twin V x x') {n : ℕ} (hn : 1 ≤ n)
    {us us' vs vs' : List (AllocatedNum F)} (hu : NumsN V n us us') (hv : NumsN V n vs vs') :
    Twin V (computeB one x us vs) (computeB one x' us' vs') (Combination.Twin V) := by
  unfold computeB
  refine twin_guard (by rw [hu.2, hv.2]; omega) ?_
  refine twin_computeBRev h1 (List.rel_reverse hu.1) hx (List.rel_reverse hv.1) ?_ ?_
  · rw [List.length_reverse, List.length_reverse, hu.2, hv.2]
  · rw [← List.length_pos_iff, List.length_reverse, hu.2]; omega

/-- The same numbers, up to values -/
structure DeferredNums.Twin (V : Var → Prop) (k : ℕ) (d d' : DeferredNums F) : Prop where
  x : AllocatedNum.Twin V d.x d'.x
  yOld : AllocatedNum.Twin V d.yOld d'.yOld
  yCur : AllocatedNum.Twin V d.yCur d'.yCur
  yNew : AllocatedNum.Twin V d.yNew d'.yNew
  kyOpening : AllocatedNum.Twin V d.kyOpening d'.kyOpening
  txPositiveOpening : AllocatedNum.Twin V d.txPositiveOpening d'.txPositiveOpening
  txNegativeOpening : AllocatedNum.Twin V d.txNegativeOpening d'.txNegativeOpening
  sxCurOpening : AllocatedNum.Twin V d.sxCurOpening d'.sxCurOpening
  rxOpening : AllocatedNum.Twin V d.rxOpening d'.rxOpening
  rxyOpening : AllocatedNum.Twin V d.rxyOpening d'.rxyOpening
  challengesSqOld : NumsN V k d.challengesSqOld d'.challengesSqOld
  gxOldOpening : AllocatedNum.Twin V d.gxOldOpening d'.gxOldOpening
  challengesSqNew : NumsN V k d.challengesSqNew d'.challengesSqNew
  bX : AllocatedNum.Twin V d.bX d'.bX
  bXy : AllocatedNum.Twin V d.bXy d'.bXy
  bYOld : AllocatedNum.Twin V d.bYOld d'.bYOld
  bYCur : AllocatedNum.Twin V d.bYCur d'.bYCur
  bYNew : AllocatedNum.Twin V d.bYNew d'.bYNew

theorem twin_takeScalar {n m : ℕ} {l l' : List AllocatedBit} (h : BitsN V (n + m) l l') :
    Twin V (takeScalar n l : Prog F _) (takeScalar n l') fun s s' => AllocatedNum.Twin V s.1 s'.1 ∧
      BitsN V m s.2 s'.2 := by
  unfold takeScalar
  refine (twin_split h).bind ?_
  rintro ⟨a, b⟩ ⟨a', b'⟩ ⟨h, h'⟩
  exact (twin_obtainScalar h.1).bind fun v v' hv => Twin.ret ⟨hv, h'⟩

theorem twin_takeChallenges (h1 : V one) (k : ℕ) {m : ℕ} : ∀ {l l' : List AllocatedBit},
    BitsN V (128 * k + m) l l' →
    Twin V (takeChallenges one k l : Prog F _) (takeChallenges one k l') fun s s' => NumsN V k s.1 s'.1 ∧
      BitsN V m s.2 s'.2 := by
  induction k with
  | zero => intro l l' h; exact Twin.ret ⟨⟨.nil, rfl⟩, by simpa using h⟩
  | succ k ih =>
    intro l l' h
    unfold takeChallenges
    rw [show 128 * (k + 1) + m = 128 + (128 * k + m) by ring] at h
    refine (twin_split h).bind ?_
    rintro ⟨a, b⟩ ⟨a', b'⟩ ⟨h, h'⟩
    refine (twin_getChallengeScalar h1 h).bind fun v v' hv => ?_
    refine (ih h').bind ?_
    rintro ⟨vs, r⟩ ⟨vs', r'⟩ ⟨hvs, hr⟩
    exact Twin.ret ⟨⟨.cons hv hvs.1, by rw [List.length_cons, hvs.2]⟩, hr⟩

attribute [local irreducible] Circuit.Twin

theorem twin_unpackDeferred (h1 : V one) {k : ℕ} {l l' : List AllocatedBit}
    (h : BitsN V (12 * 256 + (4 + 2 * k) * 128) l l') :
    Circuit.Twin V (unpackDeferred one k l : Prog F _) (unpackDeferred one k l') (DeferredNums.Twin V k) := by
  rw [show 12 * 256 + (4 + 2 * k) * 128 = 128 + (128 + (128 + (128 + (256 + (256 + (256 + (256 + (256 + (256 +
    (128 * k + (256 + (128 * k + (256 + (256 + (256 + (256 + (256 + 0))))))))))))))))) by ring] at h
  unfold unpackDeferred
  refine (twin_takeScalar h).bind ?_
  rintro ⟨_, l⟩ ⟨_, l'⟩ ⟨v1, h⟩
  refine (twin_takeScalar h).bind ?_
  rintro ⟨_, l⟩ ⟨_, l'⟩ ⟨v2, h⟩
  refine (twin_takeScalar h).bind ?_
  rintro ⟨_, l⟩ ⟨_, l'⟩ ⟨v3, h⟩
  refine (twin_takeScalar h).bind ?_
  rintro ⟨_, l⟩ ⟨_, l'⟩ ⟨v4, h⟩
  refine (twin_takeScalar h).bind ?_
  rintro ⟨_, l⟩ ⟨_, l'⟩ ⟨v5, h⟩
  refine (twin_takeScalar h).bind ?_
  rintro ⟨_, l⟩ ⟨_, l'⟩ ⟨v6, h⟩
  refine (twin_takeScalar h).bind ?_
  rintro ⟨_, l⟩ ⟨_, l'⟩ ⟨v7, h⟩
  refine (twin_takeScalar h).bind ?_
  rintro ⟨_, l⟩ ⟨_, l'⟩ ⟨v8, h⟩
  refine (twin_takeScalar h).bind ?_
  rintro ⟨_, l⟩ ⟨_, l'⟩ ⟨v9, h⟩
  refine (twin_takeScalar h).bind ?_
  rintro ⟨_, l⟩ ⟨_, l'⟩ ⟨v10, h⟩
  refine (twin_takeChallenges h1 k h).bind ?_
  rintro ⟨_, l⟩ ⟨_, l'⟩ ⟨v11, h⟩
  refine (twin_takeScalar h).bind ?_
  rintro ⟨_, l⟩ ⟨_, l'⟩ ⟨v12, h⟩
  refine (twin_takeChallenges h1 k h).bind ?_
  rintro ⟨_, l⟩ ⟨_, l'⟩ ⟨v13, h⟩
  refine (twin_takeScalar h).bind ?_
  rintro ⟨_, l⟩ ⟨_, l'⟩ ⟨v14, h⟩
  refine (twin_takeScalar h).bind ?_
  rintro ⟨_, l⟩ ⟨_, l'⟩ ⟨v15, h⟩
  refine (twin_takeScalar h).bind ?_
  rintro ⟨_, l⟩ ⟨_, l'⟩ ⟨v16, h⟩
  refine (twin_takeScalar h).bind ?_
  rintro ⟨_, l⟩ ⟨_, l'⟩ ⟨v17, h⟩
  refine (twin_takeScalar h).bind ?_
  rintro ⟨_, l⟩ ⟨_, l'⟩ ⟨v18, h⟩
  refine twin_guard (by simpa using h.2) ?_
  exact Twin.ret ⟨v1, v2, v3, v4, v5, v6, v7, v8, v9, v10, v11, v12, v13, v14, v15, v16, v17, v18⟩

theorem twin_squareTimes (n : ℕ) {x x' : AllocatedNum F} (hx : AllocatedNum.Twin V x x') :
    Circuit.Twin V (squareTimes n x) (squareTimes n x') (AllocatedNum.Twin V) :=
  twin_foldProg (A := fun _ _ => True) (forall₂_refl fun _ _ => trivial) (fun _ _ _ _ _ h => twin_mul h h) hx

theorem twin_computeThing (h1 : V one) {x x' : AllocatedNum F} (hx : AllocatedNum.Twin V x x') (k : ℕ) :
    Circuit.Twin V (computeThing one x k) (computeThing one x' k) (Combination.Twin V) := by
  unfold computeThing
  refine Twin.bind (R := fun s s' => Combination.Twin V s.1 s'.1 ∧ AllocatedNum.Twin V s.2 s'.2)
    (twin_foldProg (A := fun _ _ => True) (forall₂_refl fun _ _ => trivial) ?_ ⟨.ofAllocated hx, hx⟩)
    fun s s' hs => Twin.ret hs.1
  intro _ _ s s' _ hs
  refine (twin_combMul h1 hs.1 (.ofAllocated hs.2)).bind fun t t' ht => ?_
  exact (twin_mul hs.2 hs.2).bind fun c c' hc => Twin.ret ⟨hs.1.addAllocated ht, hc⟩

theorem twin_deferredSides (h1 : V one) {k : ℕ} (hk : 2 ≤ k) {d d' : DeferredNums F}
    (h : DeferredNums.Twin V k d d') :
    Circuit.Twin V (deferredSides one k d) (deferredSides one k d') fun s s' => Combination.Twin V s.1 s'.1 ∧
      Combination.Twin V s.2.1 s'.2.1 ∧ AllocatedNum.Twin V s.2.2 s'.2.2 := by
  unfold deferredSides
  refine (twin_invert h1 h.x).bind fun xinv _ hxinv => ?_
  refine (twin_invert h1 h.yCur).bind fun yinv _ hyinv => ?_
  refine (twin_mul hxinv hyinv).bind fun _ _ hxyinv => ?_
  refine (twin_mul h.x h.yCur).bind fun _ _ hxy => ?_
  refine (twin_mul h.x hyinv).bind fun _ _ hxInvy => ?_
  refine twin_guard (by omega) ?_
  refine (twin_squareTimes _ hxinv).bind fun _ _ hxinvn => ?_
  refine (twin_squareTimes _ hxinvn).bind fun _ _ hxinvd => ?_
  refine (twin_squareTimes _ h.yCur).bind fun _ _ hyn => ?_
  refine (twin_squareTimes _ h.x).bind fun _ _ hxn => ?_
  refine (twin_squareTimes _ hxyinv).bind fun _ _ hxyinvn31 => ?_
  refine (twin_mul hxyinvn31 hxyinvn31).bind fun _ _ htmp => ?_
  refine (twin_mul hxyinvn31 htmp).bind fun _ _ hxyinvn31 => ?_
  refine (twin_mul hxyinvn31 hxy).bind fun _ _ hxyinvn31 => ?_
  refine (twin_mul hxinvn hxinvn).bind fun _ _ hxinvn31 => ?_
  refine (twin_mul hxinvn31 hxinvn).bind fun _ _ hxinvn31 => ?_
  refine (twin_mul hxinvn31 h.x).bind fun _ _ hxinvn31 => ?_
  refine (twin_mul h.txPositiveOpening h.x).bind fun _ _ hrhs => ?_
  refine (twin_mul h.txNegativeOpening hxinvd).bind fun _ _ htmp => ?_
  refine (twin_mul h.sxCurOpening hxinvn).bind fun _ _ hlhs => ?_
  refine (twin_mul hlhs hyn).bind fun _ _ hlhs => ?_
  refine (twin_computeThing h1 hxy _).bind fun _ _ hthing => ?_
  refine (twin_computeThing h1 hxInvy _).bind fun _ _ hthing2 => ?_
  refine (twin_combMul h1 (hthing.add hthing2) (.ofAllocated hxn)).bind fun _ _ hthing => ?_
  refine (twin_mul h.rxyOpening hxyinvn31).bind fun _ _ htmp2 => ?_
  refine (twin_mul h.rxOpening hxinvn31).bind fun _ _ htmp3 => ?_
  refine (twin_combMul h1 (((Combination.Twin.ofAllocated hlhs).addAllocated htmp2).subAllocated hthing)
    (.ofAllocated htmp3)).bind fun _ _ hlhs => ?_
  refine (twin_mul h.kyOpening hyn).bind fun _ _ hky => ?_
  exact Twin.ret ⟨(Combination.Twin.ofAllocated hlhs).subAllocated hky,
    (Combination.Twin.ofAllocated hrhs).addAllocated htmp, hxy⟩

theorem twin_enforceIs (h1 : V one) {e e' : Combination F} (he : Combination.Twin V e e')
    {v v' : AllocatedNum F} (hv : AllocatedNum.Twin V v v') :
    Circuit.Twin V (enforceIs one e v) (enforceIs one e' v') fun _ _ => True :=
  twin_enforce' (by rw [he.lc, hv.var]) (LC.in_subVar (he.in h1) hv.mem) trivial

theorem twin_rootsOf (h1 : V one) {n : ℕ} {us us' : List (AllocatedNum F)} (hu : NumsN V n us us') :
    Circuit.Twin V (rootsOf one us) (rootsOf one us') fun s s' => NumsN V n s.1 s'.1 ∧ NumsN V n s.2 s'.2 := by
  unfold rootsOf
  refine (twin_mapProg hu.1 fun _ _ h => twin_sqrt h).bind fun a a' ha => ?_
  refine (twin_mapProg ha.1 fun _ _ h => twin_invert h1 h).bind fun b b' hb => ?_
  exact Twin.ret ⟨⟨ha.1, ha.2.trans hu.2⟩, hb.1, (hb.2.trans ha.2).trans hu.2⟩

theorem twin_verifyDeferred (h1 : V one) {k : ℕ} (hk : 2 ≤ k) {l l' : List AllocatedBit}
    (h : BitsN V (12 * 256 + (4 + 2 * k) * 128) l l') :
    Circuit.Twin V (verifyDeferred one k l : Prog F _) (verifyDeferred one k l') fun _ _ => True := by
  have h0 : 1 ≤ k := by omega
  unfold verifyDeferred
  refine (twin_unpackDeferred h1 h).bind fun d d' hd => ?_
  refine (twin_deferredSides h1 hk hd).bind ?_
  rintro ⟨lhs, rhs, xy⟩ ⟨lhs', rhs', xy'⟩ ⟨hl, hr, hxy⟩
  refine twin_enforce (by rw [hl.lc, hr.lc]) (LC.in_subLC (hl.in h1) (hr.in h1)) ?_
  refine (twin_rootsOf h1 hd.challengesSqOld).bind ?_
  rintro ⟨u, v⟩ ⟨u', v'⟩ ⟨hu, hv⟩
  refine (twin_computeB h1 hd.x h0 hu hv).bind fun _ _ e1 => ?_
  refine (twin_enforceIs h1 e1 hd.gxOldOpening).bind fun _ _ _ => ?_
  refine (twin_rootsOf h1 hd.challengesSqNew).bind ?_
  rintro ⟨u, v⟩ ⟨u', v'⟩ ⟨hu, hv⟩
  refine (twin_computeB h1 hd.x h0 hu hv).bind fun _ _ e1 => ?_
  refine (twin_computeB h1 hxy h0 hu hv).bind fun _ _ e2 => ?_
  refine (twin_computeB h1 hd.yOld h0 hu hv).bind fun _ _ e3 => ?_
  refine (twin_computeB h1 hd.yCur h0 hu hv).bind fun _ _ e4 => ?_
  refine (twin_computeB h1 hd.yNew h0 hu hv).bind fun _ _ e5 => ?_
  refine (twin_enforceIs h1 e1 hd.bX).bind fun _ _ _ => ?_
  refine (twin_enforceIs h1 e2 hd.bXy).bind fun _ _ _ => ?_
  refine (twin_enforceIs h1 e3 hd.bYOld).bind fun _ _ _ => ?_
  refine (twin_enforceIs h1 e4 hd.bYCur).bind fun _ _ _ => ?_
  exact twin_enforceIs h1 e5 hd.bYNew

end
end Recursion
end Halo
