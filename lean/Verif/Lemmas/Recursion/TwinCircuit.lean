import Verif.Lemmas.Recursion.TwinGadgets
import Verif.Lemmas.Recursion.Dummy
import Verif.Lemmas.Recursion.Layout
import Verif.Spec.RecursionShape
import Verif.Spec.CheatCircuit
/-!
# The verification circuit asks for the same constraints, whatever values it knows
-/
set_option linter.unusedSectionVars false
namespace Halo
namespace Recursion
open Circuit Proofs
open Circuit.CurvePoint (Bits)
open Circuit.Sha256 (foldProg index)
open Circuit.RescueGadget (forall₂_refl)
variable {F S : Type} [Field F] [DecidableEq F] [LawfulField F] [Field S] [DecidableEq S] [LawfulField S]
  {E1 E2 : CurveConsts} {V : Var → Prop} {one : Var}

attribute [local irreducible] Circuit.Twin

theorem twin_commitWitness (h1 : V one) {t t' : RescueGadget F} (ht : RescueGadget.Twin V t t') {p p' : Proj F}
    (hp : OnCurve E2 p') :
    Circuit.Twin V (commitWitness E2 one t p) (commitWitness E2 one t' p') fun s s' =>
      CurvePoint.Twin V E2 s.1 s'.1 ∧ RescueGadget.Twin V s.2 s'.2 := by
  unfold commitWitness
  refine (CurvePoint.twin_witness h1 (by rintro _ ⟨⟩; exact hp)).bind fun P P' hP => ?_
  exact (twin_commitPoint h1 ht hP.1.like).bind fun t t' ht => Twin.ret ⟨hP.1, ht⟩

theorem twin_commitMultiple (g : GoodCurve F E2) (h1 : V one) {P P' : CurvePoint F}
    (hP : CurvePoint.Twin V E2 P P') {bs bs' : List AllocatedBit} {n : ℕ} (hb : BitsN V n bs bs')
    {t t' : RescueGadget F} (ht : RescueGadget.Twin V t t') :
    Circuit.Twin V (commitMultiple E2 one P bs t) (commitMultiple E2 one P' bs' t') fun s s' =>
      CurvePoint.Twin V E2 s.1 s'.1 ∧ RescueGadget.Twin V s.2 s'.2 := by
  unfold commitMultiple
  refine (CurvePoint.twin_multiply' g h1 hP hb.1).bind fun P P' hP => ?_
  exact (twin_commitPoint h1 ht hP.like).bind fun t t' ht => Twin.ret ⟨hP, ht⟩

theorem onCurve_zero : OnCurve E2 (Proj.zero : Proj F) := ⟨0, denotes_proj_zero⟩

section
variable (h : HaloCurve E2 F S)
include h

theorem onCurve_multiple (s : S) : OnCurve E2 (Proj.mul E2 (Proj.one E2 : Proj F) s) :=
  ⟨_, denotes_mul (HaloCurve.good E2 F S) (h.is.denotes_one rfl) s⟩

theorem twin_generator : Circuit.Twin V (generator E2 : Prog F _) (generator E2) (CurvePoint.Twin V E2) := by
  have hd := h.is.denotes_one (F := F) rfl
  have e : ∃ x y, (Proj.one E2 : Proj F).getXy = some (x, y) ∧ coordinates (h.is.gen (F := F) rfl) = (x, y) := by
    rw [getXy_spec hd]
    exact ⟨_, _, rfl, rfl⟩
  obtain ⟨x, y, e1, e2⟩ := e
  unfold generator
  rw [e1]
  exact Twin.ret (CurvePoint.twin_const e2)

end

theorem twin_pointIs (h1 : V one) {b b' : AllocatedBit} (hb : AllocatedBit.Twin V b b') {P P' : CurvePoint F}
    (hP : CurvePoint.Like V P P') {bs bs' : List AllocatedBit} {n i : ℕ} (hbs : BitsN V n bs bs')
    (hn : i + 512 ≤ n) : Circuit.Twin V (pointIs one b P bs i) (pointIs one b' P' bs' i) fun _ _ => True := by
  unfold pointIs
  refine (twin_unpackFe h1 hP.x).bind fun x x' hx => ?_
  refine (twin_unpackFe h1 hP.y).bind fun y y' hy => ?_
  refine (twin_sliceN hbs (n := 256) (by omega) (by omega) (by omega)).bind fun s s' hs => ?_
  refine (twin_equalUnless h1 hb ⟨hx.1, hx.2.1⟩ hs).bind fun _ _ _ => ?_
  refine (twin_sliceN hbs (n := 256) (by omega) (by omega) (by omega)).bind fun s s' hs => ?_
  exact twin_equalUnless h1 hb ⟨hy.1, hy.2.1⟩ hs

theorem twin_mulAdd (g : GoodCurve F E2) (h1 : V one) {z z' : List AllocatedBit} (hz : BitsN V 128 z z')
    {P P' Q Q' : CurvePoint F} (hP : CurvePoint.Twin V E2 P P') (hQ : CurvePoint.Twin V E2 Q Q') :
    Circuit.Twin V (mulAdd E2 one z P Q) (mulAdd E2 one z' P' Q') (CurvePoint.Twin V E2) := by
  unfold mulAdd
  refine (CurvePoint.twin_multiplyEndo h1 hP.like hz.1 hz.2).bind fun P P' hP => ?_
  exact CurvePoint.twin_add g h1 ⟨hP.1, CurvePoint.good_of_none hP.2⟩ hQ

/-- Points whose flags are not known -/
def FreshTwin (V : Var → Prop) (E : CurveConsts) (P P' : CurvePoint F) : Prop :=
  CurvePoint.Twin V E P P' ∧ P'.isIdentity.getValue = none

/-- The same for the entries of a round -/
def EntryTwin (V : Var → Prop) (E : CurveConsts)
    (e e' : CurvePoint F × CurvePoint F × CurvePoint F × CurvePoint F) : Prop :=
  FreshTwin V E e.1 e'.1 ∧ FreshTwin V E e.2.1 e'.2.1 ∧ FreshTwin V E e.2.2.1 e'.2.2.1 ∧
    FreshTwin V E e.2.2.2 e'.2.2.2

section circuit
variable [h : HaloCurve E2 F S] {self self' : VerificationCircuit F S}
include h

/-- The entry is there. -/
theorem roundEntry_some {proof : Option (RecursiveProof F S)} {k n : ℕ}
    (hp : ∀ p ∈ proof, p.WellShaped E2 k n) {i j : ℕ} (hi : i < k) (hj : j < 5) :
    ∃ L R l r, roundEntry E2 proof i j = (Pure.pure (L, R, l, r) : Prog F _) ∧ OnCurve E2 L ∧ OnCurve E2 R ∧
      OnCurve E2 l ∧ OnCurve E2 r := by
  cases proof with
  | none => exact ⟨_, _, _, _, rfl, onCurve_zero, onCurve_zero, onCurve_zero, onCurve_zero⟩
  | some p =>
    have hp := hp p rfl
    have hi' : i < p.proof.innerProduct.rounds.length := by have := hp.rounds; omega
    have hm := List.getElem_mem hi'
    obtain ⟨s1, s2, s3, s4⟩ := hp.sizes _ hm
    obtain ⟨p1, p2⟩ := hp.points _ hm
    refine ⟨(p.proof.innerProduct.rounds[i]).L[j], (p.proof.innerProduct.rounds[i]).R[j],
      Proj.mul E2 (Proj.one E2) (p.proof.innerProduct.rounds[i]).l[j],
      Proj.mul E2 (Proj.one E2) (p.proof.innerProduct.rounds[i]).r[j], ?_, p1 _ (List.getElem_mem _),
      p2 _ (List.getElem_mem _), onCurve_multiple h _, onCurve_multiple h _⟩
    simp only [roundEntry, index, List.getElem?_eq_getElem hi', orPanic, bind, Prog.bind, pure]
    rw [List.getElem?_eq_getElem (show j < _ by omega), List.getElem?_eq_getElem (show j < _ by omega),
      List.getElem?_eq_getElem (show j < _ by omega), List.getElem?_eq_getElem (show j < _ by omega)]
    rfl

omit h in
theorem pure_bind_prog {α β : Type} (a : α) (f : α → Prog F β) : ((Pure.pure a : Prog F α) >>= f) = f a := rfl

/-- The two circuits are given data of the same shape. -/
structure SameShape (E2 : CurveConsts) (c c' : VerificationCircuit F S) : Prop where
  params : c'.params = c.params
  inner : c.inner.Uniform c'.inner (bytesBits c'.newPayload)
  left : c.WellShaped E2
  right : c'.WellShaped E2

theorem twin_witnessEntry (h1 : V one) {proof proof' : Option (RecursiveProof F S)} {k n : ℕ}
    (hp : ∀ p ∈ proof, p.WellShaped E2 k n) (hp' : ∀ p ∈ proof', p.WellShaped E2 k n) {i j : ℕ} (hi : i < k)
    (hj : j < 5) {s s' : List (CurvePoint F × CurvePoint F × CurvePoint F × CurvePoint F) × RescueGadget F}
    (hs : List.Forall₂ (EntryTwin V E2) s.1 s'.1) (ht : RescueGadget.Twin V s.2 s'.2) :
    Circuit.Twin V (witnessEntry E2 one proof i s j) (witnessEntry E2 one proof' i s' j) fun r r' =>
      List.Forall₂ (EntryTwin V E2) r.1 r'.1 ∧ RescueGadget.Twin V r.2 r'.2 ∧ r'.1.length = s'.1.length + 1 := by
  obtain ⟨L, R, l, r, e, -⟩ := roundEntry_some hp hi hj
  obtain ⟨L', R', l', r', e', c1, c2, c3, c4⟩ := roundEntry_some hp' hi hj
  unfold witnessEntry
  rw [e, e', pure_bind_prog, pure_bind_prog]
  refine (CurvePoint.twin_witness h1 (by rintro _ ⟨⟩; exact c1)).bind fun _ _ h2 => ?_
  refine (CurvePoint.twin_witness h1 (by rintro _ ⟨⟩; exact c2)).bind fun _ _ h3 => ?_
  refine (CurvePoint.twin_witness h1 (by rintro _ ⟨⟩; exact c3)).bind fun _ _ h4 => ?_
  refine (CurvePoint.twin_witness h1 (by rintro _ ⟨⟩; exact c4)).bind fun _ _ h5 => ?_
  refine (twin_commitPoint h1 ht h2.1.like).bind fun _ _ ht => ?_
  refine (twin_commitPoint h1 ht h3.1.like).bind fun _ _ ht => ?_
  refine (twin_commitPoint h1 ht h4.1.like).bind fun _ _ ht => ?_
  refine (twin_commitPoint h1 ht h5.1.like).bind fun _ _ ht => ?_
  exact Twin.ret ⟨List.rel_append hs (.cons ⟨h2, h3, h4, h5⟩ .nil), ht, by simp⟩

/-- Pairs of points -/
def PairTwin (V : Var → Prop) (E : CurveConsts) (p p' : CurvePoint F × CurvePoint F) : Prop :=
  CurvePoint.Twin V E p.1 p'.1 ∧ CurvePoint.Twin V E p.2 p'.2

theorem twin_foldEntry (h1 : V one) {c c' : List AllocatedBit} (hc : BitsN V 128 c c')
    {p p' : CurvePoint F × CurvePoint F} (hp : PairTwin V E2 p p')
    {e e' : CurvePoint F × CurvePoint F × CurvePoint F × CurvePoint F} (he : EntryTwin V E2 e e') :
    Circuit.Twin V (foldEntry E2 S one c p e) (foldEntry E2 S one c' p' e') (PairTwin V E2) := by
  have g := HaloCurve.good E2 F S
  obtain ⟨P, v⟩ := p
  obtain ⟨P', v'⟩ := p'
  obtain ⟨h2, h3, h4, h5⟩ := he
  unfold foldEntry
  refine (CurvePoint.twin_multiplyEndo h1 h2.1.like hc.1 hc.2).bind fun L L' hL => ?_
  refine (CurvePoint.twin_multiplyInvEndo (S := S) h1 h3.1.like h3.2 hc.1 hc.2).bind fun R R' hR => ?_
  refine (CurvePoint.twin_multiplyEndo h1 h4.1.like hc.1 hc.2).bind fun l l' hl => ?_
  refine (CurvePoint.twin_multiplyInvEndo (S := S) h1 h5.1.like h5.2 hc.1 hc.2).bind fun r r' hr => ?_
  refine (CurvePoint.twin_add g h1 hp.1 ⟨hL.1, CurvePoint.good_of_none hL.2⟩).bind fun P P' hP => ?_
  refine (CurvePoint.twin_add g h1 hP hR).bind fun P P' hP => ?_
  refine (CurvePoint.twin_add g h1 hp.2 ⟨hl.1, CurvePoint.good_of_none hl.2⟩).bind fun v v' hv => ?_
  refine (CurvePoint.twin_add g h1 hv hr).bind fun v v' hv => ?_
  exact Twin.ret ⟨hP, hv⟩

/-- The state of the loop -/
structure RoundTwin (V : Var → Prop) (E : CurveConsts) (n : ℕ) (s s' : RoundState F) : Prop where
  transcript : RescueGadget.Twin V s.transcript s'.transcript
  pv : List.Forall₂ (PairTwin V E) s.pv s'.pv
  five : s'.pv.length = 5
  challenges : List.Forall₂ (BitsN V 128) s.challenges s'.challenges
  count : s'.challenges.length = n

omit h in
theorem forkValue_some {fs : Option (List ℕ)} {k : ℕ} (hf : ∀ l ∈ fs, k ≤ l.length) {i : ℕ} (hi : i < k) :
    ∃ v, (forkValue fs i : Prog F _) = Pure.pure v := by
  cases fs with
  | none => exact ⟨_, rfl⟩
  | some l =>
    have := hf l rfl
    rw [forkValue, index, List.getElem?_eq_getElem (by omega)]
    exact ⟨_, rfl⟩

omit h in
/-- This way of folding asks for the same constraints as the code. -/
def FoldTwin (V : Var → Prop) (E2 : CurveConsts) (S : Type) [Field S] [DecidableEq S] [LawfulField S] (k : ℕ)
    (fold : Fold F) : Prop :=
  ∀ one, V one → ∀ i < k, ∀ c c', BitsN V 128 c c' → ∀ l l',
    List.Forall₂ (fun e e' => PairTwin V E2 e.1 e'.1 ∧ EntryTwin V E2 e.2 e'.2) l l' →
    Circuit.Twin V (fold one i c l) (realFold E2 S one i c' l') fun pv pv' =>
      List.Forall₂ (PairTwin V E2) pv pv' ∧ pv'.length = l'.length

theorem foldTwin_realFold {k : ℕ} : FoldTwin (F := F) V E2 S k (realFold E2 S) :=
  fun _ h1 _ _ _ _ hc _ _ hl => twin_mapProg hl fun _ _ he => twin_foldEntry h1 hc he.1 he.2

theorem twin_foldEntryTo (claims : Claims F) (h1 : V one) {c c' : List AllocatedBit} (hc : BitsN V 128 c c')
    {p p' : CurvePoint F × CurvePoint F} (hp : PairTwin V E2 p p')
    {e e' : CurvePoint F × CurvePoint F × CurvePoint F × CurvePoint F} (he : EntryTwin V E2 e e') :
    Circuit.Twin V (foldEntryTo E2 S claims one c p e) (foldEntry E2 S one c' p' e') (PairTwin V E2) := by
  have g := HaloCurve.good E2 F S
  obtain ⟨P, v⟩ := p
  obtain ⟨P', v'⟩ := p'
  obtain ⟨h2, h3, h4, h5⟩ := he
  unfold foldEntry foldEntryTo
  refine (CurvePoint.twin_multiplyEndo h1 h2.1.like hc.1 hc.2).bind fun L L' hL => ?_
  refine (CurvePoint.twin_multiplyInvEndo (S := S) h1 h3.1.like h3.2 hc.1 hc.2).bind fun R R' hR => ?_
  refine (CurvePoint.twin_multiplyEndo h1 h4.1.like hc.1 hc.2).bind fun l l' hl => ?_
  refine (CurvePoint.twin_multiplyInvEndo (S := S) h1 h5.1.like h5.2 hc.1 hc.2).bind fun r r' hr => ?_
  refine (CurvePoint.twin_addTo g h1 hp.1 ⟨hL.1, CurvePoint.good_of_none hL.2⟩ _).bind fun P P' hP => ?_
  refine (CurvePoint.twin_addTo g h1 hP hR _).bind fun P P' hP => ?_
  refine (CurvePoint.twin_addTo g h1 hp.2 ⟨hl.1, CurvePoint.good_of_none hl.2⟩ _).bind fun v v' hv => ?_
  refine (CurvePoint.twin_addTo g h1 hv hr _).bind fun v v' hv => ?_
  exact Twin.ret ⟨hP, hv⟩

omit h in
theorem forall₂_zipIdx_left {α β : Type} {A : α → β → Prop} {l : List α} {l' : List β} {n : ℕ}
    (h : List.Forall₂ A l l') : List.Forall₂ (fun e e' => A e.1 e') (l.zipIdx n) l' := by
  induction h generalizing n with
  | nil => exact .nil
  | cons h _ ih => exact .cons h ih

theorem foldTwin_cheatFold {k m : ℕ} {claims : ℕ → Claims F} :
    FoldTwin (F := F) V E2 S k (cheatFold E2 S m claims) := by
  intro one h1 i hi c c' hc l l' hl
  unfold cheatFold
  split
  · exact twin_mapProg (forall₂_zipIdx_left hl) fun _ _ he => twin_foldEntryTo _ h1 hc he.1 he.2
  · exact foldTwin_realFold one h1 i hi c c' hc l l' hl

theorem twin_verifyRound {fold : Fold F} (hfold : FoldTwin V E2 S self.params.k fold) (h1 : V one)
    (hs : SameShape E2 self self') {i n : ℕ} (hi : i < self.params.k)
    {s s' : RoundState F} (h : RoundTwin V E2 n s s') :
    Circuit.Twin V (verifyRoundWith E2 fold one self s i) (verifyRound E2 one self' s' i)
      (RoundTwin V E2 (n + 1)) := by
  unfold verifyRound verifyRoundWith
  have hp := hs.left.proof
  have hp' := hs.right.proof
  rw [hs.params, hs.inner.base] at hp'
  have hl : s.pv.length = 5 := by rw [h.pv.length_eq, h.five]
  rw [hl, h.five]
  let I : ℕ → List (CurvePoint F × CurvePoint F × CurvePoint F × CurvePoint F) × RescueGadget F →
      List (CurvePoint F × CurvePoint F × CurvePoint F × CurvePoint F) × RescueGadget F → Prop :=
    fun m r r' => List.Forall₂ (EntryTwin V E2) r.1 r'.1 ∧ RescueGadget.Twin V r.2 r'.2 ∧ r'.1.length = m
  refine Twin.bind (R := I (0 + (List.range 5).length)) (twin_foldProg_index (A := fun i j => i = j ∧ i < 5)
    (forall₂_refl fun i hi => ⟨rfl, by simpa using hi⟩) ?_ ⟨.nil, h.transcript, rfl⟩) ?_
  · rintro m j _ t t' ⟨rfl, hj⟩ ⟨h2, h3, h4⟩
    refine Twin.mono ?_ (twin_witnessEntry h1 hp hp' hi hj h2 h3)
    exact fun _ _ h => ⟨h.1, h.2.1, by rw [h.2.2, h4]⟩
  · rintro ⟨tmp, t⟩ ⟨tmp', t'⟩ ⟨h2, ht, h4⟩
    obtain ⟨v, e⟩ := forkValue_some (F := F) hs.left.forkvalues hi
    obtain ⟨v', e'⟩ := forkValue_some (F := F) hs.right.forkvalues (by rwa [hs.params] : i < _)
    simp only [e, e', pure_bind_prog]
    refine twin_numAlloc fun x hx => ?_
    refine (RescueGadget.twin_absorb h1 (.ofAllocated ⟨_, _, _, hx⟩) ht).bind fun t t' ht => ?_
    refine (twin_getChallenge h1 ht).bind ?_
    rintro ⟨c, t⟩ ⟨c', t'⟩ ⟨hc, ht⟩
    refine Twin.bind (hfold one h1 i hi c c' hc _ _ (forall₂_zip h.pv h2)) fun pv pv' hpv => ?_
    exact Twin.ret ⟨ht, hpv.1, by rw [hpv.2, List.length_zip, h.five, h4]; rfl,
      List.rel_append h.challenges (.cons hc .nil), by rw [List.length_append, h.count]; rfl⟩

omit [DecidableEq S] [LawfulField S] h in
theorem twin_samePoint (h1 : V one) {b b' : AllocatedBit} (hb : AllocatedBit.Twin V b b')
    {P P' Q Q' : CurvePoint F} (hP : CurvePoint.Like V P P') (hQ : CurvePoint.Like V Q Q') :
    Circuit.Twin V (samePoint one b P Q) (samePoint one b' P' Q') fun _ _ => True := by
  unfold samePoint
  exact (twin_numEqual h1 hb (.ofNum hP.x) (.ofNum hQ.x)).bind fun _ _ _ =>
    twin_numEqual h1 hb (.ofNum hP.y) (.ofNum hQ.y)

theorem finalScalar_some {proof : Option (RecursiveProof F S)} {k n : ℕ}
    (hp : ∀ p ∈ proof, p.WellShaped E2 k n) {j : ℕ} (hj : j < 5) :
    ∃ v, (finalScalar proof j : Prog F _) = Pure.pure v := by
  cases proof with
  | none => exact ⟨_, rfl⟩
  | some p =>
    have := (hp p rfl).a
    rw [finalScalar, index, List.getElem?_eq_getElem (by omega)]
    exact ⟨_, rfl⟩

theorem twin_checkEntry (h1 : V one) (hs : SameShape E2 self self') {b b' : AllocatedBit}
    (hb : AllocatedBit.Twin V b b') {G G' g g' : CurvePoint F} (hG : CurvePoint.Twin V E2 G G')
    (hg : CurvePoint.Twin V E2 g g') {p p' : CurvePoint F × CurvePoint F} (hp : PairTwin V E2 p p')
    {l l' : List AllocatedBit} {n j : ℕ} (hl : BitsN V n l l') (hj : j < 5) :
    Circuit.Twin V (checkEntry E2 one self b G g ((p, l), j)) (checkEntry E2 one self' b' G' g' ((p', l'), j))
      fun _ _ => True := by
  have gc := HaloCurve.good E2 F S
  unfold checkEntry
  obtain ⟨v, e⟩ := finalScalar_some hs.left.proof hj
  obtain ⟨v', e'⟩ := finalScalar_some hs.right.proof hj
  rw [e, e', pure_bind_prog, pure_bind_prog]
  refine twin_witnessBits.bind fun a a' ha => ?_
  refine (CurvePoint.twin_multiply' gc h1 hG ha.1).bind fun _ _ h2 => ?_
  refine (twin_samePoint h1 hb hp.1.like h2.like).bind fun _ _ _ => ?_
  refine (CurvePoint.twin_multiply' gc h1 hg ha.1).bind fun _ _ h3 => ?_
  refine (CurvePoint.twin_multiply' gc h1 h3 hl.1).bind fun _ _ h4 => ?_
  exact twin_samePoint h1 hb hp.2.like h4.like

omit [Field F] [DecidableEq F] [LawfulField F] [Field S] [DecidableEq S] [LawfulField S] h in
theorem forall₂_zipIdx {α β : Type} {A : α → β → Prop} {l : List α} {l' : List β} (h : List.Forall₂ A l l') :
    List.Forall₂ (fun p p' => A p.1 p'.1 ∧ p.2 = p'.2 ∧ p'.2 < l'.length) l.zipIdx l'.zipIdx := by
  have : ∀ i, List.Forall₂ (fun p p' => A p.1 p'.1 ∧ p.2 = p'.2 ∧ p'.2 < i + l'.length) (l.zipIdx i)
      (l'.zipIdx i) := by
    induction h with
    | nil => intro i; simp
    | @cons a b l l' h _ ih =>
      intro i
      rw [List.zipIdx_cons, List.zipIdx_cons]
      refine .cons ⟨h, rfl, ?_⟩ ((ih (i + 1)).imp fun _ _ h => ⟨h.1, h.2.1, ?_⟩)
      · rw [List.length_cons]; show i < _; omega
      · rw [List.length_cons]; have := h.2.2; omega
  simpa using this 0

/-- A commitment, an opening and the bits -/
def InstanceTwin (V : Var → Prop) (E : CurveConsts)
    (e e' : (CurvePoint F × CurvePoint F) × List AllocatedBit) : Prop :=
  PairTwin V E e.1 e'.1 ∧ BitsN V 256 e.2 e'.2

theorem twin_verifyInnerProduct {fold : Fold F} (hfold : FoldTwin V E2 S self.params.k fold) (h1 : V one)
    (hs : SameShape E2 self self') {b b' : AllocatedBit}
    (hb : AllocatedBit.Twin V b b') {t t' : RescueGadget F} (ht : RescueGadget.Twin V t t')
    {is is' : List ((CurvePoint F × CurvePoint F) × List AllocatedBit)}
    (hi : List.Forall₂ (InstanceTwin V E2) is is') (hl : is'.length = 5) :
    Circuit.Twin V (verifyInnerProductWith E2 fold one self b t is) (verifyInnerProduct E2 one self' b' t' is')
      fun r r' => CurvePoint.Twin V E2 r.1 r'.1 ∧ List.Forall₂ (BitsN V 128) r.2 r'.2 ∧
        r'.2.length = self.params.k := by
  unfold verifyInnerProduct verifyInnerProductWith
  rw [hs.params]
  refine Twin.bind (R := RoundTwin V E2 (0 + (List.range self.params.k).length))
    (twin_foldProg_index (A := fun i j => i = j ∧ i < self.params.k)
      (forall₂_refl fun i hi => ⟨rfl, by simpa using hi⟩) ?_ ?_) ?_
  · rintro n i _ s s' ⟨rfl, hi⟩ h
    exact twin_verifyRound hfold h1 hs hi h
  · refine ⟨ht, ?_, by simpa using hl, .nil, rfl⟩
    simp only [List.forall₂_map_left_iff, List.forall₂_map_right_iff]
    exact hi.imp fun _ _ h => h.1
  · intro s s' h
    refine (CurvePoint.twin_witness h1 ?_).bind fun G G' hG => ?_
    · rintro _ ⟨⟩
      split
      · exact (hs.right.proof _ (by assumption)).g
      · exact onCurve_zero
    refine (twin_generator ‹HaloCurve E2 F S›).bind fun g g' hg => ?_
    refine Twin.bind (R := fun _ _ => True) (twin_foldProg (R := fun _ _ => True)
      (forall₂_zipIdx (forall₂_zip h.pv (B := BitsN V 256) (m := is.map (·.2)) (m' := is'.map (·.2)) (by
        simp only [List.forall₂_map_left_iff, List.forall₂_map_right_iff]
        exact hi.imp fun _ _ h => h.2))) ?_ trivial) fun _ _ _ =>
      Twin.ret ⟨hG.1, h.challenges, by rw [h.count, List.length_range, zero_add]⟩
    rintro ⟨⟨p, l⟩, j⟩ ⟨⟨p', l'⟩, j'⟩ _ _ ⟨⟨hp, hl'⟩, hj, hj'⟩ _
    simp only at hj hj' hp hl'
    subst hj
    exact twin_checkEntry h1 hs hb hG.1 hg hp hl' (by
      rw [List.length_zip, h.five, List.length_map, hl] at hj'; exact hj')

/-- The points and challenges -/
structure CommittedTwin (V : Var → Prop) (E : CurveConsts) (d d' : Committed F) : Prop where
  r : CurvePoint.Twin V E d.r d'.r
  sCur : CurvePoint.Twin V E d.sCur d'.sCur
  tPositive : CurvePoint.Twin V E d.tPositive d'.tPositive
  tNegative : CurvePoint.Twin V E d.tNegative d'.tNegative
  c : CurvePoint.Twin V E d.c d'.c
  sNew : CurvePoint.Twin V E d.sNew d'.sNew
  kyPt : CurvePoint.Twin V E d.kyPt d'.kyPt
  rxPt : CurvePoint.Twin V E d.rxPt d'.rxPt
  rxyPt : CurvePoint.Twin V E d.rxyPt d'.rxyPt
  sxOldPt : CurvePoint.Twin V E d.sxOldPt d'.sxOldPt
  sxCurPt : CurvePoint.Twin V E d.sxCurPt d'.sxCurPt
  txPositivePt : CurvePoint.Twin V E d.txPositivePt d'.txPositivePt
  txNegativePt : CurvePoint.Twin V E d.txNegativePt d'.txNegativePt
  sxNewPt : CurvePoint.Twin V E d.sxNewPt d'.sxNewPt
  gxOldPt : CurvePoint.Twin V E d.gxOldPt d'.gxOldPt
  yCur : BitsN V 128 d.yCur d'.yCur
  x : BitsN V 128 d.x d'.x
  yNew : BitsN V 128 d.yNew d'.yNew
  z : BitsN V 128 d.z d'.z

omit [LawfulField F] [Field S] [DecidableEq S] [LawfulField S] h in
theorem onCurve_proofPoint {f : RecursiveProof F S → Proj F} (hf : ∀ p ∈ self.proof, OnCurve E2 (f p)) :
    OnCurve E2 (proofPoint self f) := by
  unfold proofPoint
  cases hp : self.proof with
  | none => exact ⟨0, denotes_proj_zero⟩
  | some p => exact hf p hp

theorem twin_commitAll (h1 : V one) (hs : SameShape E2 self self') {kc kc' : CurvePoint F}
    (hk : CurvePoint.Twin V E2 kc kc') {n n' : List AllocatedBit} (hn : BitsN V (deferredBits self.params.k) n n') :
    Circuit.Twin V (commitAll E2 one self kc n) (commitAll E2 one self' kc' n') fun r r' =>
      CommittedTwin V E2 r.1 r'.1 ∧ RescueGadget.Twin V r.2 r'.2 := by
  have gc := HaloCurve.good E2 F S
  have hp := hs.right.proof
  have hd : deferredBits self.params.k = 3584 + 256 * self.params.k := by unfold deferredBits; omega
  unfold commitAll
  rw [hs.params]
  refine (RescueGadget.twin_new h1).bind fun _ _ ht => ?_
  refine (twin_commitPoint h1 ht hk.like).bind fun _ _ ht => ?_
  refine (twin_commitWitness h1 ht (onCurve_proofPoint fun p h => (hp p h).r)).bind ?_
  rintro ⟨_, _⟩ ⟨_, _⟩ ⟨h01, ht⟩
  refine (twin_getChallenge h1 ht).bind ?_
  rintro ⟨_, _⟩ ⟨_, _⟩ ⟨h02, ht⟩
  refine (twin_commitWitness h1 ht (onCurve_proofPoint fun p h => (hp p h).sCur)).bind ?_
  rintro ⟨_, _⟩ ⟨_, _⟩ ⟨h03, ht⟩
  refine (twin_commitWitness h1 ht (onCurve_proofPoint fun p h => (hp p h).tPositive)).bind ?_
  rintro ⟨_, _⟩ ⟨_, _⟩ ⟨h04, ht⟩
  refine (twin_commitWitness h1 ht (onCurve_proofPoint fun p h => (hp p h).tNegative)).bind ?_
  rintro ⟨_, _⟩ ⟨_, _⟩ ⟨h05, ht⟩
  refine (twin_getChallenge h1 ht).bind ?_
  rintro ⟨_, _⟩ ⟨_, _⟩ ⟨h06, ht⟩
  refine (twin_commitWitness h1 ht (onCurve_proofPoint fun p h => (hp p h).c)).bind ?_
  rintro ⟨_, _⟩ ⟨_, _⟩ ⟨h07, ht⟩
  refine (twin_getChallenge h1 ht).bind ?_
  rintro ⟨_, _⟩ ⟨_, _⟩ ⟨h08, ht⟩
  refine (twin_commitWitness h1 ht (onCurve_proofPoint fun p h => (hp p h).sNew)).bind ?_
  rintro ⟨_, _⟩ ⟨_, _⟩ ⟨h09, ht⟩
  refine (twin_generator ‹HaloCurve E2 F S›).bind fun _ _ hg => ?_
  refine (twin_sliceN hn (n := 256) (by omega) (by omega) (by omega)).bind fun _ _ hb => ?_
  refine (twin_commitMultiple gc h1 hg hb ht).bind ?_
  rintro ⟨_, _⟩ ⟨_, _⟩ ⟨h10, ht⟩
  refine (twin_sliceN hn (n := 256) (by omega) (by omega) (by omega)).bind fun _ _ hb => ?_
  refine (twin_commitMultiple gc h1 hg hb ht).bind ?_
  rintro ⟨_, _⟩ ⟨_, _⟩ ⟨h11, ht⟩
  refine (twin_sliceN hn (n := 256) (by omega) (by omega) (by omega)).bind fun _ _ hb => ?_
  refine (twin_commitMultiple gc h1 hg hb ht).bind ?_
  rintro ⟨_, _⟩ ⟨_, _⟩ ⟨h12, ht⟩
  refine (twin_commitWitness h1 ht (onCurve_proofPoint fun p _ => onCurve_multiple ‹HaloCurve E2 F S› _)).bind ?_
  rintro ⟨_, _⟩ ⟨_, _⟩ ⟨h13, ht⟩
  refine (twin_sliceN hn (n := 256) (by omega) (by omega) (by omega)).bind fun _ _ hb => ?_
  refine (twin_commitMultiple gc h1 hg hb ht).bind ?_
  rintro ⟨_, _⟩ ⟨_, _⟩ ⟨h14, ht⟩
  refine (twin_sliceN hn (n := 256) (by omega) (by omega) (by omega)).bind fun _ _ hb => ?_
  refine (twin_commitMultiple gc h1 hg hb ht).bind ?_
  rintro ⟨_, _⟩ ⟨_, _⟩ ⟨h15, ht⟩
  refine (twin_sliceN hn (n := 256) (by omega) (by omega) (by omega)).bind fun _ _ hb => ?_
  refine (twin_commitMultiple gc h1 hg hb ht).bind ?_
  rintro ⟨_, _⟩ ⟨_, _⟩ ⟨h16, ht⟩
  refine (twin_commitWitness h1 ht (onCurve_proofPoint fun p _ => onCurve_multiple ‹HaloCurve E2 F S› _)).bind ?_
  rintro ⟨_, _⟩ ⟨_, _⟩ ⟨h17, ht⟩
  refine (twin_sliceN hn (n := 256) (by omega) (by omega) (by omega)).bind fun _ _ hb => ?_
  refine (twin_commitMultiple gc h1 hg hb ht).bind ?_
  rintro ⟨_, _⟩ ⟨_, _⟩ ⟨h18, ht⟩
  refine (twin_getChallenge h1 ht).bind ?_
  rintro ⟨_, _⟩ ⟨_, _⟩ ⟨h19, ht⟩
  exact Twin.ret ⟨⟨h01, h03, h04, h05, h07, h09, h10, h11, h12, h13, h14, h15, h16, h17, h18, h02, h06, h08, h19⟩, ht⟩

omit [DecidableEq S] [Field S] [LawfulField S] h in
theorem twin_combineAll (gc : GoodCurve F E2) (h1 : V one) {k : ℕ} {kc kc' sOld sOld' gOld gOld' : CurvePoint F}
    (hk : CurvePoint.Twin V E2 kc kc') (hS : CurvePoint.Twin V E2 sOld sOld')
    (hG : CurvePoint.Twin V E2 gOld gOld') {d d' : Committed F} (hd : CommittedTwin V E2 d d')
    {n n' : List AllocatedBit} (hn : BitsN V (deferredBits k) n n') :
    Circuit.Twin V (combineAll E2 one k kc sOld gOld d n) (combineAll E2 one k kc' sOld' gOld' d' n')
      fun r r' => List.Forall₂ (InstanceTwin V E2) r r' ∧ r'.length = 5 := by
  have hdb : deferredBits k = 3584 + 256 * k := by unfold deferredBits; omega
  unfold combineAll
  refine (twin_mulAdd gc h1 hd.z hd.r hS).bind fun _ _ hp => ?_
  refine (twin_mulAdd gc h1 hd.z hp hd.sCur).bind fun _ _ hp => ?_
  refine (twin_mulAdd gc h1 hd.z hp hd.tPositive).bind fun _ _ hp => ?_
  refine (twin_mulAdd gc h1 hd.z hp hd.tNegative).bind fun _ _ hp => ?_
  refine (twin_mulAdd gc h1 hd.z hp hd.sNew).bind fun _ _ hp => ?_
  refine (twin_mulAdd gc h1 hd.z hp hG).bind fun _ _ hp => ?_
  refine (twin_mulAdd gc h1 hd.z hd.rxPt hd.sxOldPt).bind fun _ _ hv => ?_
  refine (twin_mulAdd gc h1 hd.z hv hd.sxCurPt).bind fun _ _ hv => ?_
  refine (twin_mulAdd gc h1 hd.z hv hd.txPositivePt).bind fun _ _ hv => ?_
  refine (twin_mulAdd gc h1 hd.z hv hd.txNegativePt).bind fun _ _ hv => ?_
  refine (twin_mulAdd gc h1 hd.z hv hd.sxNewPt).bind fun _ _ hv => ?_
  refine (twin_mulAdd gc h1 hd.z hv hd.gxOldPt).bind fun _ _ hv => ?_
  refine (twin_mulAdd gc h1 hd.z hk hd.c).bind fun _ _ hq => ?_
  refine (twin_mulAdd gc h1 hd.z hd.kyPt hd.sxCurPt).bind fun _ _ hqy => ?_
  refine (twin_sliceN hn (n := 256) (by omega) (by omega) (by omega)).bind fun _ _ b0 => ?_
  refine (twin_sliceN hn (n := 256) (by omega) (by omega) (by omega)).bind fun _ _ b1 => ?_
  refine (twin_sliceN hn (n := 256) (by omega) (by omega) (by omega)).bind fun _ _ b2 => ?_
  refine (twin_sliceN hn (n := 256) (by omega) (by omega) (by omega)).bind fun _ _ b3 => ?_
  refine (twin_sliceN hn (n := 256) (by omega) (by omega) (by omega)).bind fun _ _ b4 => ?_
  exact Twin.ret ⟨.cons ⟨⟨hp, hv⟩, b0⟩ (.cons ⟨⟨hd.r, hd.rxyPt⟩, b1⟩ (.cons ⟨⟨hd.c, hd.sxOldPt⟩, b2⟩
    (.cons ⟨⟨hq, hqy⟩, b3⟩ (.cons ⟨⟨hd.c, hd.sxNewPt⟩, b4⟩ .nil)))), rfl⟩

omit [DecidableEq S] [Field S] [LawfulField S] [DecidableEq F] h in
theorem twin_challengeIs (h1 : V one) {k : ℕ} {b b' : AllocatedBit} (hb : AllocatedBit.Twin V b b')
    {n n' m m' : List AllocatedBit} (hn : BitsN V (deferredBits k) n n') (hm : BitsN V (leftoversBits k) m m')
    {c c' : List AllocatedBit} (hc : BitsN V 128 c c') {i : ℕ} (hi : i < k) :
    Circuit.Twin V (challengeIs one k b n m (c, i) : Prog F _) (challengeIs one k b' n' m' (c', i))
      fun _ _ => True := by
  have hdb : deferredBits k = 3584 + 256 * k := by unfold deferredBits; omega
  have hlb : leftoversBits k = 1152 + 128 * k := by unfold leftoversBits; omega
  unfold challengeIs
  refine (twin_sliceN hm (n := 128) (by omega) (by omega) (by omega)).bind fun _ _ h2 => ?_
  refine (twin_equalUnless h1 hb hc h2).bind fun _ _ _ => ?_
  refine (twin_sliceN hn (n := 128) (by omega) (by omega) (by omega)).bind fun _ _ h3 => ?_
  exact twin_equalUnless h1 hb hc h3

theorem twin_verifyProof {fold : Fold F} (hfold : FoldTwin V E2 S self.params.k fold) (h1 : V one)
    (hs : SameShape E2 self self') {b b' : AllocatedBit}
    (hb : AllocatedBit.Twin V b b') {kc kc' : CurvePoint F} (hk : CurvePoint.Twin V E2 kc kc')
    {ol ol' nd nd' nl nl' : List AllocatedBit} (hol : BitsN V (leftoversBits self.params.k) ol ol')
    (hnd : BitsN V (deferredBits self.params.k) nd nd') (hnl : BitsN V (leftoversBits self.params.k) nl nl') :
    Circuit.Twin V (verifyProofWith E2 fold one self b kc ol nd nl) (verifyProof E2 one self' b' kc' ol' nd' nl')
      fun _ _ => True := by
  have gc := HaloCurve.good E2 F S
  have hp := hs.right.proof
  have hdb : deferredBits self.params.k = 3584 + 256 * self.params.k := by unfold deferredBits; omega
  have hlb : leftoversBits self.params.k = 1152 + 128 * self.params.k := by unfold leftoversBits; omega
  unfold verifyProof verifyProofWith
  rw [hs.params]
  refine (twin_commitAll h1 hs hk hnd).bind ?_
  rintro ⟨d, t⟩ ⟨d', t'⟩ ⟨hd, ht⟩
  refine (CurvePoint.twin_witness h1 (by
    rintro _ ⟨⟩; exact onCurve_proofPoint fun p h => (hp p h).sOld)).bind fun _ _ hS => ?_
  refine (twin_pointIs h1 hb hS.1.like hol (by omega)).bind fun _ _ _ => ?_
  refine (CurvePoint.twin_witness h1 (by
    rintro _ ⟨⟩; exact onCurve_proofPoint fun p h => (hp p h).gOld)).bind fun _ _ hG => ?_
  refine (twin_pointIs h1 hb hG.1.like hol (by omega)).bind fun _ _ _ => ?_
  refine (twin_combineAll gc h1 hk hS.1 hG.1 hd hnd).bind fun _ _ hi => ?_
  refine (twin_verifyInnerProduct hfold h1 hs hb ht hi.1 hi.2).bind ?_
  rintro ⟨gNew, cs⟩ ⟨gNew', cs'⟩ ⟨hg, hc, hl⟩
  refine (twin_pointIs h1 hb hd.sNew.like hnl (by omega)).bind fun _ _ _ => ?_
  refine (twin_sliceN hnl (n := 128) (by omega) (by omega) (by omega)).bind fun _ _ h2 => ?_
  refine (twin_equalUnless h1 hb hd.yNew h2).bind fun _ _ _ => ?_
  refine (twin_pointIs h1 hb hg.like hnl (by omega)).bind fun _ _ _ => ?_
  refine Twin.bind (R := fun _ _ => True) (twin_foldProg (R := fun _ _ => True) (forall₂_zipIdx hc) ?_ trivial)
    fun _ _ _ => ?_
  · rintro ⟨c, i⟩ ⟨c', i'⟩ _ _ ⟨hc, hi, hi'⟩ _
    simp only at hi hi' hc hl
    subst hi
    exact twin_challengeIs h1 hb hnd hnl hc (hl ▸ hi')
  refine (twin_sliceN hnd (n := 128) (by omega) (by omega) (by omega)).bind fun _ _ h2 => ?_
  refine (twin_equalUnless h1 hb hd.x h2).bind fun _ _ _ => ?_
  refine (twin_sliceN hnd (n := 128) (by omega) (by omega) (by omega)).bind fun _ _ h2 => ?_
  refine (twin_equalUnless h1 hb hd.yCur h2).bind fun _ _ _ => ?_
  refine (twin_sliceN hnd (n := 128) (by omega) (by omega) (by omega)).bind fun _ _ h2 => ?_
  exact twin_equalUnless h1 hb hd.yNew h2

omit [Field S] [DecidableEq S] [LawfulField S] [DecidableEq F] [LawfulField F] [Field F] h in
theorem prog_bind_assoc {α β γ : Type} (p : Prog F α) (f : α → Prog F β) (g : β → Prog F γ) :
    ((p >>= f) >>= g) = p >>= fun a => f a >>= g := Prog.bind_assoc p f g

omit [Field S] [DecidableEq S] [LawfulField S] [DecidableEq F] [LawfulField F] h in
theorem twin_inputBits {α β : Type} {R : α → β → Prop} {vs : List F} {n : ℕ} :
    ∀ {l l' : List Bool} {f : List AllocatedBit → Prog F α} {f' : List AllocatedBit → Prog F β},
    l.length = n → l'.length = n → (∀ bits bits', BitsN V n bits bits' →
      bits'.map (fun b => b.value) = l'.map some → TwinIn V vs (f bits) (f' bits') R) →
    TwinIn V (l.map ofBool ++ vs) (inputBits l >>= f) (inputBits l' >>= f') R := by
  induction n with
  | zero =>
    intro l l' f f' hl hl' h
    rw [List.length_eq_zero_iff] at hl hl'
    subst hl hl'
    exact h [] [] ⟨.nil, rfl⟩ rfl
  | succ n ih =>
    intro l l' f f' hl hl' h
    match l, l', hl, hl' with
    | b :: l, b' :: l', hl, hl' =>
    simp only [inputBits, mapProg, prog_bind_assoc]
    refine ⟨rfl, fun x hx => ?_⟩
    refine ih (by simpa using hl) (by simpa using hl') fun bits bits' hb hv => ?_
    refine h _ _ ⟨.cons ⟨_, _, _, hx⟩ hb.1, by rw [List.length_cons, hb.2]⟩ ?_
    rw [List.map_cons, List.map_cons, hv]
    cases b' <;> simp [ofBool]

omit [Field S] [DecidableEq S] [LawfulField S] [DecidableEq F] [LawfulField F] h in
theorem twin_privateBits {l l' : List Bool} {n : ℕ} (hl : l.length = n) (hl' : l'.length = n) :
    Circuit.Twin V (privateBits l : Prog F _) (privateBits l') fun a a' =>
      BitsN V n a a' ∧ ∀ b ∈ a', b.value = none := by
  refine Twin.mono ?_ (twin_mapProg (A := fun _ _ => True) (List.forall₂_iff_zip.2 ⟨hl.trans hl'.symm,
    fun _ => trivial⟩) fun b b' _ => twin_bitAlloc')
  rintro a a' ⟨h, hl⟩
  refine ⟨⟨h.imp fun _ _ h => h.1, hl.trans hl'⟩, ?_⟩
  clear hl
  induction h with
  | nil => simp
  | cons h _ ih =>
    intro b hb
    rcases List.mem_cons.1 hb with rfl | hb
    · exact h.2
    · exact ih b hb

omit [Field S] [DecidableEq S] [LawfulField S] [DecidableEq F] [LawfulField F] h in
theorem twin_check {b b' : AllocatedBit} (hb : AllocatedBit.Twin V b b') :
    Circuit.Twin V (AllocatedBit.check b : Prog F _) (AllocatedBit.check b') fun _ _ => True := by
  obtain ⟨v, v', x, hx⟩ := hb
  unfold AllocatedBit.check
  refine twin_multiply fun a b c o ha hb hc => ?_
  refine twin_enforce rfl (by lc_in) ?_
  refine twin_enforce rfl (by lc_in) ?_
  exact twin_enforce' rfl (by lc_in) trivial

omit [Field S] [DecidableEq S] [LawfulField S] [DecidableEq F] [LawfulField F] h in
theorem twin_checkAll {n : ℕ} {l l' : List AllocatedBit} (h : BitsN V n l l') :
    Circuit.Twin V (foldProg (fun _ b => AllocatedBit.check b) l () : Prog F _)
      (foldProg (fun _ b => AllocatedBit.check b) l' ()) fun _ _ => True :=
  twin_foldProg (R := fun _ _ => True) h.1 (fun _ _ _ _ h _ => twin_check h) trivial

omit [Field S] [DecidableEq S] [LawfulField S] [DecidableEq F] [LawfulField F] h in
theorem twin_basePayloadIs (h1 : V one) {b b' : AllocatedBit} (hb : AllocatedBit.Twin V b b') {bit : Bool}
    {o o' : AllocatedBit} (ho : AllocatedBit.Twin V o o') :
    Circuit.Twin V (basePayloadIs one b (bit, o) : Prog F _) (basePayloadIs one b' (bit, o')) fun _ _ => True := by
  obtain ⟨v, v', x, hx⟩ := hb
  obtain ⟨w, w', y, hy⟩ := ho
  unfold basePayloadIs
  refine twin_multiply fun a b c o ha hb hc => ?_
  cases bit
  · refine twin_enforce rfl (by lc_in) ?_
    refine twin_enforce rfl (by lc_in) ?_
    exact twin_enforce' rfl (by lc_in) trivial
  · refine twin_enforce rfl (by lc_in) ?_
    refine twin_enforce rfl (by lc_in) ?_
    exact twin_enforce' rfl (by lc_in) trivial

omit [Field S] [DecidableEq S] [LawfulField S] [LawfulField F] [DecidableEq F] h in
theorem coordinates_affine {b : F} {p : Proj F} {A : Pt b} (hz : p.z = 1) (h : Denotes b p A) :
    coordinates A = (p.x, p.y) := by
  cases h with
  | zero => exact absurd hz zero_ne_one
  | some =>
    dsimp only at hz
    subst hz
    simp [coordinates]

omit [Field S] [DecidableEq S] [LawfulField S] h in
theorem twin_kCommitment (g : GoodCurve F E2) (h1 : V one) {params : Params (Proj F)} (hp : GoodParams E2 params)
    {l l' : List AllocatedBit} (hl : List.Forall₂ (AllocatedBit.Twin V) l l')
    (hv : ∀ b, l'.head? = some b → b.value = none) :
    Circuit.Twin V (kCommitment E2 one params.generators l) (kCommitment E2 one params.generators l')
      (CurvePoint.Twin V E2) := by
  unfold kCommitment
  have h2 := hp.two
  have e0 : (index params.generators 1 : Prog F _) = Pure.pure params.generators[1] := by
    rw [index, List.getElem?_eq_getElem (by omega)]; rfl
  rw [e0, pure_bind_prog, pure_bind_prog]
  obtain ⟨z1, A, hA⟩ := hp.gens _ (List.getElem_mem (show 1 < params.generators.length by omega))
  have c1 := coordinates_affine z1 hA
  have hc := CurvePoint.twin_const (V := V) (E := E2) c1
  generalize hd : params.generators.drop 2 = gs
  have hgs : ∀ p ∈ gs, p.z = 1 ∧ OnCurve E2 p := fun p h => hp.gens p (List.mem_of_mem_drop (hd ▸ h))
  cases hl with
  | nil => exact Twin.ret hc
  | @cons b b' l l' hb hl =>
    cases gs with
    | nil => exact Twin.ret hc
    | cons q gs =>
      have hq : params.generators[2]? = some q := by
        have := congrArg (fun l => l[0]?) hd
        simpa using this
      obtain ⟨z2, B, hB⟩ := hgs q (by simp)
      have c2 := coordinates_affine z2 hB
      have hs := hp.first _ q (List.getElem?_eq_getElem (show 1 < params.generators.length by omega)) hq A B hA hB
      obtain ⟨p1, ep1, d1⟩ := CurvePoint.getPoint_const g c1
      obtain ⟨p2, ep2, d2⟩ := CurvePoint.getPoint_const g c2
      have er : ∃ r, CurvePoint.sumXy E2 (some p1) (some p2) = (Pure.pure (some r) : Prog F _) := by
        have := getXy_spec (denotes_add g d1 d2)
        simp only [CurvePoint.sumXy, this]
        cases h : A + B with
        | zero => exact absurd h hs
        | some x y _ => exact ⟨_, rfl⟩
      obtain ⟨r, er⟩ := er
      have hb' : b'.value = none := hv b' rfl
      rw [List.zip_cons_cons, List.zip_cons_cons]
      refine (CurvePoint.twin_addConditionallyIncomplete (E := E2) h1 hc.like
        (CurvePoint.twin_const (V := V) (E := E2) c2).like (.is hb) ep1 ep2 er (.inr (by
          simpa [Boolean.getValue] using hb'))).bind fun P P' hP => ?_
      refine Twin.mono (R := fun R R' => CurvePoint.Like V R R' ∧ R'.x.value = none)
        (fun _ _ h => ⟨h.1, CurvePoint.good_of_none h.2⟩) ?_
      refine twin_foldProg (forall₂_zip hl (forall₂_refl (A := fun p p' => p = p' ∧ p ∈ gs) fun p hp => ⟨rfl, hp⟩))
        ?_ hP
      rintro ⟨b, p⟩ ⟨b', p'⟩ R R' ⟨hb, hpp, hpg⟩ hR
      simp only at hb hpp hpg
      subst hpp
      obtain ⟨z3, C, hC⟩ := hgs p (List.mem_cons_of_mem _ hpg)
      have c3 := coordinates_affine z3 hC
      obtain ⟨p3, ep3, -⟩ := CurvePoint.getPoint_const g c3
      exact CurvePoint.twin_addConditionallyIncomplete (E := E2) (p := none) (r := none) h1 hR.1
        (CurvePoint.twin_const (V := V) (E := E2) c3).like (.is hb)
        (by rw [CurvePoint.getPoint_of_none hR.2]; rfl) ep3 rfl (.inl rfl)

omit h in
theorem leftovers_length {E : CurveConsts} {k : ℕ} {l : Leftovers (Proj S) F}
    (h : l.challengesSqPackedNew.length = k) :
    (bytesBits (@Leftovers.toBytes _ _ _ _ _ _ (Proj.curveOps E S F) l)).length = leftoversBits k := by
  let := Proj.curveOps E S F
  rw [length_bytesBits, Leftovers.toBytes]
  simp only [List.length_append, pointBytes_length, bytes16_length, flatMap16_length, h, leftoversBits]
  omega

omit [DecidableEq F] [Field S] [DecidableEq S] [LawfulField S] h in
theorem deferred_length {k : ℕ} {d : Deferred F} (ho : d.challengesSqPackedOld.length = k)
    (hn : d.challengesSqPackedNew.length = k) : (bytesBits d.toBytes).length = deferredBits k := by
  simp only [Deferred.toBytes, bytesBits_append, List.length_append, bits32_length, bits16_length, flat16_length,
    ho, hn, deferredBits]
  ring

omit [Field F] [DecidableEq F] [LawfulField F] [Field S] [DecidableEq S] [LawfulField S] h in
theorem bitsOr_length {α : Type} {o : Option α} {f : α → List (BitVec 8)} {n : ℕ}
    (h : ∀ a ∈ o, (bytesBits (f a)).length = n) : (bitsOr (o.map f) n).length = n := by
  cases o with
  | none => exact List.length_replicate
  | some a => exact h a rfl

theorem oldDeferred_some [h1 : HaloCurve E1 S F] (hk : 2 ≤ self.params.k) (hs : self.WellShaped E2) :
    ∃ l, oldDeferredBytes self = (Pure.pure l : Prog F _) ∧ (bytesBits l).length = deferredBits self.params.k := by
  unfold oldDeferredBytes
  cases hp : self.proof with
  | some p =>
    have := hs.proof p hp
    exact ⟨_, rfl, deferred_length this.deferredOld this.deferredNew⟩
  | none =>
    obtain ⟨d, e, -, -, -, ho, hn, -⟩ := dummy_record (E := E1) (F := S) (S := F) hk
    simp only [e]
    exact ⟨_, rfl, deferred_length ho hn⟩

theorem oldPayload_length (hs : self.WellShaped E2) : (match self.proof with
    | some proof => bytesBits proof.payload
    | none => self.inner.basePayload).length = self.inner.basePayload.length := by
  cases hp : self.proof with
  | some p => rw [length_bytesBits]; exact (hs.proof p hp).payload
  | none => rfl

theorem twin_synthesizeWith [h1 : HaloCurve E1 S F] {fold : Fold F}
    (hfold : FoldTwin V E2 S self.params.k fold) (h1 : V one) (hs : SameShape E2 self self')
    (hp : GoodParams E2 self.params) :
    TwinIn V ((self.publicBits E1 E2).map ofBool) (self.synthesizeWith E1 E2 fold one) (self'.synthesize E1 E2 one)
      fun _ _ => True := by
  have gc := HaloCurve.good E2 F S
  have hk := hp.k_ge
  have hdb : deferredBits self.params.k = 3584 + 256 * self.params.k := by unfold deferredBits; omega
  have hlb : leftoversBits self.params.k = 1152 + 128 * self.params.k := by unfold leftoversBits; omega
  have l1 := hs.left.oldLeftovers
  have l2 := hs.left.newLeftovers
  have l3 := hs.left.deferred
  have l4 := hs.left.proof
  have r1 := hs.right.oldLeftovers
  have r2 := hs.right.newLeftovers
  have r3 := hs.right.deferred
  have r4 := hs.right.proof
  rw [hs.params] at r1 r2 r3 r4
  obtain ⟨b, eb, lb⟩ := oldDeferred_some (E1 := E1) hk hs.left
  obtain ⟨b', eb', lb'⟩ := oldDeferred_some (E1 := E1) (by rwa [hs.params]) hs.right
  rw [hs.params] at lb'
  unfold VerificationCircuit.synthesize VerificationCircuit.synthesizeWith
  rw [hs.params]
  simp only [VerificationCircuit.publicBits, List.map_append, List.append_assoc]
  refine twin_inputBits (n := self.inner.basePayload.length) ((length_bytesBits _).trans hs.left.newPayload)
    ((length_bytesBits _).trans (hs.right.newPayload.trans (by rw [hs.inner.base]))) fun new new' h2 h2v => ?_
  refine twin_inputBits (bitsOr_length fun l hl => leftovers_length (l1 l hl))
    (bitsOr_length fun l hl => leftovers_length (r1 l hl)) fun ol ol' h3 _ => ?_
  refine twin_inputBits (bitsOr_length fun l hl => leftovers_length (l2 l hl))
    (bitsOr_length fun l hl => leftovers_length (r2 l hl)) fun nl nl' h4 _ => ?_
  rw [← List.append_nil (List.map ofBool _)]
  refine twin_inputBits (bitsOr_length fun l hl => deferred_length (l3 l hl).1 (l3 l hl).2)
    (bitsOr_length fun l hl => deferred_length (r3 l hl).1 (r3 l hl).2) fun d d' h5 _ => ?_
  refine (twin_checkAll h2).bind fun _ _ _ => ?_
  refine (twin_checkAll h3).bind fun _ _ _ => ?_
  refine (twin_checkAll h4).bind fun _ _ _ => ?_
  refine (twin_checkAll h5).bind fun _ _ _ => ?_
  refine twin_bitAlloc'.bind fun bc bc' hbc => ?_
  refine twin_guard (by have := hp.two; omega) ?_
  refine (twin_privateBits (oldPayload_length hs.left)
    ((oldPayload_length hs.right).trans (by rw [hs.inner.base]))).bind fun op op' h6 => ?_
  rw [hs.inner.base]
  refine Twin.bind (R := fun _ _ => True) (twin_foldProg (R := fun _ _ => True)
    (forall₂_zip (forall₂_refl (A := fun a a' => a = a') fun _ _ => rfl) h6.1.1) ?_ trivial) fun _ _ _ => ?_
  · rintro ⟨bit, o⟩ ⟨bit', o'⟩ _ _ ⟨hb, ho⟩ _
    simp only at hb ho
    subst hb
    exact twin_basePayloadIs h1 hbc.1 ho
  refine (twin_privateBits (bitsOr_length fun p hp => leftovers_length (l4 p hp).old1)
    (bitsOr_length fun p hp => leftovers_length (r4 p hp).old1)).bind fun ol1 ol1' h7 => ?_
  rw [eb, eb', pure_bind_prog, pure_bind_prog]
  refine (twin_privateBits lb lb').bind fun od od' h8 => ?_
  refine twin_guard (by rw [h8.1.2, h5.2]; simp) ?_
  have hall := List.rel_append h6.1.1 (List.rel_append h7.1.1 (List.rel_append h3.1 h8.1.1))
  refine (twin_kCommitment gc h1 hp hall ?_).bind fun kc kc' hkc => ?_
  · intro b hb
    cases op' with
    | cons c op' =>
      cases hb
      exact h6.2 _ (by simp)
    | nil =>
      cases ol1' with
      | cons c ol1' =>
        cases hb
        exact h7.2 _ (by simp)
      | nil =>
        have := h7.1.2
        rw [List.length_nil] at this
        omega
  refine (twin_verifyDeferred h1 hk h8.1).bind fun _ _ _ => ?_
  refine (twin_verifyProof hfold h1 hs hbc.1 hkc h7.1 h5 h4).bind fun _ _ _ => ?_
  refine (twin_sliceN h5 (n := 128 * self.params.k) (by omega) (by omega) (by omega)).bind fun _ _ g1 => ?_
  have e1 : ol1.length = leftoversBits self.params.k := h7.1.1.length_eq.trans h7.1.2
  rw [e1, h7.1.2]
  refine (twin_sliceN h7.1 (n := 128 * self.params.k) (by omega) (by omega) (by omega)).bind fun _ _ g2 => ?_
  refine (twin_equalUnless h1 hbc.1 g1 g2).bind fun _ _ _ => ?_
  refine (twin_sliceN h5 (n := 128) (by omega) (by omega) (by omega)).bind fun _ _ g1 => ?_
  refine (twin_sliceN h7.1 (n := 128) (by omega) (by omega) (by omega)).bind fun _ _ g2 => ?_
  refine (twin_equalUnless h1 hbc.1 g1 g2).bind fun _ _ _ => ?_
  exact hs.inner.same V one h1 op op' new new' h6.1.2 h2.2 h6.1.1 h2.1 h2v

theorem twin_synthesize [h1 : HaloCurve E1 S F] (h1 : V one) (hs : SameShape E2 self self')
    (hp : GoodParams E2 self.params) :
    TwinIn V ((self.publicBits E1 E2).map ofBool) (self.synthesize E1 E2 one) (self'.synthesize E1 E2 one)
      fun _ _ => True := by
  rw [← synthesizeWith_realFold]
  exact twin_synthesizeWith (E1 := E1) foldTwin_realFold h1 hs hp

end circuit
end Recursion
end Halo
