import Verif.Spec.Attest
import Verif.Lemmas.Recursion.Deferred
import Verif.Lemmas.Example.Step
import Verif.Props.Recursion
/-!
# What the verification circuit attests to
-/
namespace Halo
namespace Recursion
open Circuit Proofs
open Circuit.Sha256 (foldProg)
set_option linter.unusedSectionVars false
variable {F : Type} [Field F] [LawfulField F] {w : Var → F} {one : Var}

theorem part_eq (l : List Bool) (i j : ℕ) : (l.take j).drop i = part l i (j - i) := by
  rw [part, List.drop_take]

theorem Challenged.append {T T' T'' : Rescue F} {h h' : List (List F × List Bool)} (h1 : Challenged T h T')
    (h2 : Challenged T' h' T'') : Challenged T (h ++ h') T'' := by
  induction h generalizing T with
  | nil => cases h1; exact h2
  | cons e h ih =>
    obtain ⟨v, T1, e1, e2, e3⟩ := h1
    exact ⟨v, T1, e1, e2, ih e3⟩

/-- The transcript in the circuit has gone through these messages and challenges, and then absorbed `xs`. -/
def Sofar (h1 : w one = 1) (t : RescueGadget F) (hist : List (List F × List Bool)) (xs : List F) : Prop :=
  ∃ T st, Challenged Rescue.new hist T ∧ RescueGadget.Rel (NumLogic.sound h1) t st ∧
    Rescue.Rel (xs.foldl (fun T x => Rescue.absorb x T) T) st

/-- The coordinates of a point in the circuit -/
def coords (w : Var → F) (P : CurvePoint F) : F × F := (P.x.wire w, P.y.wire w)

section
attribute [local irreducible] RescueGadget.new Sound

theorem new_sofar (h1 : w one = 1) : Sound w (RescueGadget.new one) fun t => Sofar h1 t [] [] :=
  Logic.mono (NumLogic.sound h1).toLogic (RescueGadget.holds_new (NumLogic.sound h1)) fun t ht =>
    (⟨_, .absorbing (Vector.replicate Rescue.M 0) [], rfl, ht, Rescue.rel_new⟩ : Sofar h1 t [] [])

end

theorem absorb_sofar {h1 : w one = 1} {t : RescueGadget F} {hist : List (List F × List Bool)} {xs : List F}
    (ht : Sofar h1 t hist xs) (n : Num F) :
    Sound w (t.absorb one n) fun t => Sofar h1 t hist (xs ++ [n.wire w]) := by
  obtain ⟨T, st, hT, hst, hr⟩ := ht
  refine Sound.mono (fun t ht => ⟨T, _, hT, ht, ?_⟩) (RescueGadget.holds_absorb (NumLogic.sound h1) hst (n := n) rfl)
  rw [List.foldl_append]
  exact Rescue.absorb_rel hr _

theorem commitPoint_sofar {h1 : w one = 1} {t : RescueGadget F} {hist : List (List F × List Bool)}
    {ps : List (F × F)} (ht : Sofar h1 t hist (flat ps)) (P : CurvePoint F) :
    Sound w (commitPoint one t P) fun t => Sofar h1 t hist (flat (ps ++ [coords w P])) := by
  refine Sound.bind (absorb_sofar ht _) fun t ht => (absorb_sofar ht _).mono fun t ht => ?_
  simpa [flat, coords] using ht

theorem getChallenge_sofar {h1 : w one = 1} {t : RescueGadget F} {hist : List (List F × List Bool)} {xs : List F}
    (ht : Sofar h1 t hist xs) :
    Sound w (getChallenge one t) fun r => ∃ c, List.Forall₂ (fun b v => b.Means w v) r.1 c ∧
      Sofar h1 r.2 (hist ++ [(xs, c)]) [] := by
  obtain ⟨T, st, hT, hst, hr⟩ := ht
  refine Sound.bind (RescueGadget.holds_squeeze (NumLogic.sound h1) hst) fun ⟨num, t⟩ ⟨hn, ht⟩ => ?_
  have hn : w num.var = st.squeeze.1 := hn
  refine Sound.bind (unpackFe_sound h1 _) fun bits ⟨vs, hvs, hl, hv⟩ => ?_
  obtain ⟨T', hq, hr'⟩ := Rescue.squeeze_rel hr
  refine (sound_ret _ _).2 ⟨vs.take 127 ++ [true], ?_, T', st.squeeze.2, hT.append
    ⟨_, T', hq, ⟨vs, hl, ?_, rfl⟩, rfl⟩, ht, hr'⟩
  · refine List.rel_append (List.forall₂_take _ hvs) (.cons ?_ .nil)
    simp [AllocatedBit.Means, AllocatedBit.one, h1]
  · rw [hv, Num.wire_ofAllocated, hn]

/-- A bit string in the circuit -/
abbrev Bits (w : Var → F) (l : List AllocatedBit) (v : List Bool) : Prop := List.Forall₂ (fun b v => b.Means w v) l v

theorem slice_bits {l : List AllocatedBit} {v : List Bool} (h : Bits w l v) (a b : ℕ) :
    Sound w (slice l a b) fun r => Bits w r (part v a (b - a)) :=
  Sound.mono (fun r hr => by rw [hr.2.2, ← part_eq]; exact List.forall₂_drop _ (List.forall₂_take _ h))
    (slice_holds (hon := false) (w := w) (F := F) nofun)

theorem equal_bits (h1 : w one = 1) {b : AllocatedBit} {base : Bool} (hb : b.Means w base) {l r : List AllocatedBit}
    {x y : List Bool} (hl : Bits w l x) (hr : Bits w r y) :
    Sound w (equalUnlessBaseCase one b l r : Prog F Unit) fun _ => base = false → x = y :=
  Sound.mono (fun _ h hf => h.resolve_left (by simp [hf])) (equalUnlessBaseCase_holds (hon := false) h1 ⟨hb, nofun⟩
    (bitsOk_false.2 hl) (bitsOk_false.2 hr) nofun)

variable [DecidableEq F] {S : Type} [Field S] [DecidableEq S] [LawfulField S] {E : CurveConsts}

theorem pointIs_bits (h1 : w one = 1) {b : AllocatedBit} {base : Bool} (hb : b.Means w base) {l : List AllocatedBit}
    {v : List Bool} (hl : Bits w l v) (P : CurvePoint F) (i : ℕ) :
    Sound w (pointIs one b P l i) fun _ => base = false → IsPoint v i (coords w P) := by
  refine Sound.bind (unpackFe_sound h1 _) fun x ⟨xs, hx, _, ex⟩ => ?_
  refine Sound.bind (unpackFe_sound h1 _) fun y ⟨ys, hy, _, ey⟩ => ?_
  refine Sound.bind (slice_bits hl _ _) fun l1 h1' => ?_
  refine Sound.bind (equal_bits h1 hb hx h1') fun _ e1 => ?_
  refine Sound.bind (slice_bits hl _ _) fun l2 h2' => ?_
  refine (equal_bits h1 hb hy h2').mono fun _ e2 hf => ⟨?_, ?_⟩
  · rw [coords, ← ex, e1 hf, Nat.add_sub_cancel_left]
  · rw [coords, ← ey, e2 hf, show i + 512 - (i + 256) = 256 by omega]

theorem commitWitness_sofar {h1 : w one = 1} {t : RescueGadget F} {hist : List (List F × List Bool)}
    {ps : List (F × F)} (ht : Sofar h1 t hist (flat ps)) (p : Proj F) :
    Sound w (commitWitness E one t p) fun r => Sofar h1 r.2 hist (flat (ps ++ [coords w r.1])) :=
  Sound.bind (P := fun _ => True) (Sound.anyway _ fun _ => trivial) fun P _ =>
    Sound.bind (commitPoint_sofar ht P) fun _ h => (sound_ret _ _).2 h

theorem commitMultiple_sofar {h1 : w one = 1} {t : RescueGadget F} {hist : List (List F × List Bool)}
    {ps : List (F × F)} (ht : Sofar h1 t hist (flat ps)) (g : CurvePoint F) (bits : List AllocatedBit) :
    Sound w (commitMultiple E one g bits t) fun r => Sofar h1 r.2 hist (flat (ps ++ [coords w r.1])) :=
  Sound.bind (P := fun _ => True) (Sound.anyway _ fun _ => trivial) fun P _ =>
    Sound.bind (commitPoint_sofar ht P) fun _ h => (sound_ret _ _).2 h

/-- Leave out a step. -/
theorem skip {α β : Type} {p : Prog F α} {f : α → Prog F β} {Q : β → Prop} (h : ∀ a, Sound w (f a) Q) :
    Sound w (p >>= f) Q :=
  Sound.bind (P := fun _ => True) (Sound.anyway _ fun _ => trivial) fun a _ => h a

section
attribute [local irreducible] RescueGadget.new Sound

theorem commitAll_sofar (h1 : w one = 1) (self : VerificationCircuit F S) (K : CurvePoint F) (d : List AllocatedBit) :
    Sound w (commitAll E one self K d) fun r => ∃ openings yCur x yNew z, openings.length = 9 ∧
      Bits w r.1.yCur yCur ∧ Bits w r.1.x x ∧ Bits w r.1.yNew yNew ∧
      Sofar h1 r.2 [(flat [coords w K, coords w r.1.r], yCur),
        (flat [coords w r.1.sCur, coords w r.1.tPositive, coords w r.1.tNegative], x),
        (flat [coords w r.1.c], yNew), (flat (coords w r.1.sNew :: openings), z)] [] := by
  unfold commitAll
  refine Sound.bind (new_sofar h1) fun t ht => ?_
  refine Sound.bind (commitPoint_sofar (ps := []) ht K) fun t ht => ?_
  refine Sound.bind (commitWitness_sofar ht _) fun ⟨r, t⟩ ht => ?_
  refine Sound.bind (getChallenge_sofar ht) fun ⟨c1, t⟩ ⟨yCur, b1, ht⟩ => ?_
  refine Sound.bind (commitWitness_sofar (ps := []) ht _) fun ⟨sCur, t⟩ ht => ?_
  refine Sound.bind (commitWitness_sofar ht _) fun ⟨tPositive, t⟩ ht => ?_
  refine Sound.bind (commitWitness_sofar ht _) fun ⟨tNegative, t⟩ ht => ?_
  refine Sound.bind (getChallenge_sofar ht) fun ⟨c2, t⟩ ⟨x, b2, ht⟩ => ?_
  refine Sound.bind (commitWitness_sofar (ps := []) ht _) fun ⟨c, t⟩ ht => ?_
  refine Sound.bind (getChallenge_sofar ht) fun ⟨c3, t⟩ ⟨yNew, b3, ht⟩ => ?_
  refine Sound.bind (commitWitness_sofar (ps := []) ht _) fun ⟨sNew, t⟩ ht => ?_
  refine skip fun g => ?_
  refine skip fun s1 => ?_
  refine Sound.bind (commitMultiple_sofar ht _ _) fun ⟨p1, t⟩ ht => ?_
  refine skip fun s2 => ?_
  refine Sound.bind (commitMultiple_sofar ht _ _) fun ⟨p2, t⟩ ht => ?_
  refine skip fun s3 => ?_
  refine Sound.bind (commitMultiple_sofar ht _ _) fun ⟨p3, t⟩ ht => ?_
  refine Sound.bind (commitWitness_sofar ht _) fun ⟨p4, t⟩ ht => ?_
  refine skip fun s5 => ?_
  refine Sound.bind (commitMultiple_sofar ht _ _) fun ⟨p5, t⟩ ht => ?_
  refine skip fun s6 => ?_
  refine Sound.bind (commitMultiple_sofar ht _ _) fun ⟨p6, t⟩ ht => ?_
  refine skip fun s7 => ?_
  refine Sound.bind (commitMultiple_sofar ht _ _) fun ⟨p7, t⟩ ht => ?_
  refine Sound.bind (commitWitness_sofar ht _) fun ⟨p8, t⟩ ht => ?_
  refine skip fun s9 => ?_
  refine Sound.bind (commitMultiple_sofar ht _ _) fun ⟨p9, t⟩ ht => ?_
  refine Sound.bind (getChallenge_sofar ht) fun ⟨c4, t⟩ ⟨z, b4, ht⟩ => ?_
  exact (sound_ret _ _).2 ⟨[coords w p1, coords w p2, coords w p3, coords w p4, coords w p5, coords w p6, coords w p7,
    coords w p8, coords w p9], yCur, x, yNew, z, rfl, b1, b2, b3, ht⟩

end

/-- One round -/
theorem verifyRound_sofar {h1 : w one = 1} (self : VerificationCircuit F S) {s : RoundState F} (hp : s.pv.length = 5)
    {hist : List (List F × List Bool)} (ht : Sofar h1 s.transcript hist []) (i : ℕ) :
    Sound w (verifyRound E one self s i) fun s' => s'.pv.length = 5 ∧ ∃ points fork u c, points.length = 20 ∧
      Bits w c u ∧ s'.challenges = s.challenges ++ [c] ∧
      Sofar h1 s'.transcript (hist ++ [(flat points ++ [fork], u)]) [] := by
  unfold verifyRound
  refine Sound.bind (P := fun r => r.1.length = 5 ∧ ∃ points : List (F × F), points.length = 20 ∧
    Sofar h1 r.2 hist (flat points)) ?_ fun ⟨tmp, t⟩ ⟨htl, points, hpl, ht⟩ => ?_
  · refine Sound.mono ?_ ((Logic.sound w).foldProg (fun n r => r.1.length = n ∧ ∃ points : List (F × F),
      points.length = 4 * n ∧ Sofar h1 r.2 hist (flat points)) 0 ⟨rfl, [], rfl, ht⟩ fun j x r _ hr => ?_)
    · rintro r ⟨h1, points, h2, h3⟩
      rw [List.length_range, hp] at h1 h2
      exact ⟨h1, points, h2, h3⟩
    · obtain ⟨hl, points, hpl, ht⟩ := hr
      show Sound w _ _
      unfold witnessEntry
      refine skip fun e => ?_
      refine skip fun L => ?_
      refine skip fun R => ?_
      refine skip fun l => ?_
      refine skip fun r => ?_
      refine Sound.bind (commitPoint_sofar ht L) fun t ht => ?_
      refine Sound.bind (commitPoint_sofar ht R) fun t ht => ?_
      refine Sound.bind (commitPoint_sofar ht l) fun t ht => ?_
      refine Sound.bind (commitPoint_sofar ht r) fun t ht => ?_
      refine (sound_ret _ _).2 ⟨by rw [List.length_append, hl]; rfl, _, ?_, ht⟩
      simp only [List.length_append, List.length_cons, List.length_nil, hpl]
      omega
  refine skip fun v => ?_
  refine skip fun n => ?_
  refine Sound.bind (absorb_sofar ht _) fun t ht => ?_
  refine Sound.bind (getChallenge_sofar ht) fun ⟨c, t⟩ ⟨u, hu, ht⟩ => ?_
  refine Sound.bind ((Logic.sound w).mapProg (P := fun _ _ => True) fun _ _ => Sound.anyway _ fun _ => trivial)
    fun pv hpv => ?_
  refine (sound_ret _ _).2 ⟨?_, points, _, u, c, hpl, hu, rfl, ht⟩
  rw [← hpv.length_eq, List.length_zip, hp, htl]
  rfl

/-- All rounds -/
theorem innerProduct_sofar {h1 : w one = 1} (self : VerificationCircuit F S) (b : AllocatedBit) {t : RescueGadget F}
    {hist : List (List F × List Bool)} (ht : Sofar h1 t hist [])
    {instances : List ((CurvePoint F × CurvePoint F) × List AllocatedBit)} (hi : instances.length = 5) :
    Sound w (verifyInnerProduct E one self b t instances) fun r => ∃ (rounds : List (List (F × F) × F))
      (us : List (List Bool)) (T : Rescue F), rounds.length = self.params.k ∧ (∀ r ∈ rounds, r.1.length = 20) ∧
      List.Forall₂ (Bits w) r.2 us ∧ us.length = self.params.k ∧
      Challenged Rescue.new (hist ++ (rounds.map fun r => flat r.1 ++ [r.2]).zip us) T := by
  unfold verifyInnerProduct
  refine Sound.bind (P := fun s => ∃ (rounds : List (List (F × F) × F)) (us : List (List Bool)),
    rounds.length = self.params.k ∧ (∀ r ∈ rounds, r.1.length = 20) ∧ List.Forall₂ (Bits w) s.challenges us ∧
    us.length = self.params.k ∧ Sofar h1 s.transcript (hist ++ (rounds.map fun r => flat r.1 ++ [r.2]).zip us) [])
    ?_ fun s ⟨rounds, us, e1, e2, e3, e4, e5⟩ => ?_
  · refine Sound.mono ?_ ((Logic.sound w).foldProg (fun n s => s.pv.length = 5 ∧ ∃ (rounds : List (List (F × F) × F))
      (us : List (List Bool)), rounds.length = n ∧ (∀ r ∈ rounds, r.1.length = 20) ∧
      List.Forall₂ (Bits w) s.challenges us ∧ us.length = n ∧
      Sofar h1 s.transcript (hist ++ (rounds.map fun r => flat r.1 ++ [r.2]).zip us) []) 0
      ⟨by rw [List.length_map, hi], [], [], rfl, nofun, .nil, rfl, by simpa using ht⟩ fun j x s _ hs => ?_)
    · rintro s ⟨-, rounds, us, h⟩
      rw [Nat.zero_add, List.length_range] at h
      exact ⟨rounds, us, h⟩
    · obtain ⟨hp, rounds, us, e1, e2, e3, e4, e5⟩ := hs
      refine Sound.mono ?_ (verifyRound_sofar self hp e5 x)
      rintro s' ⟨hp', points, fork, u, c, k1, k2, k3, k4⟩
      refine ⟨hp', rounds ++ [(points, fork)], us ++ [u], by simp [e1], ?_, ?_, by simp [e4], ?_⟩
      · intro r hr
        rcases List.mem_append.1 hr with hr | hr
        · exact e2 r hr
        · cases List.mem_singleton.1 hr
          exact k1
      · rw [k3]
        exact List.rel_append e3 (.cons k2 .nil)
      · rw [List.map_append, List.zip_append (by rw [List.length_map, e1, e4]), ← List.append_assoc]
        exact k4
  refine skip fun gNew => ?_
  refine skip fun g => ?_
  refine skip fun _ => ?_
  obtain ⟨T, st, hT, -, -⟩ := e5
  exact (sound_ret _ _).2 ⟨rounds, us, T, e1, e2, e3, e4, hT⟩

theorem combineAll_five (k : ℕ) (K sOld gOld : CurvePoint F) (c : Committed F) (d : List AllocatedBit) :
    Sound w (combineAll E one k K sOld gOld c d) fun r => r.length = 5 := by
  unfold combineAll
  iterate 19 refine skip fun _ => ?_
  exact (sound_ret _ _).2 rfl

section
attribute [local irreducible] commitAll combineAll verifyInnerProduct Sound

theorem verifyProof_previous (h1 : w one = 1) (self : VerificationCircuit F S) {b : AllocatedBit} {base : Bool}
    (hb : b.Means w base) (K : CurvePoint F) {oldL newD newL : List AllocatedBit} {oldLv newDv newLv : List Bool}
    (hd : Bits w newD newDv) (hl : Bits w newL newLv) :
    Sound w (verifyProof E one self b K oldL newD newL) fun _ => base = false →
      ∃ (m : Messages F) (c : ChallengeBits) (gNew : F × F),
      (part newDv 128 128 = part oldLv 512 128 → part newDv 2048 (128 * self.params.k) =
        part oldLv 1152 (128 * self.params.k) → Previous self.params.k oldLv newLv newDv m c gNew) := by
  unfold verifyProof
  refine Sound.bind (commitAll_sofar h1 self K newD) fun ⟨c, t⟩ ⟨openings, yCur, x, yNew, z, o9, b1, b2, b3, ht⟩ => ?_
  refine skip fun sOld => ?_
  refine skip fun _ => ?_
  refine skip fun gOld => ?_
  refine skip fun _ => ?_
  refine Sound.bind (combineAll_five _ _ _ _ _ _) fun instances hi => ?_
  refine Sound.bind (innerProduct_sofar self b ht hi) fun ⟨gNew, chs⟩ ⟨rounds, us, T, e1, e2, e3, e4, e5⟩ => ?_
  refine Sound.bind (pointIs_bits h1 hb hl _ _) fun _ f1 => ?_
  refine Sound.bind (slice_bits hl _ _) fun s1 g1 => ?_
  refine Sound.bind (equal_bits h1 hb b3 g1) fun _ f2 => ?_
  refine Sound.bind (pointIs_bits h1 hb hl _ _) fun _ f3 => ?_
  refine Sound.bind (P := fun _ => base = false → ∀ (i : ℕ) u, us[i]? = some u →
    part newLv (1152 + 128 * i) 128 = u ∧ part newDv (2304 + 128 * self.params.k + 128 * i) 128 = u) ?_ fun _ f4 => ?_
  · refine Sound.mono ?_ ((Logic.sound w).foldProg (fun n _ => base = false → ∀ i < n, ∀ u, us[i]? = some u →
      part newLv (1152 + 128 * i) 128 = u ∧ part newDv (2304 + 128 * self.params.k + 128 * i) 128 = u) 0
      (fun _ i hi => by omega) fun j e _ he hI => ?_)
    · intro _ h hf i u hu
      refine h hf i ?_ u hu
      have := (List.getElem?_eq_some_iff.1 hu).1
      rw [Nat.zero_add, List.length_zipIdx, e3.length_eq]
      exact this
    · obtain ⟨c, i⟩ := e
      rw [List.getElem?_zipIdx] at he
      obtain ⟨c', hc', he⟩ := Option.map_eq_some_iff.1 he
      cases he
      rw [Nat.zero_add] at hI ⊢
      obtain ⟨hj, rfl⟩ := List.getElem?_eq_some_iff.1 hc'
      have hu := List.Forall₂.get e3 hj (by rw [← e3.length_eq]; exact hj)
      rw [List.get_eq_getElem, List.get_eq_getElem] at hu
      show Sound w _ _
      unfold challengeIs
      refine Sound.bind (slice_bits hl _ _) fun s1 g1 => ?_
      refine Sound.bind (equal_bits h1 hb hu g1) fun _ f1 => ?_
      refine Sound.bind (slice_bits hd _ _) fun s2 g2 => ?_
      refine (equal_bits h1 hb hu g2).mono fun _ f2 hf i hi u hiu => ?_
      rcases Nat.lt_succ_iff_lt_or_eq.1 hi with hi | rfl
      · exact hI hf i hi u hiu
      · obtain ⟨hi', rfl⟩ := List.getElem?_eq_some_iff.1 hiu
        rw [f2 hf]
        refine ⟨?_, ?_⟩
        · rw [← f2 hf, f1 hf]
          congr 1; omega
        · congr 1 <;> omega
  refine Sound.bind (slice_bits hd _ _) fun s3 g3 => ?_
  refine Sound.bind (equal_bits h1 hb b2 g3) fun _ f5 => ?_
  refine Sound.bind (slice_bits hd _ _) fun s4 g4 => ?_
  refine Sound.bind (equal_bits h1 hb b1 g4) fun _ f6 => ?_
  refine Sound.bind (slice_bits hd _ _) fun s5 g5 => ?_
  refine (equal_bits h1 hb b3 g5).mono fun _ f7 hf => ?_
  refine ⟨⟨coords w K, coords w c.r, coords w c.sCur, coords w c.tPositive, coords w c.tNegative, coords w c.c,
    coords w c.sNew, openings, rounds⟩, ⟨yCur, x, yNew, z, us⟩, coords w gNew, fun k1 k2 =>
    ⟨⟨o9, e2, e1.trans e4.symm, T, e5⟩, e4, f1 hf, (f2 hf).symm, f3 hf, f4 hf, (f5 hf).symm, (f6 hf).symm, (f7 hf).symm,
      k1, k2⟩⟩

end

/-- Bits that the circuit allocates -/
theorem privateBits_bits (l : List Bool) : Sound w (privateBits l : Prog F (List AllocatedBit)) fun bits =>
    ∃ v, Bits w bits v ∧ v.length = l.length := by
  refine Sound.mono ?_ ((Logic.sound w).mapProg (f := fun b => AllocatedBit.alloc (.ok b))
    (P := fun (_ : Bool) (b : AllocatedBit) => ∃ v, b.Means w v) (xs := l) fun _ _ => AllocatedBit.alloc_sound _)
  intro bits h
  have key : ∀ {l : List Bool} {bits : List AllocatedBit}, List.Forall₂ (fun _ b => ∃ v, b.Means w v) l bits →
      ∃ v, Bits w bits v ∧ v.length = l.length := by
    clear * -
    intro l bits h
    induction h with
    | nil => exact ⟨[], .nil, rfl⟩
    | cons h _ ih =>
      obtain ⟨v, hv⟩ := h
      obtain ⟨vs, h1, h2⟩ := ih
      exact ⟨v :: vs, .cons hv h1, by simp [h2]⟩
  exact key h

theorem basePayloadIs_bit (h1 : w one = 1) {b : AllocatedBit} {base : Bool} (hb : b.Means w base) {old : AllocatedBit}
    {v : Bool} (ho : old.Means w v) (bit : Bool) :
    Sound w (basePayloadIs one b (bit, old)) fun _ => base = true → v = bit := by
  unfold basePayloadIs
  refine Sound.bind (P := fun r => w r.1 * w r.2.1 = w r.2.2.1) ((sound_doMultiply _ _).2 fun x y z o hm => hm) fun ⟨x, y, z, o⟩ hm => ?_
  cases bit
  all_goals
    simp only [Bool.false_eq_true, if_false, if_true, sound_bind, sound_enforce, LC.eval_addVar, LC.eval_subVar,
      LC.eval_ofVar, h1, AllocatedBit.Means] at hb ho hm ⊢
    intro e1 e2 e3 ht
    subst ht
    rw [if_pos rfl] at hb
    have hx : w x = 0 := by
      rw [sub_eq_zero.1 e2, hb, mul_one, e3] at hm
      exact hm
    cases v <;> simp_all

theorem basePayload_bits (h1 : w one = 1) {b : AllocatedBit} {base : Bool} (hb : b.Means w base)
    {l : List AllocatedBit} {v payload : List Bool} (hl : Bits w l v) (hlen : v.length = payload.length) :
    Sound w (foldProg (fun _ e => basePayloadIs one b e) (payload.zip l) () : Prog F Unit) fun _ =>
      base = true → v = payload := by
  refine Sound.mono ?_ ((Logic.sound w).foldProg (fun n _ => base = true → ∀ i < n, v[i]? = payload[i]?) 0
      (fun _ i hi => by omega) fun j e _ he hI => ?_)
  · intro _ h ht
    have h := h ht
    rw [Nat.zero_add, List.length_zip, hl.length_eq, hlen, Nat.min_self] at h
    refine List.ext_getElem? fun i => ?_
    by_cases hi : i < payload.length
    · exact h i hi
    · rw [List.getElem?_eq_none (by omega), List.getElem?_eq_none (by omega)]
  · obtain ⟨bit, old⟩ := e
    obtain ⟨hj, he⟩ := List.getElem?_eq_some_iff.1 he
    rw [List.getElem_zip] at he
    cases he
    rw [List.length_zip] at hj
    have hj1 : j < payload.length := by omega
    have hj2 : j < l.length := by omega
    have hj3 : j < v.length := by omega
    have ho := List.Forall₂.get hl hj2 hj3
    rw [List.get_eq_getElem, List.get_eq_getElem] at ho
    refine Sound.mono (fun _ h ht i hi => ?_) (basePayloadIs_bit h1 hb ho payload[j])
    rw [Nat.zero_add] at hI
    rcases Nat.lt_succ_iff_lt_or_eq.1 (by omega : i < j + 1) with hi | rfl
    · exact hI ht i hi
    · rw [List.getElem?_eq_getElem hj3, List.getElem?_eq_getElem hj1, h ht]

section
attribute [local irreducible] verifyProof verifyDeferred Sound kCommitment

/-- The verification circuit for given public inputs -/
theorem synthesize_attests {E1 E2 : CurveConsts} {self : VerificationCircuit F S} (hs : self.WellShaped E2)
    {R : List Bool → List Bool → Prop} (hR : Demands self.inner R) {new l1 l2 d : List Bool}
    (hnew : new.length = 8 * self.newPayload.length) (hl1 : l1.length = leftoversBits self.params.k)
    (hl2 : l2.length = leftoversBits self.params.k) (hd : d.length = deferredBits self.params.k) (h1 : w one = 1) :
    SoundIn w ((new ++ l1 ++ l2 ++ d).map ofBool) (self.synthesize E1 E2 one) fun _ =>
      ∃ (base : Bool) (old oldL oldD : List Bool), LastStep F self.inner.basePayload self.params.k R new l2 d base
        old oldL oldD := by
  unfold VerificationCircuit.synthesize
  rw [List.map_append, List.map_append, List.map_append, List.append_assoc, List.append_assoc,
    ← List.append_nil (d.map ofBool)]
  have e0 : (match self.proof with
    | some proof => bytesBits proof.payload
    | none => self.inner.basePayload).length = self.inner.basePayload.length := by
    cases hp : self.proof with
    | none => rfl
    | some p =>
      show (bytesBits p.payload).length = _
      rw [length_bytesBits, (hs.proof p hp).payload]
  have e1 : (bitsOr (self.proof.map fun p => @Leftovers.toBytes _ _ _ _ _ _ (Proj.curveOps E2 F S) p.oldproof1)
      (leftoversBits self.params.k)).length = leftoversBits self.params.k :=
    bitsOr_length fun p hp => leftovers_length (hs.proof p hp).old1
  refine Example.soundIn_inputBits (by rw [hnew, length_bytesBits]) fun nb hnb => ?_
  refine Example.soundIn_inputBits (by rw [hl1]; exact bitsOr_length fun l hl => leftovers_length (hs.oldLeftovers l hl))
    fun lb1 hlb1 => ?_
  refine Example.soundIn_inputBits (by rw [hl2]; exact bitsOr_length fun l hl => leftovers_length (hs.newLeftovers l hl))
    fun lb2 hlb2 => ?_
  refine Example.soundIn_inputBits (by
    rw [hd]; exact bitsOr_length fun l hl => deferred_length (hs.deferred l hl).1 (hs.deferred l hl).2) fun db hdb => ?_
  show Sound w _ _
  iterate 4 refine skip fun _ => ?_
  refine Sound.bind (AllocatedBit.alloc_sound _) fun b ⟨base, hb⟩ => ?_
  split
  · exact (sound_panic _).2 trivial
  refine Sound.bind (privateBits_bits _) fun ob ⟨old, hob, holen⟩ => ?_
  refine Sound.bind (basePayload_bits h1 hb hob (holen.trans e0)) fun _ hbase => ?_
  refine Sound.bind (privateBits_bits _) fun olb ⟨oldL, holb, hollen⟩ => ?_
  refine skip fun bytes => ?_
  refine Sound.bind (privateBits_bits _) fun odb ⟨oldD, hodb, _⟩ => ?_
  split
  · exact (sound_panic _).2 trivial
  refine skip fun kc => ?_
  refine Sound.bind (C56_deferred_partial h1 _ _ _ hodb) fun _ ⟨hlen, hw, ht⟩ => ?_
  refine Sound.bind (verifyProof_previous (oldLv := oldL) h1 _ hb kc hdb hlb2) fun _ hprev => ?_
  refine Sound.bind (slice_bits hdb _ _) fun s1 g1 => ?_
  refine Sound.bind (slice_bits holb _ _) fun s2 g2 => ?_
  refine Sound.bind (equal_bits h1 hb g1 g2) fun _ f1 => ?_
  refine Sound.bind (slice_bits hdb _ _) fun s3 g3 => ?_
  refine Sound.bind (slice_bits holb _ _) fun s4 g4 => ?_
  refine Sound.bind (equal_bits h1 hb g3 g4) fun _ f2 => ?_
  refine Sound.mono (fun _ hr => ?_) (hR w one h1 ob nb old new hob hnb)
  refine ⟨base, old, oldL, oldD, hr, hbase, holen.trans e0, hollen.trans e1, hlen, hw, ht, fun hf => ?_⟩
  obtain ⟨m, c, g, h⟩ := hprev hf
  have e : olb.length = leftoversBits self.params.k := holb.length_eq.trans (hollen.trans e1)
  have f := f1 hf
  rw [e, leftoversBits, show 256 * 4 + 128 * (self.params.k + 1) - (256 * 4 + 128) = 128 * self.params.k by omega] at f
  exact ⟨m, c, g, h (f2 hf) ((congrArg (part d _) (by
    show 128 * self.params.k = 256 * 8 + 128 * self.params.k - 256 * 8
    omega)).trans f)⟩

end

end Recursion
end Halo
