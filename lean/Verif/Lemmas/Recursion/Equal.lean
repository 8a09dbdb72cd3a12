import Verif.Lemmas.Recursion.Mode
/-!
# Equality unless in the base case, packing of bits
-/
namespace Halo
namespace Recursion
open Circuit
open Circuit.Sha256 (foldProg index)
variable {F : Type} [Field F] {w : Var → F} {one : Var} {hon : Bool}

theorem numEqual_sound (h1 : w one = 1) {b : AllocatedBit} {v : Bool} (hb : b.Means w v)
    (l r : Combination F) :
    Sound w (numEqualUnlessBaseCase one b l r) fun _ => v = true ∨ l.wire w = r.wire w := by
  simp only [AllocatedBit.Means] at hb
  simp only [numEqualUnlessBaseCase, sound_bind, sound_doMultiply, sound_enforce, LC.eval_subLC,
    LC.eval_addLC, LC.eval_ofVar, LC.eval_subVar, LC.eval_addVar, Combination.eval_lc h1, h1, hb]
  intro x y z _ hm hx hy hz
  cases v
  · right
    have e : w y = 1 := by simpa [sub_eq_zero] using hy
    rw [e, hz] at hm
    linear_combination hm - hx
  · exact .inl rfl

theorem numEqual_complete (h1 : w one = 1) {b : AllocatedBit} {v : Bool} (hb : b.Honest w v)
    {l r : Combination F} (hl : l.Honest w) (hr : r.Honest w) (h : v = true ∨ l.wire w = r.wire w) :
    Complete w (numEqualUnlessBaseCase one b l r) fun _ => True := by
  obtain ⟨hb, hv⟩ := hb
  simp only [AllocatedBit.Means] at hb
  rw [Combination.Honest] at hl hr
  simp only [numEqualUnlessBaseCase, complete_bind, complete_doMultiply, complete_enforce, LC.eval_subLC,
    LC.eval_addLC, LC.eval_ofVar, LC.eval_subVar, LC.eval_addVar, Combination.eval_lc h1, h1, hb, hl, hr, hv,
    orMissing_some, ok_bind, Option.map_some]
  refine ⟨_, rfl, ?_, fun x y z hx hy hz => ⟨by rw [hx]; ring, ?_, hz, trivial⟩⟩
  · rcases h with rfl | h
    · simp [ofBool]
    · simp [h]
  · rw [hy]
    cases v <;> simp [ofBool]

theorem numEqual_holds (h1 : w one = 1) {b : AllocatedBit} {v : Bool} (hb : b.Ok hon w v)
    {l r : Combination F} (hl : l.Ok hon w) (hr : r.Ok hon w)
    (h : hon = true → v = true ∨ l.wire w = r.wire w) :
    Holds hon w (numEqualUnlessBaseCase one b l r) fun _ => v = true ∨ l.wire w = r.wire w := by
  cases hon
  · exact numEqual_sound h1 hb.1 l r
  · exact (numEqual_complete h1 hb.honest (hl rfl) (hr rfl) (h rfl)).mono fun _ _ => h rfl

/-- A pair of bits -/
abbrev PairOk (hon : Bool) (w : Var → F) (p : AllocatedBit × AllocatedBit) (v : Bool × Bool) : Prop :=
  p.1.Ok hon w v.1 ∧ p.2.Ok hon w v.2

theorem packPairs_spec {pairs : List (AllocatedBit × AllocatedBit)} {vs : List (Bool × Bool)}
    (h : List.Forall₂ (PairOk hon w) pairs vs) :
    (packPairs pairs : Combination F × Combination F).1.wire w = (bitsValue (vs.map (·.1)) : F) ∧
    (packPairs pairs : Combination F × Combination F).2.wire w = (bitsValue (vs.map (·.2)) : F) ∧
    (packPairs pairs : Combination F × Combination F).1.Ok hon w ∧
    (packPairs pairs : Combination F × Combination F).2.Ok hon w := by
  have key : ∀ (c : F) (l r : Combination F), l.Ok hon w → r.Ok hon w →
      ∃ c' l' r', pairs.foldl (fun (s : F × Combination F × Combination F) p =>
        (s.1 + s.1, s.2.1.addScaled (.full s.1) (.ofAllocated (.ofBit p.1)),
          s.2.2.addScaled (.full s.1) (.ofAllocated (.ofBit p.2)))) (c, l, r) = (c', l', r') ∧
        l'.wire w = l.wire w + c * (bitsValue (vs.map (·.1)) : F) ∧
        r'.wire w = r.wire w + c * (bitsValue (vs.map (·.2)) : F) ∧ l'.Ok hon w ∧ r'.Ok hon w := by
    induction h with
    | nil => exact fun c l r hl hr => ⟨c, l, r, rfl, by simp [bitsValue], by simp [bitsValue], hl, hr⟩
    | @cons p v ps vs hp _ ih =>
      intro c l r hl hr
      obtain ⟨c', l', r', e, e1, e2, e3, e4⟩ := ih (c + c)
        (l.addScaled (.full c) (.ofAllocated (.ofBit p.1))) (r.addScaled (.full c) (.ofAllocated (.ofBit p.2)))
        (fun hh => Combination.honest_addScaled _ (hl hh)
          (Num.honest_ofAllocated (AllocatedNum.ofBit_ok hp.1 hh)))
        (fun hh => Combination.honest_addScaled _ (hr hh)
          (Num.honest_ofAllocated (AllocatedNum.ofBit_ok hp.2 hh)))
      refine ⟨c', l', r', e, ?_, ?_, e3, e4⟩
      · rw [e1]
        have := hp.1.1
        simp only [AllocatedBit.Means] at this
        simp only [Combination.wire_addScaled, Num.wire_ofAllocated, AllocatedNum.ofBit, this, List.map_cons,
          bitsValue, Coeff.value]
        cases v.1 <;> push_cast <;> simp <;> ring
      · rw [e2]
        have := hp.2.1
        simp only [AllocatedBit.Means] at this
        simp only [Combination.wire_addScaled, Num.wire_ofAllocated, AllocatedNum.ofBit, this, List.map_cons,
          bitsValue, Coeff.value]
        cases v.2 <;> push_cast <;> simp <;> ring
  obtain ⟨c', l', r', e, e1, e2, e3, e4⟩ := key 1 .zero .zero (fun _ => Combination.honest_zero)
    (fun _ => Combination.honest_zero)
  rw [packPairs, e]
  exact ⟨by simpa using e1, by simpa using e2, e3, e4⟩

theorem cast_bitsValue_inj [LawfulField F] {l l' : List Bool} (hl : l.length = l'.length)
    (h : l.length ≤ 254) (e : (bitsValue l : F) = (bitsValue l' : F)) : l = l' := by
  apply bitsValue_inj hl
  have b := (LawfulField.modulus_bound (F := F)).1
  have b1 : bitsValue l < modulus F := (bitsValue_lt l).trans_le ((Nat.pow_le_pow_right (by omega) h).trans b.le)
  have b2 : bitsValue l' < modulus F :=
    (bitsValue_lt l').trans_le ((Nat.pow_le_pow_right (by omega) (hl ▸ h)).trans b.le)
  have := congrArg LawfulField.val e
  rwa [LawfulField.val_of_lt b1, LawfulField.val_of_lt b2] at this

theorem equalChunks_holds [LawfulField F] (h1 : w one = 1) {b : AllocatedBit} {v : Bool} (hb : b.Ok hon w v) :
    ∀ {pairs : List (AllocatedBit × AllocatedBit)} {vs : List (Bool × Bool)},
    List.Forall₂ (PairOk hon w) pairs vs → (hon = true → v = true ∨ ∀ e ∈ vs, e.1 = e.2) →
    Holds hon w (foldProg (fun _ chunk => numEqualUnlessBaseCase (F := F) one b (packPairs chunk).1
      (packPairs chunk).2) (Sha256.chunks 250 pairs) ()) fun _ => v = true ∨ ∀ e ∈ vs, e.1 = e.2 := by
  intro pairs
  induction pairs using Sha256.chunks.induct 250 with
  | case1 l h =>
    intro vs hvs _
    have : l = [] := h.resolve_left (by omega)
    subst this
    cases hvs
    rw [Sha256.chunks, dif_pos (.inr rfl)]
    exact Holds.ret (.inr fun e he => by simp at he)
  | case2 l h ih =>
    intro vs hvs hh
    rw [Sha256.chunks, dif_neg h]
    have ht := List.forall₂_take 250 hvs
    have hd := List.forall₂_drop 250 hvs
    obtain ⟨p1, p2, p3, p4⟩ := packPairs_spec ht
    have hv : ∀ e, e ∈ vs ↔ e ∈ vs.take 250 ∨ e ∈ vs.drop 250 := fun e => by
      rw [← List.mem_append, List.take_append_drop]
    refine Holds.bind (numEqual_holds h1 hb p3 p4 fun hq => (hh hq).imp id fun he => ?_) fun _ hc => ?_
    · rw [p1, p2]
      congr 2
      exact List.map_congr_left fun e hm => he e ((hv e).2 (.inl hm))
    · refine Holds.mono (ih hd fun hq => (hh hq).imp id fun he e hm => he e ((hv e).2 (.inr hm))) fun _ hr => ?_
      rcases hc with hc | hc
      · exact .inl hc
      · refine hr.imp id fun hr e hm => ?_
        rcases (hv e).1 hm with hm | hm
        · rw [p1, p2] at hc
          have := cast_bitsValue_inj (by simp) (by simp) hc
          exact List.map_inj_left.1 this e hm
        · exact hr e hm

theorem equalUnlessBaseCase_holds [LawfulField F] (h1 : w one = 1) {b : AllocatedBit} {v : Bool}
    (hb : b.Ok hon w v) {l r : List AllocatedBit} {x y : List Bool} (hl : BitsOk hon w l x)
    (hr : BitsOk hon w r y) (h : hon = true → x.length = y.length ∧ (v = true ∨ x = y)) :
    Holds hon w (equalUnlessBaseCase (F := F) one b l r) fun _ => v = true ∨ x = y := by
  rw [equalUnlessBaseCase]
  refine Holds.guard (fun hh => ?_) fun hc => ?_
  · rw [hl.length_eq, hr.length_eq]
    simpa using (h hh).1
  rw [not_not, hl.length_eq, hr.length_eq] at hc
  have hp : List.Forall₂ (PairOk hon w) (l.zip r) (x.zip y) := by
    clear h h1
    induction hl generalizing r y with
    | nil => simp
    | cons h1 _ ih =>
      cases hr with
      | nil => simp at hc
      | cons h2 h3 => exact .cons ⟨h1, h2⟩ (ih h3 (by simpa using hc))
  have hx : (∀ e ∈ x.zip y, e.1 = e.2) ↔ x = y := by
    clear h hp hl hr
    induction x generalizing y with
    | nil => cases y <;> simp_all
    | cons a x ih =>
      cases y with
      | nil => simp at hc
      | cons b y =>
        have := ih (y := y) (by simpa using hc)
        simp only [List.zip_cons_cons, List.mem_cons, forall_eq_or_imp, this, List.cons.injEq]
  refine (equalChunks_holds h1 hb hp fun hh => (h hh).2.imp id hx.2).mono fun _ hr => hr.imp id hx.1

end Recursion
end Halo
