import Verif.Lemmas.Recursion.Equal
import Verif.Lemmas.Gadget.EccMul
import Verif.Lemmas.Collapse
/-!
# Scalars, challenges and `compute_b` in the circuit
-/
namespace Halo
namespace Recursion
open Circuit
open Circuit.Sha256 (foldProg index)
variable {F : Type} [Field F] {w : Var → F} {one : Var} {hon : Bool}

theorem slice_holds {α : Type} {l : List α} {a b : ℕ} (h : hon = true → a ≤ b ∧ b ≤ l.length) :
    Holds hon w (slice l a b : Prog F (List α)) fun r => a ≤ b ∧ b ≤ l.length ∧ r = (l.take b).drop a := by
  rw [slice]
  split
  · rename_i hc
    exact Holds.ret ⟨hc.1, hc.2, rfl⟩
  · rename_i hc
    exact Holds.panic fun hh => hc (h hh)

theorem split_holds {α : Type} {n : ℕ} {l : List α} (h : hon = true → n ≤ l.length) :
    Holds hon w (split n l : Prog F (List α × List α)) fun r => n ≤ l.length ∧ r = (l.take n, l.drop n) := by
  rw [split]
  split
  · rename_i hc
    exact Holds.ret ⟨hc, rfl⟩
  · rename_i hc
    exact Holds.panic fun hh => hc (h hh)

theorem scalarValue_eq {bits : List AllocatedBit} {vs : List Bool} (h : BitsOk true w bits vs) :
    (scalarValue bits : F) = (bitsValue vs : F) := by
  have : ∀ v c : F, (bits.foldl (fun (s : F × F) bit =>
      (if bit.value = some true then s.1 + s.2 else s.1, s.2 + s.2)) (v, c)).1 = v + c * (bitsValue vs : F) := by
    induction h with
    | nil => simp [bitsValue]
    | @cons b x bits vs hb _ ih =>
      intro v c
      rw [List.foldl_cons, ih, hb.2 rfl, bitsValue]
      cases x <;> push_cast <;> simp <;> ring
  rw [scalarValue, this]
  ring

theorem obtainScalarFromBits_holds {bits : List AllocatedBit} {vs : List Bool} (h : BitsOk hon w bits vs) :
    Holds hon w (obtainScalarFromBits bits : Prog F (AllocatedNum F)) fun r =>
      r.Ok hon w ∧ w r.var = (bitsValue vs : F) := by
  refine Holds.bind (AllocatedNum.alloc_holds (u := scalarValue bits) fun _ => rfl) fun r hr => ?_
  refine Holds.bind (Holds.enforce fun hh => ?_) fun _ he => Holds.ret ⟨hr.1, ?_⟩
  · subst hh
    rw [LC.eval_subVar, eval_packBits h.means, hr.2 rfl, scalarValue_eq h, sub_self]
  · rw [LC.eval_subVar, eval_packBits h.means, sub_eq_zero] at he
    exact he.symm

section
variable [LawfulField F]

theorem challengeStep_holds (h1 : w one = 1) {bits : List AllocatedBit} {c : BitVec 128}
    (h : BitsOk hon w bits (bitsOf c)) {acc : Combination F} (ha : acc.Ok hon w) {i : ℕ} (hi : i < 64) :
    Holds hon w (challengeStep one bits acc i) fun r =>
      r.Ok hon w ∧ r.wire w = CurvePoint.endoScalar c (acc.wire w) i := by
  have hl : bits.length = 128 := by rw [h.length_eq, length_bitsOf]
  have get : ∀ j, (hj : j < 128) → ∃ b, bits[j]? = some b ∧ b.Ok hon w (c.getLsbD j) := by
    intro j hj
    refine ⟨bits[j], by simp [hl, hj], ?_⟩
    have := (List.forall₂_iff_get.1 h).2 j (by omega) (by simpa using hj)
    simpa [bitsOf] using this
  obtain ⟨bn, en, hn⟩ := get (i * 2) (by omega)
  obtain ⟨be, ee, hbe⟩ := get (i * 2 + 1) (by omega)
  have e2 : (FieldApi.fromU128 2 : F) = 2 := by
    rw [LawfulField.fromU128_eq]; simp
  rw [challengeStep, index, index, en, ee]
  simp only [orPanic]
  refine Holds.bind (Holds.ret (Q := fun b => b = bn) rfl) fun _ h => ?_
  subst h
  refine Holds.bind (Holds.ret (Q := fun b => b = be) rfl) fun _ h => ?_
  subst h
  rename_i bn be
  have hacc : ((acc.scale (FieldApi.fromU128 2)).add (.ofAllocated (.one one))).add
      ((Combination.ofAllocated (.ofBit bn)).scale (-FieldApi.fromU128 2)) |>.Ok hon w :=
    Combination.ok_add (Combination.ok_add (Combination.ok_scale _ ha)
      (Combination.ok_ofAllocated (AllocatedNum.one_ok h1)))
      (Combination.ok_scale _ (Combination.ok_ofAllocated (AllocatedNum.ofBit_ok hn)))
  have hw : (((acc.scale (FieldApi.fromU128 2)).add (.ofAllocated (.one one))).add
      ((Combination.ofAllocated (.ofBit bn)).scale (-FieldApi.fromU128 2))).wire w =
        acc.wire w + (acc.wire w + if c.getLsbD (i * 2) then -1 else 1) := by
    have := hn.1
    simp only [AllocatedBit.Means] at this
    simp only [Combination.wire_add, Combination.wire_scale, Combination.wire_ofAllocated, AllocatedNum.one, h1,
      AllocatedNum.ofBit, this, e2]
    cases c.getLsbD (i * 2) <;> simp <;> ring
  revert hacc hw
  generalize ((acc.scale (FieldApi.fromU128 2)).add (.ofAllocated (.one one))).add
      ((Combination.ofAllocated (.ofBit bn)).scale (-FieldApi.fromU128 2)) = acc'
  intro hacc hw
  rw [CurvePoint.endoScalar, ← hw]
  have hb := hbe.1
  simp only [AllocatedBit.Means] at hb
  cases hon
  · show Sound w _ _
    simp only [sound_bind, sound_doMultiply, sound_enforce, LC.eval_subLC, LC.eval_addVar, LC.eval_ofVar,
      Combination.eval_lc h1, LC.eval_sub, hb, Prog.pure_eq, sound_pure, Combination.wire_add,
      Combination.wire_ofNum, Num.wire_ofAllocated]
    intro x y z _ hm hx hy
    refine ⟨nofun, ?_⟩
    rw [← hm, sub_eq_zero.1 hy]
    cases hcc : c.getLsbD (i * 2 + 1)
    · simp [hcc] at hx ⊢; simp [hx]
    · simp [hcc, Coeff.value] at hx ⊢; linear_combination acc'.wire w * hx
  · show Complete w _ _
    have hv := hacc rfl
    rw [Combination.Honest] at hv
    simp only [complete_bind, complete_doMultiply, complete_enforce, LC.eval_subLC, LC.eval_addVar, LC.eval_ofVar,
      Combination.eval_lc h1, LC.eval_sub, hb, Prog.pure_eq, complete_pure, Combination.wire_add,
      Combination.wire_ofNum, Num.wire_ofAllocated, hv, hbe.2 rfl, orMissing_some, ok_bind, Option.map_some,
      assignedBy_some, both_some]
    refine ⟨_, rfl, rfl, fun x y z hx hy hz => ⟨?_, ?_, ?_, ?_⟩⟩
    · rw [hx]
      cases c.getLsbD (i * 2 + 1) <;> simp [Coeff.value]
    · rw [hy, sub_self]
    · exact Combination.ok_add hacc fun _ => Combination.honest_ofNum (Num.honest_ofAllocated (by
        rw [AllocatedNum.Honest, hz]))
    · rw [hz]
      cases c.getLsbD (i * 2 + 1) <;> simp
      ring

theorem getChallengeScalar_holds (h1 : w one = 1) {bits : List AllocatedBit} {c : BitVec 128}
    (h : BitsOk hon w bits (bitsOf c)) :
    Holds hon w (getChallengeScalar one bits : Prog F (AllocatedNum F)) fun r =>
      r.Ok hon w ∧ w r.var = Util.expandChallenge c := by
  have hl : bits.length = 128 := by rw [h.length_eq, length_bitsOf]
  rw [getChallengeScalar, if_neg (by simp [hl]), CurvePoint.expandChallenge_eq]
  have loop : ∀ (m k : ℕ), k + m ≤ 64 → ∀ acc : Combination F, acc.Ok hon w →
      Holds hon w (foldProg (challengeStep one bits) (List.range' k m) acc) fun r =>
        r.Ok hon w ∧ r.wire w = (List.range' k m).foldl (CurvePoint.endoScalar c) (acc.wire w) := by
    intro m
    induction m with
    | zero => exact fun k _ acc ha => Holds.ret ⟨ha, rfl⟩
    | succ m ih =>
      intro k hk acc ha
      rw [List.range'_succ, List.foldl_cons]
      refine Holds.bind (challengeStep_holds h1 h ha (by omega)) fun acc' h' => ?_
      rw [← h'.2]
      exact ih (k + 1) (by omega) acc' h'.1
  refine Holds.bind (loop 63 1 (by omega) _ fun _ => Combination.honest_ofNum (Num.honest_const _))
    fun acc hacc => ?_
  refine Holds.bind (AllocatedNum.alloc_holds (u := acc.wire w) fun hh => ?_) fun r hr => ?_
  · have := hacc.1 hh
    rw [Combination.Honest] at this
    rw [this, orMissing_some]
  refine Holds.bind (Holds.enforce fun hh => ?_) fun _ he => Holds.ret ⟨hr.1, ?_⟩
  · rw [LC.eval_subLC, LC.eval_ofVar, Combination.eval_lc h1, hr.2 hh, sub_self]
  · rw [LC.eval_subLC, LC.eval_ofVar, Combination.eval_lc h1, sub_eq_zero] at he
    rw [he, hacc.2, Combination.wire_ofNum, Num.wire_const]

end

/-! ### `compute_b` -/

theorem computeBRev_holds (h1 : w one = 1) : ∀ (us uis : List (AllocatedNum F)) (x : AllocatedNum F),
    us ≠ [] → us.length = uis.length → (∀ u ∈ us, u.Ok hon w) → (∀ u ∈ uis, u.Ok hon w) → x.Ok hon w →
    Holds hon w (computeBRev one x us uis) fun r => r.Ok hon w ∧
      Util.computeBRev (w x.var) (us.map fun u => w u.var) (uis.map fun u => w u.var) = some (r.wire w)
  | [], _, _, h, _, _, _, _ => (h rfl).elim
  | u :: us, [], _, _, h, _, _, _ => by simp at h
  | [u], ui :: uis, x, _, hl, hu, hui, hx => by
    have : uis = [] := by simpa using hl.symm
    subst this
    rw [computeBRev]
    refine Holds.bind (AllocatedNum.mul_holds hx (hu u (by simp))) fun t ht => Holds.ret ⟨?_, ?_⟩
    · exact Combination.ok_addAllocated (Combination.ok_ofAllocated (hui ui (by simp))) ht.1
    · simp only [List.map_cons, List.map_nil, Util.computeBRev, Combination.wire_addAllocated,
        Combination.wire_ofAllocated, ht.2]
      rw [mul_comm]
  | u :: v :: us, ui :: vi :: uis, x, _, hl, hu, hui, hx => by
    rw [computeBRev]
    · refine Holds.bind (AllocatedNum.mul_holds hx (hu u (by simp))) fun t ht => ?_
      refine Holds.bind (AllocatedNum.mul_holds hx hx) fun x2 hx2 => ?_
      refine Holds.bind (computeBRev_holds h1 (v :: us) (vi :: uis) x2 (by simp) (by simpa using hl)
        (fun a ha => hu a (by simp at ha ⊢; tauto)) (fun a ha => hui a (by simp at ha ⊢; tauto)) hx2.1)
        fun r hr => ?_
      refine Holds.bind (Combination.mul_holds h1 hr.1 (Combination.ok_addAllocated
        (Combination.ok_ofAllocated (hui ui (by simp))) ht.1)) fun p hp => Holds.ret ⟨?_, ?_⟩
      · exact Combination.ok_ofAllocated hp.1
      · have e := hr.2
        rw [hx2.2, ← pow_two] at e
        simp only [List.map_cons] at e ⊢
        rw [Util.computeBRev.eq_2 _ _ _ _ _ (by simp), e, Option.map_some, Combination.wire_ofAllocated, hp.2,
          Combination.wire_addAllocated, Combination.wire_ofAllocated, ht.2]
        congr 1
        ring
    · simp

theorem computeB_holds (h1 : w one = 1) {us uis : List (AllocatedNum F)} {x : AllocatedNum F}
    (hne : us ≠ []) (hl : us.length = uis.length) (hu : ∀ u ∈ us, u.Ok hon w) (hui : ∀ u ∈ uis, u.Ok hon w)
    (hx : x.Ok hon w) :
    Holds hon w (computeB one x us uis) fun r => r.Ok hon w ∧
      Util.computeB (w x.var) (us.map fun u => w u.var) (uis.map fun u => w u.var) = some (r.wire w) := by
  have : 0 < us.length := List.length_pos_iff.2 hne
  rw [computeB, if_neg (by omega)]
  refine (computeBRev_holds h1 us.reverse uis.reverse x (by simpa) (by simpa) (by simpa) (by simpa) hx).mono
    fun r hr => ⟨hr.1, ?_⟩
  rw [Util.computeB, if_neg (by simpa), if_neg (by simpa), ← List.map_reverse, ← List.map_reverse]
  exact hr.2

end Recursion
end Halo
