import Verif.Spec.Gadget.Bits
import Verif.Lemmas.Gadget
import Verif.Lemmas.LinComb
import Mathlib.Tactic.LinearCombination
/-!
# The Boolean gadgets are sound and complete
-/
namespace Halo
namespace Circuit
variable {F : Type} [Field F] {w : Var → F}

attribute [local simp] Prog.pure_eq sound_bind complete_bind sound_doAlloc sound_doAllocInput
  sound_enforce sound_doMultiply complete_doAlloc complete_doAllocInput complete_enforce
  complete_doMultiply

@[simp] theorem assignedBy_some {α β : Type} (a : α) (v : Option β) : assignedBy (some a) v = v := rfl
@[simp] theorem orMissing_some {α : Type} (a : α) : orMissing (some a) = .ok a := rfl
@[simp] theorem ok_bind {ε α β : Type} (a : α) (f : α → Except ε β) : (Except.ok a >>= f) = f a := rfl
@[simp] theorem ok_map {ε α β : Type} (a : α) (f : α → β) :
    (Except.ok a : Except ε α).map f = .ok (f a) := rfl
@[simp] theorem ok_toOption {ε α : Type} (a : α) : (Except.ok a : Except ε α).toOption = some a := rfl

theorem bit_cases {x : F} (h : x * x = x) : ∃ v : Bool, x = if v then 1 else 0 := by
  have : x * (x - 1) = 0 := by linear_combination h
  rcases mul_eq_zero.1 this with h | h
  · exact ⟨false, by simpa using h⟩
  · exact ⟨true, by simpa using sub_eq_zero.1 h⟩

namespace AllocatedBit

theorem check_sound (b : AllocatedBit) : Sound w b.check fun _ => ∃ v, b.Means w v := by
  simp only [check, sound_bind, sound_doMultiply, sound_enforce, LC.eval_subVar, LC.eval_ofVar, sub_eq_zero]
  intro a b' c o hm h1 h2 h3
  rw [h1, h2, h3] at hm
  exact bit_cases hm

theorem check_complete {b : AllocatedBit} {v : Bool} (h : b.Honest w v) :
    Complete w (b.check (F := F)) fun _ => True := by
  obtain ⟨h1, h2⟩ := h
  simp only [Means] at h1
  simp [check, h2, ofBool, h1, sub_eq_zero]
  intro a b c h1 h2 h3; simp [h1, h2, h3]

theorem alloc_sound (value) : Sound w (alloc value) fun b => ∃ v, b.Means w v := by
  simp only [alloc, Prog.pure_eq, sound_bind, sound_doMultiply, sound_enforce, LC.eval_subVar, LC.eval_ofVar, sub_eq_zero, sound_pure]
  intro a b' c o hm h1 h2
  rw [← h2, ← h1] at hm
  exact bit_cases hm

theorem alloc_complete (v : Bool) : Complete w (alloc (.ok v)) fun b => b.Honest w v := by
  simp [alloc, Honest, Means, ofBool, sub_eq_zero]
  intro a b c h1 h2 h3; simp [h1, h2, h3]

theorem allocInputUnchecked_complete (v : Bool) :
    Complete w (allocInputUnchecked (.ok v)) fun b => b.Honest w v := by
  simp [allocInputUnchecked, Honest, Means, ofBool]

theorem one_honest {one : Var} (h : w one = 1) : (AllocatedBit.one one).Honest w true := by
  simp [AllocatedBit.one, Honest, Means, h]

variable {a b : AllocatedBit} {x y : Bool} {one : Var}

theorem xor_sound (ha : a.Means w x) (hb : b.Means w y) :
    Sound w (xor a b) fun r => r.Means w (x ^^ y) := by
  simp only [Means] at *
  simp only [xor, Prog.pure_eq, sound_bind, sound_doAlloc, sound_doMultiply, sound_enforce, LC.eval_subVar, LC.eval_addVar, LC.eval_ofVar, sub_eq_zero, sound_pure]
  intro r o d e f o' hm h1 h2 h3
  rw [ha, hb] at *
  rw [← h1, ← h2, ← h3] at hm
  cases x <;> cases y <;> simp at hm ⊢ <;> linear_combination hm

theorem xor_complete (ha : a.Honest w x) (hb : b.Honest w y) :
    Complete w (xor a b) fun r => r.Honest w (x ^^ y) := by
  obtain ⟨h1, h2⟩ := ha
  obtain ⟨h3, h4⟩ := hb
  simp only [Means] at h1 h3
  simp [xor, h2, h4, ofBool, Honest, Means, h1, h3, sub_eq_zero]
  refine fun r hr => ⟨by cases x <;> cases y <;> simp, fun a b c h1 h2 h3 => ?_⟩
  rw [h1, h2, h3]
  cases x <;> cases y <;> simp [hr]

theorem and_sound (ha : a.Means w x) (hb : b.Means w y) :
    Sound w (and a b) fun r => r.Means w (x && y) := by
  simp only [Means] at *
  simp only [and, Prog.pure_eq, sound_bind, sound_doMultiply, sound_enforce, LC.eval_subVar, LC.eval_ofVar, sub_eq_zero, sound_pure]
  intro d e f o hm h1 h2
  rw [h1, h2, ha, hb] at hm
  rw [← hm]; cases x <;> cases y <;> simp

theorem and_complete (ha : a.Honest w x) (hb : b.Honest w y) :
    Complete w (and a b) fun r => r.Honest w (x && y) := by
  obtain ⟨h1, h2⟩ := ha
  obtain ⟨h3, h4⟩ := hb
  simp only [Means] at h1 h3
  cases x <;> cases y <;> simp [and, h2, h4, ofBool, Honest, Means, h1, h3, sub_eq_zero]
  all_goals intro a b c h1 h2 h3; simp [h1, h2, h3]

theorem andNot_sound (h1 : w one = 1) (ha : a.Means w x) (hb : b.Means w y) :
    Sound w (andNot one a b) fun r => r.Means w (x && !y) := by
  simp only [Means] at *
  simp only [andNot, Prog.pure_eq, sound_bind, sound_doMultiply, sound_enforce, LC.eval_subVar, LC.eval_addVar, LC.eval_ofVar, sub_eq_zero, sound_pure]
  intro d e f o hm h2 h3
  rw [← eq_sub_iff_add_eq] at h3
  rw [h2, h3, ha, hb, h1] at hm
  rw [← hm]; cases x <;> cases y <;> simp

theorem andNot_complete (h1 : w one = 1) (ha : a.Honest w x) (hb : b.Honest w y) :
    Complete w (andNot one a b) fun r => r.Honest w (x && !y) := by
  obtain ⟨h1, h2⟩ := ha
  obtain ⟨h3, h4⟩ := hb
  simp only [Means] at h1 h3
  cases x <;> cases y <;> simp [andNot, h2, h4, ofBool, Honest, Means, h1, h3, sub_eq_zero]
  all_goals intro a b c h1 h2 h3; simp [*]

theorem nor_sound (h1 : w one = 1) (ha : a.Means w x) (hb : b.Means w y) :
    Sound w (nor one a b) fun r => r.Means w (!x && !y) := by
  simp only [Means] at *
  simp only [nor, Prog.pure_eq, sound_bind, sound_doMultiply, sound_enforce, LC.eval_subVar, LC.eval_addVar, LC.eval_ofVar, sub_eq_zero, sound_pure]
  intro d e f o hm h2 h3
  rw [← eq_sub_iff_add_eq] at h2 h3
  rw [h2, h3, ha, hb, h1] at hm
  rw [← hm]; cases x <;> cases y <;> simp

theorem nor_complete (h1 : w one = 1) (ha : a.Honest w x) (hb : b.Honest w y) :
    Complete w (nor one a b) fun r => r.Honest w (!x && !y) := by
  obtain ⟨h1, h2⟩ := ha
  obtain ⟨h3, h4⟩ := hb
  simp only [Means] at h1 h3
  cases x <;> cases y <;> simp [nor, h2, h4, ofBool, Honest, Means, h1, h3, sub_eq_zero]
  all_goals intro a b c h1 h2 h3; simp [*]

end AllocatedBit

namespace Boolean
variable {a b c : Boolean} {x y z : Bool} {one : Var}

theorem Honest.means (h : a.Honest w x) : a.Means w x := by
  cases a
  · exact h.1
  · exact h.1
  · exact h

theorem Honest.getValue (h : a.Honest w x) : a.getValue = some x := by
  cases a
  · exact h.2
  · simp only [Honest] at h; simp [Boolean.getValue, h.2]
  · simp only [Honest] at h; simp [Boolean.getValue, h]

theorem honest_iff : a.Honest w x ↔ a.Means w x ∧ a.getValue = some x := by
  refine ⟨fun h => ⟨h.means, h.getValue⟩, ?_⟩
  rintro ⟨h1, h2⟩
  cases a
  case is => exact ⟨h1, h2⟩
  case not b =>
    refine ⟨h1, ?_⟩
    simp only [Boolean.getValue] at h2
    cases hb : b.value <;> simp_all
  case constant => exact h1

/-- the value of the linear combination -/
theorem eval_lc (h1 : w one = 1) (ha : a.Means w x) (k : Coeff F) :
    (a.lc one k).eval w = if x then k.value else 0 := by
  cases a
  · simp only [Means, AllocatedBit.Means] at ha
    simp [lc, ha]
  · simp only [Means, AllocatedBit.Means] at ha
    cases x <;> simp [lc, ha, h1]
  · simp only [Means] at ha
    subst ha
    rename_i b
    cases b <;> simp [lc, h1]

theorem means_negate (h : a.Means w x) : a.negate.Means w (!x) := by
  cases a
  · simpa [Means, negate] using h
  · simpa [Means, negate] using h
  · simpa [Means, negate] using h

theorem means_of_negate (h : a.Means w (!x)) : a.negate.Means w x := by
  simpa using means_negate h

theorem honest_negate (h : a.Honest w x) : a.negate.Honest w (!x) := by
  cases a
  · simpa [Honest, negate] using h
  · simpa [Honest, negate] using h
  · simpa [Honest, negate] using h

theorem honest_of_negate (h : a.Honest w (!x)) : a.negate.Honest w x := by
  simpa using honest_negate h

theorem enforceEqual_sound (h1 : w one = 1) (ha : a.Means w x) (hb : b.Means w y) :
    Sound w (enforceEqual one a b) fun _ => x = y := by
  have hab : ((if x then 1 else 0 : F) = if y then 1 else 0) → x = y := by
    cases x <;> cases y <;> simp
  unfold enforceEqual
  split
  · simp only [Means] at ha hb
    subst ha hb
    split
    · assumption
    · trivial
  · simp only [Means] at ha
    subst ha
    simp only [sound_enforce, LC.eval_subVar, eval_lc h1 hb, h1, sub_eq_zero, Coeff.value_one]
    exact fun h => hab (by simpa using h.symm)
  · simp only [Means] at hb
    subst hb
    simp only [sound_enforce, LC.eval_subVar, eval_lc h1 ha, h1, sub_eq_zero, Coeff.value_one]
    exact fun h => hab (by simpa using h)
  · simp only [Means] at ha
    subst ha
    simp only [sound_enforce, eval_lc h1 hb, Coeff.value_one]
    exact fun h => hab (by simpa using h.symm)
  · simp only [Means] at hb
    subst hb
    simp only [sound_enforce, eval_lc h1 ha, Coeff.value_one]
    exact fun h => hab (by simpa using h)
  · simp only [sound_enforce, LC.eval_subLC, eval_lc h1 ha, eval_lc h1 hb, sub_eq_zero, Coeff.value_one]
    exact hab

theorem enforceEqual_complete (h1 : w one = 1) (ha : a.Honest w x) (hb : b.Honest w x) :
    Complete w (enforceEqual one a b) fun _ => True := by
  have ha' := ha.means
  have hb' := hb.means
  unfold enforceEqual
  split
  · simp only [Means] at ha' hb'
    subst ha' hb'
    simp
  · simp only [Means] at ha'
    subst ha'
    simp [complete_enforce, eval_lc h1 hb', h1]
  · simp only [Means] at hb'
    subst hb'
    simp [complete_enforce, eval_lc h1 ha', h1]
  · simp only [Means] at ha'
    subst ha'
    simp [complete_enforce, eval_lc h1 hb']
  · simp only [Means] at hb'
    subst hb'
    simp [complete_enforce, eval_lc h1 ha']
  · simp [complete_enforce, eval_lc h1 ha', eval_lc h1 hb']

theorem xor_sound (ha : a.Means w x) (hb : b.Means w y) :
    Sound w (xor a b) fun r => r.Means w (x ^^ y) := by
  unfold xor
  split
  · simp only [Means] at ha; subst ha; simpa using hb
  · simp only [Means] at hb; subst hb; simpa using ha
  · simp only [Means] at ha; subst ha; simpa using means_negate hb
  · simp only [Means] at hb; subst hb; simpa using means_negate ha
  · refine Sound.bind (AllocatedBit.xor_sound ha hb) fun r hr => means_of_negate (a := .is r) ?_
    revert hr; cases x <;> cases y <;> exact id
  · refine Sound.bind (AllocatedBit.xor_sound hb ha) fun r hr => means_of_negate (a := .is r) ?_
    revert hr; cases x <;> cases y <;> exact id
  · exact Sound.bind (AllocatedBit.xor_sound ha hb) fun r hr => hr
  · refine Sound.bind (AllocatedBit.xor_sound ha hb) fun r hr => ?_
    revert hr; cases x <;> cases y <;> exact id

theorem xor_complete (ha : a.Honest w x) (hb : b.Honest w y) :
    Complete w (xor a b) fun r => r.Honest w (x ^^ y) := by
  unfold xor
  split
  · simp only [Honest] at ha; subst ha; simpa using hb
  · simp only [Honest] at hb; subst hb; simpa using ha
  · simp only [Honest] at ha; subst ha; simpa using honest_negate hb
  · simp only [Honest] at hb; subst hb; simpa using honest_negate ha
  · refine Complete.bind (AllocatedBit.xor_complete ha hb) fun r hr => honest_of_negate (a := .is r) ?_
    revert hr; cases x <;> cases y <;> exact id
  · refine Complete.bind (AllocatedBit.xor_complete hb ha) fun r hr => honest_of_negate (a := .is r) ?_
    revert hr; cases x <;> cases y <;> exact id
  · exact Complete.bind (AllocatedBit.xor_complete ha hb) fun r hr => hr
  · refine Complete.bind (AllocatedBit.xor_complete ha hb) fun r hr => ?_
    revert hr; cases x <;> cases y <;> exact id

theorem and_sound (h1 : w one = 1) (ha : a.Means w x) (hb : b.Means w y) :
    Sound w (and one a b) fun r => r.Means w (x && y) := by
  unfold and
  split
  · simp only [Means] at ha; subst ha; simp [Means]
  · simp only [Means] at hb; subst hb; simp [Means]
  · simp only [Means] at ha; subst ha; simpa using hb
  · simp only [Means] at hb; subst hb; simpa using ha
  · refine Sound.bind (AllocatedBit.andNot_sound h1 ha hb) fun r hr => ?_
    revert hr; cases x <;> cases y <;> exact id
  · refine Sound.bind (AllocatedBit.andNot_sound h1 hb ha) fun r hr => ?_
    revert hr; cases x <;> cases y <;> exact id
  · refine Sound.bind (AllocatedBit.nor_sound h1 ha hb) fun r hr => ?_
    revert hr; cases x <;> cases y <;> exact id
  · exact Sound.bind (AllocatedBit.and_sound ha hb) fun r hr => hr

theorem and_complete (h1 : w one = 1) (ha : a.Honest w x) (hb : b.Honest w y) :
    Complete w (and one a b) fun r => r.Honest w (x && y) := by
  unfold and
  split
  · simp only [Honest] at ha; subst ha; simp [Honest]
  · simp only [Honest] at hb; subst hb; simp [Honest]
  · simp only [Honest] at ha; subst ha; simpa using hb
  · simp only [Honest] at hb; subst hb; simpa using ha
  · refine Complete.bind (AllocatedBit.andNot_complete h1 ha hb) fun r hr => ?_
    revert hr; cases x <;> cases y <;> exact id
  · refine Complete.bind (AllocatedBit.andNot_complete h1 hb ha) fun r hr => ?_
    revert hr; cases x <;> cases y <;> exact id
  · refine Complete.bind (AllocatedBit.nor_complete h1 ha hb) fun r hr => ?_
    revert hr; cases x <;> cases y <;> exact id
  · exact Complete.bind (AllocatedBit.and_complete ha hb) fun r hr => hr

theorem chGeneral_sound (h1 : w one = 1) (ha : a.Means w x) (hb : b.Means w y) (hc : c.Means w z)
    (v) : Sound w (chGeneral one a b c v) fun r => r.Means w ((x && y) ^^ (!x && z)) := by
  simp only [chGeneral, Prog.pure_eq, sound_bind, sound_doAlloc, sound_doMultiply, sound_enforce,
    LC.eval_subVar, LC.eval_subLC, LC.eval_ofVar, eval_lc h1 ha, eval_lc h1 hb, eval_lc h1 hc,
    sub_eq_zero, sound_pure, Coeff.value_one, Means, AllocatedBit.Means]
  intro r o d e f o' hm h1 h2 h3
  rw [← h1, ← h2, ← h3] at hm
  cases x <;> cases y <;> cases z <;> simp at hm ⊢ <;> linear_combination -hm

theorem chGeneral_complete (h1 : w one = 1) (ha : a.Honest w x) (hb : b.Honest w y)
    (hc : c.Honest w z) : Complete w (chGeneral one a b c (some ((x && y) ^^ (!x && z))))
      fun r => r.Honest w ((x && y) ^^ (!x && z)) := by
  simp only [chGeneral, Prog.pure_eq, complete_bind, complete_doAlloc, complete_doMultiply,
    complete_enforce, LC.eval_subVar, LC.eval_subLC, LC.eval_ofVar, eval_lc h1 ha.means,
    eval_lc h1 hb.means, eval_lc h1 hc.means, ha.getValue, hb.getValue, hc.getValue,
    orMissing_some, ok_map, ok_bind, ofBool, complete_pure,
    sub_eq_zero, Coeff.value_one, Honest, AllocatedBit.Honest, AllocatedBit.Means]
  refine ⟨_, rfl, fun r hr => ⟨_, rfl, ?_, fun d e f hd he hf => ?_⟩⟩
  · cases x <;> cases y <;> cases z <;> simp
  · rw [hr, hd, he, hf]; simp

theorem sha256Ch_sound (h1 : w one = 1) (ha : a.Means w x) (hb : b.Means w y) (hc : c.Means w z) :
    Sound w (sha256Ch one a b c) fun r => r.Means w ((x && y) ^^ (!x && z)) := by
  unfold sha256Ch
  simp only []
  split
  · simp only [Means] at ha hb hc; subst ha hb hc; simp [getValue, Means]
  · simp only [Means] at ha; subst ha; simpa using hc
  · simp only [Means] at hb; subst hb
    exact (and_sound h1 (means_negate ha) hc).mono fun r hr => by simpa using hr
  · simp only [Means] at hc; subst hc
    exact (and_sound h1 ha hb).mono fun r hr => by simpa using hr
  · simp only [Means] at hc; subst hc
    refine Sound.bind (and_sound h1 ha (means_negate hb)) fun r hr => ?_
    have := means_negate hr
    revert this; cases x <;> cases y <;> exact id
  · simp only [Means] at hb; subst hb
    refine Sound.bind (and_sound h1 (means_negate ha) (means_negate hc)) fun r hr => ?_
    have := means_negate hr
    revert this; cases x <;> cases z <;> exact id
  · exact chGeneral_sound h1 ha hb hc _

theorem sha256Ch_complete (h1 : w one = 1) (ha : a.Honest w x) (hb : b.Honest w y)
    (hc : c.Honest w z) :
    Complete w (sha256Ch one a b c) fun r => r.Honest w ((x && y) ^^ (!x && z)) := by
  unfold sha256Ch
  simp only [ha.getValue, hb.getValue, hc.getValue]
  split
  · simp [Honest]
  · simp only [Honest] at ha; subst ha; simpa using hc
  · simp only [Honest] at hb; subst hb
    exact (and_complete h1 (honest_negate ha) hc).mono fun r hr => by simpa using hr
  · simp only [Honest] at hc; subst hc
    exact (and_complete h1 ha hb).mono fun r hr => by simpa using hr
  · simp only [Honest] at hc; subst hc
    refine Complete.bind (and_complete h1 ha (honest_negate hb)) fun r hr => ?_
    have := honest_negate hr
    revert this; cases x <;> cases y <;> exact id
  · simp only [Honest] at hb; subst hb
    refine Complete.bind (and_complete h1 (honest_negate ha) (honest_negate hc)) fun r hr => ?_
    have := honest_negate hr
    revert this; cases x <;> cases z <;> exact id
  · exact chGeneral_complete h1 ha hb hc

theorem majGeneral_sound (h1 : w one = 1) (ha : a.Means w x) (hb : b.Means w y) (hc : c.Means w z)
    (v) : Sound w (majGeneral one a b c v)
      fun r => r.Means w (((x && y) ^^ (x && z)) ^^ (y && z)) := by
  simp only [majGeneral, sound_bind, sound_doAlloc]
  intro r o
  refine (and_sound h1 hb hc).mono fun bc hbc => ?_
  simp only [Prog.pure_eq, sound_doMultiply, sound_enforce,
    LC.eval_subVar, LC.eval_subLC, LC.eval_addLC, eval_lc h1 ha, eval_lc h1 hb, eval_lc h1 hc,
    eval_lc h1 hbc, sub_eq_zero, sound_pure, Coeff.value_one, Means, AllocatedBit.Means]
  intro d e f o' hm h1 h2 h3
  rw [← h1, ← h2, ← h3] at hm
  cases x <;> cases y <;> cases z <;> simp at hm ⊢ <;> first | linear_combination hm | exact hm.symm

theorem majGeneral_complete (h1 : w one = 1) (ha : a.Honest w x) (hb : b.Honest w y)
    (hc : c.Honest w z) :
    Complete w (majGeneral one a b c (some (((x && y) ^^ (x && z)) ^^ (y && z))))
      fun r => r.Honest w (((x && y) ^^ (x && z)) ^^ (y && z)) := by
  simp only [majGeneral, complete_bind, complete_doAlloc, orMissing_some, ok_map]
  refine ⟨_, rfl, fun r hr => ?_⟩
  refine (and_complete h1 hb hc).mono fun bc hbc => ?_
  simp only [Prog.pure_eq, complete_doMultiply,
    complete_enforce, LC.eval_subVar, LC.eval_subLC, LC.eval_addLC, eval_lc h1 ha.means,
    eval_lc h1 hb.means, eval_lc h1 hc.means, eval_lc h1 hbc.means, hbc.getValue,
    ha.getValue, hb.getValue, hc.getValue, orMissing_some, ok_bind, ofBool, complete_pure,
    sub_eq_zero, Coeff.value_one, Honest, AllocatedBit.Honest, AllocatedBit.Means]
  refine ⟨_, rfl, ?_, fun d e f hd he hf => ?_⟩
  · cases x <;> cases y <;> cases z <;> simp
  · rw [hr, hd, he, hf]; simp [ofBool]

theorem sha256Maj_sound (h1 : w one = 1) (ha : a.Means w x) (hb : b.Means w y) (hc : c.Means w z) :
    Sound w (sha256Maj one a b c) fun r => r.Means w (((x && y) ^^ (x && z)) ^^ (y && z)) := by
  unfold sha256Maj
  simp only []
  split
  · simp only [Means] at ha hb hc; subst ha hb hc; simp [getValue, Means]
  · simp only [Means] at ha; subst ha
    exact (and_sound h1 hb hc).mono fun r hr => by simpa using hr
  · simp only [Means] at hb; subst hb
    exact (and_sound h1 ha hc).mono fun r hr => by simpa using hr
  · simp only [Means] at hc; subst hc
    exact (and_sound h1 ha hb).mono fun r hr => by simpa using hr
  · simp only [Means] at hc; subst hc
    refine Sound.bind (and_sound h1 (means_negate ha) (means_negate hb)) fun r hr => ?_
    have := means_negate hr
    revert this; cases x <;> cases y <;> exact id
  · simp only [Means] at hb; subst hb
    refine Sound.bind (and_sound h1 (means_negate ha) (means_negate hc)) fun r hr => ?_
    have := means_negate hr
    revert this; cases x <;> cases z <;> exact id
  · simp only [Means] at ha; subst ha
    refine Sound.bind (and_sound h1 (means_negate hb) (means_negate hc)) fun r hr => ?_
    have := means_negate hr
    revert this; cases y <;> cases z <;> exact id
  · exact majGeneral_sound h1 ha hb hc _

theorem sha256Maj_complete (h1 : w one = 1) (ha : a.Honest w x) (hb : b.Honest w y)
    (hc : c.Honest w z) :
    Complete w (sha256Maj one a b c) fun r => r.Honest w (((x && y) ^^ (x && z)) ^^ (y && z)) := by
  unfold sha256Maj
  simp only [ha.getValue, hb.getValue, hc.getValue]
  split
  · simp [Honest]
  · simp only [Honest] at ha; subst ha
    exact (and_complete h1 hb hc).mono fun r hr => by simpa using hr
  · simp only [Honest] at hb; subst hb
    exact (and_complete h1 ha hc).mono fun r hr => by simpa using hr
  · simp only [Honest] at hc; subst hc
    exact (and_complete h1 ha hb).mono fun r hr => by simpa using hr
  · simp only [Honest] at hc; subst hc
    refine Complete.bind (and_complete h1 (honest_negate ha) (honest_negate hb)) fun r hr => ?_
    have := honest_negate hr
    revert this; cases x <;> cases y <;> exact id
  · simp only [Honest] at hb; subst hb
    refine Complete.bind (and_complete h1 (honest_negate ha) (honest_negate hc)) fun r hr => ?_
    have := honest_negate hr
    revert this; cases x <;> cases z <;> exact id
  · simp only [Honest] at ha; subst ha
    refine Complete.bind (and_complete h1 (honest_negate hb) (honest_negate hc)) fun r hr => ?_
    have := honest_negate hr
    revert this; cases y <;> cases z <;> exact id
  · exact majGeneral_complete h1 ha hb hc

end Boolean
end Circuit
end Halo
