import Verif.Spec.Gadget.Nums
import Verif.Lemmas.Gadget.Boolean
import Verif.Lemmas.LawfulField
import Mathlib.Tactic.FieldSimp
/-!
# The number gadgets are sound and complete
-/
namespace Halo
namespace Circuit
variable {F : Type} [Field F] {w : Var → F} {one : Var}

@[simp] theorem both_some {α β γ : Type} (f : α → β → γ) (a : α) (b : β) :
    both f (some a) (some b) = some (f a b) := rfl

theorem both_eq_some {α β γ : Type} {f : α → β → γ} {a : Option α} {b : Option β} {v : γ}
    (h : both f a b = some v) : ∃ x y, a = some x ∧ b = some y ∧ f x y = v := by
  cases a <;> cases b <;> simp_all [both]

@[simp] theorem orMissing_none {α : Type} :
    (orMissing (none : Option α)) = .error .assignmentMissing := rfl

theorem orMissing_toOption {α : Type} (v : Option α) : (orMissing v).toOption = v := by
  cases v <;> rfl

/-! ### Numbers and combinations -/

namespace Num

theorem eval_lc (h1 : w one = 1) (n : Num F) : (n.lc one).eval w = n.wire w := by
  cases n <;> simp [lc, wire, h1]

@[simp] theorem wire_neg (n : Num F) : n.neg.wire w = -n.wire w := by
  cases n <;> simp [neg, wire]

@[simp] theorem wire_ofAllocated (n : AllocatedNum F) : (ofAllocated n).wire w = w n.var := by
  simp [ofAllocated, wire]

@[simp] theorem wire_scaled (c : Coeff F) (n : Num F) :
    (n.scaled c).wire w = c.value * n.wire w := by
  cases n <;> simp [scaled, wire, mul_assoc]

@[simp] theorem wire_scale (c : F) (n : Num F) : (n.scale c).wire w = n.wire w * c := by
  cases n <;> simp [scale, wire]; ring

@[simp] theorem wire_const (c : F) : (const c).wire w = c := rfl

theorem honest_const (c : F) : (const c).Honest w := rfl

theorem honest_ofAllocated {n : AllocatedNum F} (h : n.Honest w) : (ofAllocated n).Honest w := by
  simp only [AllocatedNum.Honest] at h
  simp [Honest, ofAllocated, value, h, wire]

theorem value_of_isConstant {n : Num F} (h : n.isConstant = true) (w : Var → F) :
    n.value = some (n.wire w) := by
  cases n
  · rfl
  · simp [isConstant] at h

end Num

namespace Combination

private theorem eval_lc_aux (h1 : w one = 1) (ts : List (Num F)) : ∀ l : LC F,
    (ts.foldl (fun acc t => acc.addLC (t.lc one)) l).eval w =
      l.eval w + (ts.map fun t => t.wire w).sum := by
  induction ts with
  | nil => simp
  | cons t ts ih => intro l; simp [ih, Num.eval_lc h1, add_assoc]

theorem eval_lc (h1 : w one = 1) (a : Combination F) : (a.lc one).eval w = a.wire w := by
  simp [lc, eval_lc_aux h1, wire]

@[simp] theorem wire_ofAllocated (n : AllocatedNum F) : (ofAllocated n).wire w = w n.var := by
  simp [ofAllocated, wire]
@[simp] theorem wire_ofNum (n : Num F) : (ofNum n).wire w = n.wire w := by simp [ofNum, wire]
@[simp] theorem wire_add (a b : Combination F) : (a.add b).wire w = a.wire w + b.wire w := by
  simp [add, wire]
@[simp] theorem wire_addAllocated (a : Combination F) (n : AllocatedNum F) :
    (a.addAllocated n).wire w = a.wire w + w n.var := by simp [addAllocated, wire]
@[simp] theorem wire_subAllocated (a : Combination F) (n : AllocatedNum F) :
    (a.subAllocated n).wire w = a.wire w - w n.var := by simp [subAllocated, wire, sub_eq_add_neg]
@[simp] theorem wire_addNum (a : Combination F) (n : Num F) :
    (a.addNum n).wire w = a.wire w + n.wire w := by simp [addNum, wire]
@[simp] theorem wire_addScaledAllocated (a : Combination F) (c : Coeff F) (n : AllocatedNum F) :
    (a.addScaledAllocated c n).wire w = a.wire w + c.value * w n.var := by
  simp [addScaledAllocated, wire, Num.wire]
@[simp] theorem wire_addScaled (a : Combination F) (c : Coeff F) (n : Num F) :
    (a.addScaled c n).wire w = a.wire w + c.value * n.wire w := by
  simp [addScaled, wire]
@[simp] theorem wire_zero : (zero : Combination F).wire w = 0 := rfl
@[simp] theorem wire_scale (c : F) (a : Combination F) : (a.scale c).wire w = a.wire w * c := by
  simp only [scale, wire, List.map_map]
  induction a.terms with
  | nil => simp
  | cons t ts ih => simp_all [add_mul]

variable {a b : Combination F} {n : AllocatedNum F} {m : Num F}

theorem honest_ofAllocated (h : n.Honest w) : (ofAllocated n).Honest w := by
  rw [Honest, wire_ofAllocated]; exact h
theorem honest_ofNum (h : m.Honest w) : (ofNum m).Honest w := by
  rw [Honest, wire_ofNum]; exact h
theorem honest_add (ha : a.Honest w) (hb : b.Honest w) : (a.add b).Honest w := by
  rw [Honest, wire_add]; rw [Honest] at ha hb; simp [add, ha, hb]
theorem honest_addAllocated (ha : a.Honest w) (hn : n.Honest w) : (a.addAllocated n).Honest w := by
  rw [Honest, wire_addAllocated]; rw [Honest] at ha; rw [AllocatedNum.Honest] at hn
  simp [addAllocated, ha, hn]
theorem honest_subAllocated (ha : a.Honest w) (hn : n.Honest w) : (a.subAllocated n).Honest w := by
  rw [Honest, wire_subAllocated]; rw [Honest] at ha; rw [AllocatedNum.Honest] at hn
  simp [subAllocated, ha, hn]
theorem honest_addNum (ha : a.Honest w) (hn : m.Honest w) : (a.addNum m).Honest w := by
  rw [Honest, wire_addNum]; rw [Honest] at ha; rw [Num.Honest] at hn
  simp [addNum, ha, hn]
theorem honest_addScaledAllocated (c : Coeff F) (ha : a.Honest w) (hn : n.Honest w) :
    (a.addScaledAllocated c n).Honest w := by
  rw [Honest, wire_addScaledAllocated]; rw [Honest] at ha; rw [AllocatedNum.Honest] at hn
  simp [addScaledAllocated, ha, hn]
theorem honest_addScaled (c : Coeff F) (ha : a.Honest w) (hn : m.Honest w) :
    (a.addScaled c m).Honest w := by
  rw [Honest, wire_addScaled]; rw [Honest] at ha; rw [Num.Honest] at hn
  simp [addScaled, ha, hn]
theorem honest_zero : (zero : Combination F).Honest w := rfl
theorem honest_scale (c : F) (ha : a.Honest w) : (a.scale c).Honest w := by
  rw [Honest, wire_scale]; rw [Honest] at ha; simp [scale, ha]

theorem wf_ofAllocated (n : AllocatedNum F) : (ofAllocated n).Wf := by
  intro h
  have := h _ (List.mem_singleton.2 rfl)
  simp [Num.ofAllocated, Num.isConstant] at this

theorem wf_ofNum (m : Num F) : (ofNum m).Wf := by
  intro h v hv w
  have := Num.value_of_isConstant (h m (List.mem_singleton.2 rfl)) w
  rw [ofNum] at hv
  simp only [this, Option.some.injEq] at hv
  rw [← hv, wire_ofNum]

theorem wf_add (ha : a.Wf) (hb : b.Wf) : (a.add b).Wf := by
  intro h v hv w
  obtain ⟨x, y, hx, hy, rfl⟩ := both_eq_some hv
  rw [wire_add, ← ha (fun t ht => h t (List.mem_append.2 (.inl ht))) x hx w,
    ← hb (fun t ht => h t (List.mem_append.2 (.inr ht))) y hy w]

theorem wf_addNum (ha : a.Wf) (m : Num F) : (a.addNum m).Wf := wf_add ha (wf_ofNum m)

theorem wf_addAllocated (a : Combination F) (n : AllocatedNum F) : (a.addAllocated n).Wf := by
  intro h
  have := h (.ofAllocated n) (List.mem_append.2 (.inr (List.mem_singleton.2 rfl)))
  simp [Num.ofAllocated, Num.isConstant] at this

theorem wf_subAllocated (a : Combination F) (n : AllocatedNum F) : (a.subAllocated n).Wf := by
  intro h
  have := h (Num.ofAllocated n).neg (List.mem_append.2 (.inr (List.mem_singleton.2 rfl)))
  simp [Num.ofAllocated, Num.isConstant, Num.neg] at this

theorem wf_addScaledAllocated (a : Combination F) (c : Coeff F) (n : AllocatedNum F) :
    (a.addScaledAllocated c n).Wf := by
  intro h
  have := h (.allocated c n) (List.mem_append.2 (.inr (List.mem_singleton.2 rfl)))
  simp [Num.isConstant] at this

theorem wf_addScaled (ha : a.Wf) (c : Coeff F) (m : Num F) : (a.addScaled c m).Wf := by
  intro h v hv w
  obtain ⟨x, y, hx, hy, rfl⟩ := both_eq_some hv
  have hm : m.isConstant = true := by
    have := h (m.scaled c) (List.mem_append.2 (.inr (List.mem_singleton.2 rfl)))
    revert this
    cases m <;> simp [Num.scaled, Num.isConstant]
  have := Num.value_of_isConstant hm w
  rw [hy] at this
  cases this
  rw [wire_addScaled, ← ha (fun t ht => h t (List.mem_append.2 (.inl ht))) x hx w]

theorem wf_zero : (zero : Combination F).Wf := by
  rintro - v hv w
  cases hv
  rfl

theorem wf_scale (c : F) (ha : a.Wf) : (a.scale c).Wf := by
  intro h v hv w
  rw [wire_scale]
  simp only [scale, Option.map_eq_some_iff] at hv
  obtain ⟨x, hx, rfl⟩ := hv
  rw [← ha (fun t ht => ?_) x hx w]
  have := h (t.scale c) (List.mem_map.2 ⟨t, ht, rfl⟩)
  revert this
  cases t <;> simp [Num.scale, Num.isConstant]

omit [Field F] in
theorem isConstant_of_not_any (h : a.anyAllocated = false) : ∀ t ∈ a.terms, t.isConstant = true := by
  simpa [anyAllocated] using h

end Combination

/-! ### Gadgets -/

theorem constrainPowFive_sound (x : Option F) :
    Sound w (constrainPowFive x) fun r => w r.2 = w r.1 ^ 5 := by
  simp only [constrainPowFive, Prog.pure_eq, sound_bind, sound_doMultiply, sound_enforce,
    LC.eval_subVar, LC.eval_ofVar, sub_eq_zero, sound_pure]
  intro base b c _ h1 h2 d e f _ h3 h4 h5 g h r _ h6 h7 h8
  rw [← h6, ← h7, ← h3, ← h4, ← h5, ← h1, ← h8, ← h2]; ring

theorem constrainPowFive_complete (x : F) :
    Complete w (constrainPowFive (some x)) fun r => w r.1 = x ∧ w r.2 = x ^ 5 := by
  simp only [constrainPowFive, Prog.pure_eq, complete_bind, complete_doMultiply, complete_enforce,
    LC.eval_subVar, LC.eval_ofVar, sub_eq_zero, complete_pure, Option.map_some, both_some,
    orMissing_some, ok_bind]
  refine ⟨_, rfl, rfl, fun a b c ha hb hc => ⟨by rw [ha, hb], _, rfl, rfl,
    fun d e f hd he hf => ⟨by rw [hc, hd], by rw [hc, he], _, rfl, rfl,
    fun g h i hg hh hi => ⟨by rw [hf, hg], by rw [ha, hh], ha, by rw [hi]; ring⟩⟩⟩⟩

namespace AllocatedNum
variable {n m : AllocatedNum F} {base : Combination F}

theorem alloc_complete (v : F) :
    Complete w (alloc (.ok v)) fun r => r.Honest w ∧ w r.var = v := by
  simp only [alloc, Prog.pure_eq, complete_bind, complete_doAlloc, complete_pure, Honest]
  exact ⟨_, rfl, fun x hx => ⟨by simp [hx], hx⟩⟩

theorem allocInput_complete (v : F) :
    Complete w (allocInput (.ok v)) fun r => r.Honest w ∧ w r.var = v := by
  simp only [allocInput, Prog.pure_eq, complete_bind, complete_doAllocInput, complete_pure, Honest]
  exact ⟨_, rfl, fun x hx => ⟨by simp [hx], hx⟩⟩

theorem inputize_sound (n : AllocatedNum F) :
    Sound w n.inputize fun r => w r.var = w n.var := by
  simp only [inputize, Prog.pure_eq, sound_bind, sound_doAllocInput, sound_enforce,
    LC.eval_subVar, LC.eval_ofVar, sub_eq_zero, sound_pure]
  exact fun x _ h => h.symm

theorem inputize_complete (h : n.Honest w) :
    Complete w n.inputize fun r => r.Honest w ∧ w r.var = w n.var := by
  rw [Honest] at h
  simp only [inputize, Prog.pure_eq, complete_bind, complete_doAllocInput, complete_enforce,
    LC.eval_subVar, LC.eval_ofVar, sub_eq_zero, complete_pure, h, orMissing_some, Honest]
  exact ⟨_, rfl, fun x hx => ⟨hx.symm, by rw [hx], hx⟩⟩

theorem mul_sound (n m : AllocatedNum F) :
    Sound w (n.mul m) fun r => w r.var = w n.var * w m.var := by
  simp only [mul, Prog.pure_eq, sound_bind, sound_doMultiply, sound_enforce,
    LC.eval_subVar, LC.eval_ofVar, sub_eq_zero, sound_pure]
  intro l r o _ h1 h2 h3
  rw [h2, h3, h1]

theorem mul_complete (hn : n.Honest w) (hm : m.Honest w) :
    Complete w (n.mul m) fun r => r.Honest w ∧ w r.var = w n.var * w m.var := by
  rw [Honest] at hn hm
  simp only [mul, Prog.pure_eq, complete_bind, complete_doMultiply, complete_enforce,
    LC.eval_subVar, LC.eval_ofVar, sub_eq_zero, complete_pure, hn, hm, orMissing_some, Honest,
    both_some, ok_bind]
  exact ⟨_, rfl, rfl, fun l r o hl hr ho => ⟨hl.symm, hr.symm, by rw [ho], ho⟩⟩

theorem allocAndSquare_sound (v) :
    Sound w (allocAndSquare v) fun r => w r.2.var = w r.1.var * w r.1.var := by
  simp only [allocAndSquare, Prog.pure_eq, sound_bind, sound_doMultiply, sound_enforce,
    LC.eval_subVar, LC.eval_ofVar, sub_eq_zero, sound_pure]
  intro a b c _ h1 h2
  rw [← h1, h2]

theorem allocAndSquare_complete (v : F) :
    Complete w (allocAndSquare (.ok v)) fun r => r.1.Honest w ∧ r.2.Honest w ∧ w r.1.var = v ∧
      w r.2.var = v * v := by
  simp only [allocAndSquare, Prog.pure_eq, complete_bind, complete_doMultiply, complete_enforce,
    LC.eval_subVar, LC.eval_ofVar, sub_eq_zero, complete_pure, Honest, ok_bind]
  exact ⟨_, rfl, rfl, fun a b c ha hb hc => ⟨by rw [ha, hb], by simp [ha], by simp [hc], ha, hc⟩⟩

theorem rescueAlpha_sound (h1 : w one = 1) (base : Combination F) :
    Sound w (rescueAlpha one base) fun r => w r.var = base.wire w ^ 5 := by
  refine Sound.bind (constrainPowFive_sound _) fun ⟨x, y⟩ hxy => ?_
  simp only [Prog.pure_eq, sound_bind, sound_enforce, LC.eval_subVar, Combination.eval_lc h1,
    sub_eq_zero, sound_pure]
  intro h
  rw [h, hxy]

theorem rescueAlpha_complete (h1 : w one = 1) (h : base.Honest w) :
    Complete w (rescueAlpha one base) fun r => r.Honest w ∧ w r.var = base.wire w ^ 5 := by
  rw [Combination.Honest] at h
  simp only [rescueAlpha, h]
  refine Complete.bind (constrainPowFive_complete _) fun ⟨x, y⟩ ⟨hx, hy⟩ => ?_
  simp only [Prog.pure_eq, complete_bind, complete_enforce, LC.eval_subVar, Combination.eval_lc h1,
    sub_eq_zero, complete_pure, Honest]
  exact ⟨hx.symm, by simp [hy], hy⟩

variable [LawfulField F]

/-- raising to `RESCUE_INVALPHA` is the inverse of raising to the fifth power -/
theorem pow_invAlpha_pow (x : F) : (x ^ FieldApi.rescueInvAlpha F) ^ 5 = x := by
  rw [← pow_mul, mul_comm, pow_mul]; exact LawfulField.invAlpha x

theorem rescueInvalpha_sound (h1 : w one = 1) (base : Combination F) :
    Sound w (rescueInvalpha one base) fun r => w r.var = base.wire w ^ FieldApi.rescueInvAlpha F := by
  refine Sound.bind (constrainPowFive_sound _) fun ⟨x, y⟩ hxy => ?_
  simp only [Prog.pure_eq, sound_bind, sound_enforce, LC.eval_subVar, Combination.eval_lc h1,
    sub_eq_zero, sound_pure]
  intro h
  rw [h, hxy]
  exact (LawfulField.invAlpha _).symm

theorem rescueInvalpha_complete (h1 : w one = 1) (h : base.Honest w) :
    Complete w (rescueInvalpha one base) fun r =>
      r.Honest w ∧ w r.var = base.wire w ^ FieldApi.rescueInvAlpha F := by
  rw [Combination.Honest] at h
  simp only [rescueInvalpha, h]
  refine Complete.bind (constrainPowFive_complete _) fun ⟨x, y⟩ ⟨hx, hy⟩ => ?_
  simp only [Prog.pure_eq, complete_bind, complete_enforce, LC.eval_subVar, Combination.eval_lc h1,
    sub_eq_zero, complete_pure, Honest]
  exact ⟨by rw [hy]; exact (pow_invAlpha_pow _).symm, by simp [hx], hx⟩

theorem invert_sound (h1 : w one = 1) (n : AllocatedNum F) :
    Sound w (n.invert one) fun r => w n.var ≠ 0 ∧ w r.var = (w n.var)⁻¹ := by
  simp only [invert, alloc, Prog.pure_eq, sound_bind, sound_doAlloc, sound_doMultiply,
    sound_enforce, LC.eval_subVar, LC.eval_ofVar, sub_eq_zero, sound_pure]
  intro x _ a b c _ hm ha hb hc
  rw [ha, hb, hc, h1] at hm
  have h0 : w n.var ≠ 0 := by rintro h; simp [h] at hm
  exact ⟨h0, eq_inv_of_mul_eq_one_left hm⟩

theorem invert_complete (h1 : w one = 1) (hn : n.Honest w) (h0 : w n.var ≠ 0) :
    Complete w (n.invert one) fun r => r.Honest w ∧ w r.var = (w n.var)⁻¹ := by
  rw [Honest] at hn
  simp only [invert, alloc, Prog.pure_eq, complete_bind, complete_doAlloc, complete_doMultiply,
    complete_enforce, LC.eval_subVar, LC.eval_ofVar, sub_eq_zero, complete_pure, hn, orMissing_some,
    ok_bind, LawfulField.invert_eq _ h0, ok_toOption, Honest]
  exact ⟨_, rfl, fun x hx => ⟨_, rfl, inv_mul_cancel₀ h0, fun a b c ha hb hc =>
    ⟨by rw [ha, hx], hb, by rw [hc, h1], by rw [hx], hx⟩⟩⟩

theorem sqrt_sound (n : AllocatedNum F) :
    Sound w n.sqrt fun r => w r.var * w r.var = w n.var := by
  simp only [sqrt, alloc, Prog.pure_eq, sound_bind, sound_doAlloc, sound_doMultiply,
    sound_enforce, LC.eval_subVar, LC.eval_ofVar, sub_eq_zero, sound_pure]
  intro x _ a b c _ hm ha hb hc
  rwa [ha, hb, hc] at hm

theorem sqrt_complete (hn : n.Honest w) (hs : IsSquare (w n.var)) :
    Complete w n.sqrt fun r => r.Honest w ∧ w r.var * w r.var = w n.var := by
  rw [Honest] at hn
  obtain ⟨y, hy, hyy⟩ := LawfulField.sqrt_some _ hs
  simp only [sqrt, alloc, Prog.pure_eq, complete_bind, complete_doAlloc, complete_doMultiply,
    complete_enforce, LC.eval_subVar, LC.eval_ofVar, sub_eq_zero, complete_pure, hn, orMissing_some,
    ok_bind, hy, ok_toOption, Honest]
  exact ⟨_, rfl, fun x hx => ⟨_, rfl, hyy, fun a b c ha hb hc =>
    ⟨by rw [ha, hx], by rw [hb, hx], hc, by rw [hx], by rw [hx, hyy]⟩⟩⟩

omit [LawfulField F] in
theorem ofBit_honest {b : AllocatedBit} {v : Bool} (h : b.Honest w v) :
    (ofBit b : AllocatedNum F).Honest w := by
  obtain ⟨h1, h2⟩ := h
  simp only [AllocatedBit.Means] at h1
  simp [Honest, ofBit, h2, h1]

end AllocatedNum

namespace Combination
variable {a b : Combination F}

theorem evaluate_sound (h1 : w one = 1) (ha : a.Wf) :
    Sound w (a.evaluate one) fun r => r.wire w = a.wire w := by
  unfold evaluate
  split
  · simp only [AllocatedNum.alloc, Prog.pure_eq, sound_bind, sound_doAlloc, sound_pure,
      sound_enforce, LC.eval_subLC, AllocatedNum.lc, LC.eval_ofVar, eval_lc h1, sub_eq_zero,
      Num.wire_ofAllocated]
    exact fun _ _ h => h
  · rename_i hn
    cases hv : a.value with
    | none => trivial
    | some v => exact ha (isConstant_of_not_any (by simpa using hn)) v hv w

theorem evaluate_complete (h1 : w one = 1) (h : a.Honest w) :
    Complete w (a.evaluate one) fun r => r.Honest w ∧ r.wire w = a.wire w := by
  rw [Honest] at h
  unfold evaluate
  split
  · simp only [Prog.pure_eq, complete_bind, h, orMissing_some]
    refine (AllocatedNum.alloc_complete _).mono fun r hr => ?_
    simp only [complete_enforce, LC.eval_subLC, AllocatedNum.lc, LC.eval_ofVar, eval_lc h1,
      sub_eq_zero, complete_pure, Num.wire_ofAllocated]
    exact ⟨hr.2, Num.honest_ofAllocated hr.1, hr.2⟩
  · simp only [h]
    exact ⟨rfl, rfl⟩

theorem mul_sound (h1 : w one = 1) (a b : Combination F) :
    Sound w (a.mul one b) fun r => w r.var = a.wire w * b.wire w := by
  simp only [mul, Prog.pure_eq, sound_bind, sound_doMultiply, sound_enforce,
    LC.eval_subVar, eval_lc h1, sub_eq_zero, sound_pure]
  intro l r o _ h1 h2 h3
  rw [h2, h3, h1]

theorem mul_complete (h1 : w one = 1) (ha : a.Honest w) (hb : b.Honest w) :
    Complete w (a.mul one b) fun r => r.Honest w ∧ w r.var = a.wire w * b.wire w := by
  rw [Honest] at ha hb
  simp only [mul, Prog.pure_eq, complete_bind, complete_doMultiply, complete_enforce,
    LC.eval_subVar, eval_lc h1, sub_eq_zero, complete_pure, ha, hb, orMissing_some,
    AllocatedNum.Honest, both_some, ok_bind]
  exact ⟨_, rfl, rfl, fun l r o hl hr ho => ⟨hl.symm, hr.symm, by simp [ho], ho⟩⟩

theorem square_sound (h1 : w one = 1) (a : Combination F) :
    Sound w (a.square one) fun r => w r.var = a.wire w * a.wire w := by
  simp only [square, Prog.pure_eq, sound_bind, sound_doMultiply, sound_enforce,
    LC.eval_subVar, eval_lc h1, sub_eq_zero, sound_pure]
  intro l r o _ h1 h2 h3
  rw [← h1, ← h2, ← h3]

theorem square_complete (h1 : w one = 1) (ha : a.Honest w) :
    Complete w (a.square one) fun r => r.Honest w ∧ w r.var = a.wire w * a.wire w := by
  rw [Honest] at ha
  simp only [square, Prog.pure_eq, complete_bind, complete_doMultiply, complete_enforce,
    LC.eval_subVar, eval_lc h1, sub_eq_zero, complete_pure, ha, orMissing_some,
    AllocatedNum.Honest, ok_bind]
  exact ⟨_, rfl, rfl, fun l r o hl hr ho => ⟨hl.symm, hr.symm, by simp [ho], ho⟩⟩

theorem rescueAlpha_sound (h1 : w one = 1) (ha : a.Wf) :
    Sound w (a.rescueAlpha one) fun r => r.wire w = a.wire w ^ 5 := by
  unfold rescueAlpha
  split
  · exact Sound.bind (AllocatedNum.rescueAlpha_sound h1 a) fun r hr => by
      rwa [Prog.pure_eq, sound_pure, Num.wire_ofAllocated]
  · rename_i hn
    cases hv : a.value with
    | none => trivial
    | some v =>
      rw [← ha (isConstant_of_not_any (by simpa using hn)) v hv w]
      exact rfl

theorem rescueAlpha_complete (h1 : w one = 1) (h : a.Honest w) :
    Complete w (a.rescueAlpha one) fun r => r.Honest w ∧ r.wire w = a.wire w ^ 5 := by
  unfold rescueAlpha
  split
  · exact Complete.bind (AllocatedNum.rescueAlpha_complete h1 h) fun r hr =>
      ⟨Num.honest_ofAllocated hr.1, by simpa using hr.2⟩
  · rw [Honest] at h
    simp only [h]
    exact ⟨rfl, rfl⟩

variable [LawfulField F]

theorem rescueInvalpha_sound (h1 : w one = 1) (ha : a.Wf) :
    Sound w (a.rescueInvalpha one) fun r => r.wire w = a.wire w ^ FieldApi.rescueInvAlpha F := by
  unfold rescueInvalpha
  split
  · exact Sound.bind (AllocatedNum.rescueInvalpha_sound h1 a) fun r hr => by
      rwa [Prog.pure_eq, sound_pure, Num.wire_ofAllocated]
  · rename_i hn
    cases hv : a.value with
    | none => trivial
    | some v =>
      rw [← ha (isConstant_of_not_any (by simpa using hn)) v hv w]
      exact rfl

theorem rescueInvalpha_complete (h1 : w one = 1) (h : a.Honest w) :
    Complete w (a.rescueInvalpha one) fun r =>
      r.Honest w ∧ r.wire w = a.wire w ^ FieldApi.rescueInvAlpha F := by
  unfold rescueInvalpha
  split
  · exact Complete.bind (AllocatedNum.rescueInvalpha_complete h1 h) fun r hr =>
      ⟨Num.honest_ofAllocated hr.1, by simpa using hr.2⟩
  · rw [Honest] at h
    simp only [h]
    exact ⟨rfl, rfl⟩

end Combination

end Circuit
end Halo
