import Verif.Lemmas.Gadget.UIntArith
import Verif.Lemmas.Gadget.Sha256
import Verif.Lemmas.Gadget.Rescue
import Verif.Lemmas.Gadget.UnpackForge
import Verif.Lemmas.Sha256
import Verif.Lemmas.FieldInst
/-!
# Properties of the gadgets (C33–C39)

`Sound w p Q` and `Complete w p Q` (`Verif.Spec.Gadget`) say what a gadget `p` means for an assignment
`w` of the wires.  `C33_soundness_of_circuits` and `C33_completeness_of_circuits` say what follows for
the constraint systems of circuits that are built from gadgets.  `x.Means w v` says that the wires of
`x` carry `v`; `x.Honest w v` says in addition that the prover has computed `v` for `x`.
-/
namespace Halo
open Circuit
variable {F : Type} [Field F] {w : Var → F} {one : Var}

/-- If all parts of a circuit are sound, then every satisfying assignment of its constraint system has
the property, whatever the public inputs. -/
theorem C33_soundness_of_circuits {α : Type} {circuit : Var → Prog F α} {Q : (Var → F) → α → Prop}
    (h : ∀ w one, w one = 1 → Sound w (circuit one) (Q w)) : Enforces circuit Q :=
  enforces_of_sound h

/-- If all parts of a circuit are complete, then synthesis succeeds, and the values that it supplies
satisfy the constraint system. -/
theorem C33_completeness_of_circuits {α : Type} {circuit : Var → Prog F α} {Q : (Var → F) → α → Prop}
    (h : ∀ w one, w one = 1 → Complete w (circuit one) (Q w)) : Provable circuit Q :=
  provable_of_complete h

/-! ### C33: Boolean gadgets -/

/-- **C33**, single bits: soundness -/
theorem C33_bits_sound (h1 : w one = 1) :
    (∀ value, Sound w (AllocatedBit.alloc value) fun b => ∃ v, b.Means w v) ∧
    (∀ b : AllocatedBit, Sound w b.check fun _ => ∃ v, b.Means w v) ∧
    ∀ (a b : AllocatedBit) (x y : Bool), a.Means w x → b.Means w y →
      (Sound w (AllocatedBit.xor a b) fun r => r.Means w (x ^^ y)) ∧
      (Sound w (AllocatedBit.and a b) fun r => r.Means w (x && y)) ∧
      (Sound w (AllocatedBit.andNot one a b) fun r => r.Means w (x && !y)) ∧
      Sound w (AllocatedBit.nor one a b) fun r => r.Means w (!x && !y) :=
  ⟨AllocatedBit.alloc_sound, AllocatedBit.check_sound, fun _ _ _ _ ha hb =>
    ⟨AllocatedBit.xor_sound ha hb, AllocatedBit.and_sound ha hb, AllocatedBit.andNot_sound h1 ha hb,
      AllocatedBit.nor_sound h1 ha hb⟩⟩

/-- **C33**, single bits: completeness -/
theorem C33_bits_complete (h1 : w one = 1) :
    (∀ v, Complete w (AllocatedBit.alloc (.ok v)) fun b => b.Honest w v) ∧
    (∀ v, Complete w (AllocatedBit.allocInputUnchecked (.ok v)) fun b => b.Honest w v) ∧
    (∀ (b : AllocatedBit) (v : Bool), b.Honest w v → Complete w b.check fun _ => True) ∧
    (AllocatedBit.one one).Honest w true ∧
    ∀ (a b : AllocatedBit) (x y : Bool), a.Honest w x → b.Honest w y →
      (Complete w (AllocatedBit.xor a b) fun r => r.Honest w (x ^^ y)) ∧
      (Complete w (AllocatedBit.and a b) fun r => r.Honest w (x && y)) ∧
      (Complete w (AllocatedBit.andNot one a b) fun r => r.Honest w (x && !y)) ∧
      Complete w (AllocatedBit.nor one a b) fun r => r.Honest w (!x && !y) :=
  ⟨AllocatedBit.alloc_complete, AllocatedBit.allocInputUnchecked_complete,
    fun _ _ h => AllocatedBit.check_complete h, AllocatedBit.one_honest h1, fun _ _ _ _ ha hb =>
    ⟨AllocatedBit.xor_complete ha hb, AllocatedBit.and_complete ha hb,
      AllocatedBit.andNot_complete h1 ha hb, AllocatedBit.nor_complete h1 ha hb⟩⟩

/-- **C33**, `Boolean`, for any mix of allocated, negated and constant operands: soundness -/
theorem C33_booleans_sound (h1 : w one = 1) (a b c : Boolean) (x y z : Bool) (ha : a.Means w x)
    (hb : b.Means w y) (hc : c.Means w z) :
    a.negate.Means w (!x) ∧ (a.lc one (.one : Coeff F)).eval w = (if x then 1 else 0) ∧
    (Sound w (Boolean.enforceEqual one a b) fun _ => x = y) ∧
    (Sound w (Boolean.xor a b) fun r => r.Means w (x ^^ y)) ∧
    (Sound w (Boolean.and one a b) fun r => r.Means w (x && y)) ∧
    (Sound w (Boolean.sha256Ch one a b c) fun r => r.Means w ((x && y) ^^ (!x && z))) ∧
    Sound w (Boolean.sha256Maj one a b c) fun r => r.Means w ((x && y) ^^ (x && z) ^^ (y && z)) :=
  ⟨Boolean.means_negate ha, by rw [Boolean.eval_lc h1 ha]; simp, Boolean.enforceEqual_sound h1 ha hb,
    Boolean.xor_sound ha hb, Boolean.and_sound h1 ha hb, Boolean.sha256Ch_sound h1 ha hb hc,
    Boolean.sha256Maj_sound h1 ha hb hc⟩

/-- **C33**, `Boolean`: completeness -/
theorem C33_booleans_complete (h1 : w one = 1) (a b c : Boolean) (x y z : Bool) (ha : a.Honest w x)
    (hb : b.Honest w y) (hc : c.Honest w z) :
    a.negate.Honest w (!x) ∧ a.getValue = some x ∧
    (x = y → Complete w (Boolean.enforceEqual one a b) fun _ => True) ∧
    (Complete w (Boolean.xor a b) fun r => r.Honest w (x ^^ y)) ∧
    (Complete w (Boolean.and one a b) fun r => r.Honest w (x && y)) ∧
    (Complete w (Boolean.sha256Ch one a b c) fun r => r.Honest w ((x && y) ^^ (!x && z))) ∧
    Complete w (Boolean.sha256Maj one a b c) fun r => r.Honest w ((x && y) ^^ (x && z) ^^ (y && z)) :=
  ⟨Boolean.honest_negate ha, ha.getValue, fun h => by subst h; exact Boolean.enforceEqual_complete h1 ha hb,
    Boolean.xor_complete ha hb, Boolean.and_complete h1 ha hb, Boolean.sha256Ch_complete h1 ha hb hc,
    Boolean.sha256Maj_complete h1 ha hb hc⟩

/-- a circuit that allocates two bits and returns their majority with the constant true: every
satisfying assignment has their disjunction on the output, and there is one -/
def orCircuit (x y : Bool) : Var → Prog F (AllocatedBit × AllocatedBit × Boolean) := fun one => do
  let a ← AllocatedBit.alloc (.ok x)
  let b ← AllocatedBit.alloc (.ok y)
  let r ← Boolean.sha256Maj one (.is a) (.is b) (.constant true)
  return (a, b, r)

example (x y : Bool) :
    (Enforces (orCircuit (F := F) x y) fun w r => ∃ u v, r.1.Means w u ∧ r.2.1.Means w v ∧
      r.2.2.Means w (u || v)) ∧
    Provable (orCircuit (F := F) x y) fun w r => r.2.2.Honest w (x || y) := by
  constructor
  · refine C33_soundness_of_circuits fun w one h1 => ?_
    refine Sound.bind ((C33_bits_sound h1).1 _) fun a ⟨u, hu⟩ => ?_
    refine Sound.bind ((C33_bits_sound h1).1 _) fun b ⟨v, hv⟩ => ?_
    refine Sound.bind (C33_booleans_sound h1 (.is a) (.is b) (.constant true) u v true hu hv rfl).2.2.2.2.2.2
      fun r hr => ⟨u, v, hu, hv, ?_⟩
    cases u <;> cases v <;> exact hr
  · refine C33_completeness_of_circuits fun w one h1 => ?_
    refine Complete.bind ((C33_bits_complete h1).1 _) fun a ha => ?_
    refine Complete.bind ((C33_bits_complete h1).1 _) fun b hb => ?_
    refine Complete.bind (C33_booleans_complete h1 (.is a) (.is b) (.constant true) x y true ha hb
      rfl).2.2.2.2.2.2 fun r hr => ?_
    cases x <;> cases y <;> exact hr

/-! ### C34: number gadgets -/

/-- **C34**, allocated numbers: soundness.  `invert` forces its argument to be nonzero. -/
theorem C34_numbers_sound [LawfulField F] (h1 : w one = 1) (n m : AllocatedNum F) :
    (Sound w n.inputize fun r => w r.var = w n.var) ∧
    (Sound w (n.mul m) fun r => w r.var = w n.var * w m.var) ∧
    (∀ v, Sound w (AllocatedNum.allocAndSquare v) fun r => w r.2.var = w r.1.var * w r.1.var) ∧
    (∀ base : Combination F, Sound w (AllocatedNum.rescueAlpha one base) fun r =>
      w r.var = base.wire w ^ 5) ∧
    (∀ base : Combination F, Sound w (AllocatedNum.rescueInvalpha one base) fun r =>
      w r.var = base.wire w ^ FieldApi.rescueInvAlpha F) ∧
    (Sound w (n.invert one) fun r => w n.var ≠ 0 ∧ w r.var = (w n.var)⁻¹) ∧
    Sound w n.sqrt fun r => w r.var * w r.var = w n.var :=
  ⟨AllocatedNum.inputize_sound n, AllocatedNum.mul_sound n m, AllocatedNum.allocAndSquare_sound,
    AllocatedNum.rescueAlpha_sound h1, AllocatedNum.rescueInvalpha_sound h1,
    AllocatedNum.invert_sound h1 n, AllocatedNum.sqrt_sound n⟩

/-- **C34**, allocated numbers: completeness -/
theorem C34_numbers_complete [LawfulField F] (h1 : w one = 1) (n m : AllocatedNum F)
    (hn : n.Honest w) (hm : m.Honest w) :
    (∀ v, Complete w (AllocatedNum.alloc (.ok v)) fun r => r.Honest w ∧ w r.var = v) ∧
    (∀ v, Complete w (AllocatedNum.allocInput (.ok v)) fun r => r.Honest w ∧ w r.var = v) ∧
    (Complete w n.inputize fun r => r.Honest w ∧ w r.var = w n.var) ∧
    (Complete w (n.mul m) fun r => r.Honest w ∧ w r.var = w n.var * w m.var) ∧
    (∀ v, Complete w (AllocatedNum.allocAndSquare (.ok v)) fun r => r.1.Honest w ∧ r.2.Honest w ∧
      w r.1.var = v ∧ w r.2.var = v * v) ∧
    (∀ base : Combination F, base.Honest w → Complete w (AllocatedNum.rescueAlpha one base) fun r =>
      r.Honest w ∧ w r.var = base.wire w ^ 5) ∧
    (∀ base : Combination F, base.Honest w → Complete w (AllocatedNum.rescueInvalpha one base) fun r =>
      r.Honest w ∧ w r.var = base.wire w ^ FieldApi.rescueInvAlpha F) ∧
    (w n.var ≠ 0 → Complete w (n.invert one) fun r => r.Honest w ∧ w r.var = (w n.var)⁻¹) ∧
    (IsSquare (w n.var) → Complete w n.sqrt fun r => r.Honest w ∧ w r.var * w r.var = w n.var) ∧
    ∀ (b : AllocatedBit) (v : Bool), b.Honest w v → (AllocatedNum.ofBit b : AllocatedNum F).Honest w :=
  ⟨AllocatedNum.alloc_complete, AllocatedNum.allocInput_complete, AllocatedNum.inputize_complete hn,
    AllocatedNum.mul_complete hn hm, AllocatedNum.allocAndSquare_complete,
    fun _ h => AllocatedNum.rescueAlpha_complete h1 h, fun _ h => AllocatedNum.rescueInvalpha_complete h1 h,
    AllocatedNum.invert_complete h1 hn, AllocatedNum.sqrt_complete hn,
    fun _ _ h => AllocatedNum.ofBit_honest h⟩

/-- **C34**, the power of `rescue_invalpha` is the fifth root. -/
theorem C34_invalpha_is_fifth_root [LawfulField F] (x : F) :
    (x ^ FieldApi.rescueInvAlpha F) ^ 5 = x ∧ (x ^ 5) ^ FieldApi.rescueInvAlpha F = x := by
  have h := LawfulField.invAlpha (F := F)
  exact ⟨by rw [← pow_mul, mul_comm, pow_mul]; exact h x, h x⟩

/-- **C34**, the arithmetic of `Num` and `Combination`: the linear combination of the constraint
system and the number that it stands for -/
theorem C34_combination_arithmetic (h1 : w one = 1) (n : Num F) (m : AllocatedNum F)
    (a b : Combination F) (k : Coeff F) (c : F) :
    (n.lc one).eval w = n.wire w ∧ (Num.ofAllocated m).wire w = w m.var ∧ (Num.const c).wire w = c ∧
    n.neg.wire w = -n.wire w ∧ (n.scaled k).wire w = k.value * n.wire w ∧
    (n.scale c).wire w = n.wire w * c ∧
    (a.lc one).eval w = a.wire w ∧ (Combination.zero : Combination F).wire w = 0 ∧
    (Combination.ofNum n).wire w = n.wire w ∧ (Combination.ofAllocated m).wire w = w m.var ∧
    (a.add b).wire w = a.wire w + b.wire w ∧ (a.addAllocated m).wire w = a.wire w + w m.var ∧
    (a.subAllocated m).wire w = a.wire w - w m.var ∧ (a.addNum n).wire w = a.wire w + n.wire w ∧
    (a.addScaledAllocated k m).wire w = a.wire w + k.value * w m.var ∧
    (a.addScaled k n).wire w = a.wire w + k.value * n.wire w ∧
    (a.scale c).wire w = a.wire w * c :=
  ⟨Num.eval_lc h1 n, by simp, by simp, by simp, by simp, by simp, Combination.eval_lc h1 a, by simp,
    by simp, by simp, by simp, by simp, by simp, by simp, by simp, by simp, by simp⟩

/-- **C34**, the values of combinations, as far as they are known, are those of the wires. -/
theorem C34_combination_values (n : Num F) (m : AllocatedNum F) (a b : Combination F) (k : Coeff F)
    (c : F) (hn : n.Honest w) (hm : m.Honest w) (ha : a.Honest w) (hb : b.Honest w) :
    (Num.ofAllocated m).Honest w ∧ (Num.const c).Honest w ∧ (Combination.zero : Combination F).Honest w ∧
    (Combination.ofNum n).Honest w ∧ (Combination.ofAllocated m).Honest w ∧ (a.add b).Honest w ∧
    (a.addAllocated m).Honest w ∧ (a.subAllocated m).Honest w ∧ (a.addNum n).Honest w ∧
    (a.addScaledAllocated k m).Honest w ∧ (a.addScaled k n).Honest w ∧ (a.scale c).Honest w :=
  ⟨Num.honest_ofAllocated hm, Num.honest_const c, Combination.honest_zero, Combination.honest_ofNum hn,
    Combination.honest_ofAllocated hm, Combination.honest_add ha hb, Combination.honest_addAllocated ha hm,
    Combination.honest_subAllocated ha hm, Combination.honest_addNum ha hn,
    Combination.honest_addScaledAllocated k ha hm, Combination.honest_addScaled k ha hn,
    Combination.honest_scale c ha⟩

/-- **C34**, combinations: soundness.  `Wf` (`Verif.Spec.Gadget.Nums`) holds of all combinations that
the interface builds, by `C34_combinations_wf`. -/
theorem C34_combinations_sound [LawfulField F] (h1 : w one = 1) (a b : Combination F) (ha : a.Wf) :
    (Sound w (a.evaluate one) fun r => r.wire w = a.wire w) ∧
    (Sound w (a.mul one b) fun r => w r.var = a.wire w * b.wire w) ∧
    (Sound w (a.square one) fun r => w r.var = a.wire w * a.wire w) ∧
    (Sound w (a.rescueAlpha one) fun r => r.wire w = a.wire w ^ 5) ∧
    Sound w (a.rescueInvalpha one) fun r => r.wire w = a.wire w ^ FieldApi.rescueInvAlpha F :=
  ⟨Combination.evaluate_sound h1 ha, Combination.mul_sound h1 a b, Combination.square_sound h1 a,
    Combination.rescueAlpha_sound h1 ha, Combination.rescueInvalpha_sound h1 ha⟩

/-- **C34**, combinations: completeness -/
theorem C34_combinations_complete [LawfulField F] (h1 : w one = 1) (a b : Combination F)
    (ha : a.Honest w) (hb : b.Honest w) :
    (Complete w (a.evaluate one) fun r => r.Honest w ∧ r.wire w = a.wire w) ∧
    (Complete w (a.mul one b) fun r => r.Honest w ∧ w r.var = a.wire w * b.wire w) ∧
    (Complete w (a.square one) fun r => r.Honest w ∧ w r.var = a.wire w * a.wire w) ∧
    (Complete w (a.rescueAlpha one) fun r => r.Honest w ∧ r.wire w = a.wire w ^ 5) ∧
    Complete w (a.rescueInvalpha one) fun r =>
      r.Honest w ∧ r.wire w = a.wire w ^ FieldApi.rescueInvAlpha F :=
  ⟨Combination.evaluate_complete h1 ha, Combination.mul_complete h1 ha hb,
    Combination.square_complete h1 ha, Combination.rescueAlpha_complete h1 ha,
    Combination.rescueInvalpha_complete h1 ha⟩

/-- **C34**: the combinations that the interface builds satisfy the hypothesis of
`C34_combinations_sound`. -/
theorem C34_combinations_wf (n : Num F) (m : AllocatedNum F) (a b : Combination F) (k : Coeff F) (c : F)
    (ha : a.Wf) (hb : b.Wf) :
    (Combination.zero : Combination F).Wf ∧ (Combination.ofNum n).Wf ∧ (Combination.ofAllocated m).Wf ∧
    (a.add b).Wf ∧ (a.addAllocated m).Wf ∧ (a.subAllocated m).Wf ∧ (a.addNum n).Wf ∧
    (a.addScaledAllocated k m).Wf ∧ (a.addScaled k n).Wf ∧ (a.scale c).Wf :=
  ⟨Combination.wf_zero, Combination.wf_ofNum n, Combination.wf_ofAllocated m, Combination.wf_add ha hb,
    Combination.wf_addAllocated a m, Combination.wf_subAllocated a m, Combination.wf_addNum ha n,
    Combination.wf_addScaledAllocated a k m, Combination.wf_addScaled ha k n,
    Combination.wf_scale c ha⟩

/-- a circuit that inverts the square of a public input plus seven: satisfying assignments have the
inverse on the output, and there is one if the number is not zero -/
def inverseCircuit [FieldApi F] (x : F) : Var → Prog F (AllocatedNum F × AllocatedNum F) := fun one => do
  let n ← AllocatedNum.allocInput (.ok x)
  let s ← n.mul n
  let t ← ((Combination.ofAllocated s).addNum (.const 7)).mul one (.ofNum (.const 1))
  let r ← t.invert one
  return (n, r)

example [LawfulField F] (x : F) (hx : x * x + 7 ≠ 0) :
    (Enforces (inverseCircuit x) fun w r => w r.2.var = (w r.1.var * w r.1.var + 7)⁻¹) ∧
    Provable (inverseCircuit x) fun w r => w r.1.var = x ∧ w r.2.var = (x * x + 7)⁻¹ := by
  constructor
  · refine C33_soundness_of_circuits fun w one h1 => ?_
    refine Sound.bind (P := fun _ => True) (Sound.anyway _ fun _ => trivial) fun n _ => ?_
    refine Sound.bind (C34_numbers_sound h1 n n).2.1 fun s hs => ?_
    refine Sound.bind (Combination.mul_sound h1 _ _) fun t ht => ?_
    refine Sound.bind (C34_numbers_sound h1 t t).2.2.2.2.2.1 fun r hr => ?_
    simp only [Combination.wire_addNum, Combination.wire_ofAllocated, Num.wire_const,
      Combination.wire_ofNum, mul_one] at ht
    change w r.var = _
    rw [hr.2, ht, hs]
  · refine C33_completeness_of_circuits fun w one h1 => ?_
    refine Complete.bind (AllocatedNum.allocInput_complete x) fun n hn => ?_
    refine Complete.bind (AllocatedNum.mul_complete hn.1 hn.1) fun s hs => ?_
    refine Complete.bind (Combination.mul_complete h1
      (Combination.honest_addNum (Combination.honest_ofAllocated hs.1) (Num.honest_const 7))
      (Combination.honest_ofNum (Num.honest_const 1))) fun t ht => ?_
    have ht2 := ht.2
    simp only [Combination.wire_addNum, Combination.wire_ofAllocated, Num.wire_const,
      Combination.wire_ofNum, mul_one, hs.2, hn.2] at ht2
    refine Complete.bind (AllocatedNum.invert_complete h1 ht.1 (by rw [ht2]; exact hx)) fun r hr => ?_
    exact ⟨hn.2, by rw [hr.2, ht2]⟩

/-! ### C35: bit decomposition -/

/-- **C35 is false of the code**: for every `x`, the constraint system of a circuit that allocates `x`
and unpacks it is satisfied by an assignment that gives to the number the value `x`, and to the 256
bits those of another integer, namely the canonical one plus the modulus. -/
theorem C35_unpack_not_canonical [LawfulField F] (x : F) :
    Forgeable (fun one => do
      let num ← AllocatedNum.alloc (.ok x)
      let bits ← unpackFe one (.ofAllocated num)
      return (num, bits)) fun w r => w r.1.var = x ∧ ∃ vs : List Bool,
        List.Forall₂ (fun b v => b.Means w v) r.2 vs ∧
        bitsValue vs = LawfulField.val x + FieldApi.modulus F := by
  obtain ⟨h1, h2⟩ := LawfulField.modulus_bound (F := F)
  have hv := LawfulField.val_lt x
  have hn : LawfulField.val x + FieldApi.modulus F < 2 ^ 256 := by omega
  obtain ⟨a, s, w', hs, hw, hx, hb⟩ := unpackFe_forge x _ hn (by
    rw [Nat.cast_add, LawfulField.val_cast, LawfulField.cast_modulus, add_zero])
  refine ⟨a, s, w', hs, hw, hx, _, hb, ?_⟩
  rw [bitsValue_range, Nat.mod_eq_of_lt hn]

/-- In particular a circuit that unpacks zero does not enforce that the lowest bit is zero. -/
theorem C35_unpack_zero_forged [LawfulField F] :
    ¬ Enforces (fun one => do
      let num ← AllocatedNum.alloc (.ok (0 : F))
      let bits ← unpackFe one (.ofAllocated num)
      return (num, bits)) fun w r => w r.1.var = 0 → ∀ b ∈ r.2.head?, b.Means w false := by
  apply Forgeable.not_enforces
  obtain ⟨a, s, w', hs, hw, hx, vs, hb, hv⟩ := C35_unpack_not_canonical (0 : F)
  refine ⟨a, s, w', hs, hw, fun h => ?_⟩
  have hp : (FieldApi.modulus F) % 2 = 1 := by
    refine (LawfulField.prime (F := F)).eq_two_or_odd.resolve_left fun h2 => ?_
    have := (LawfulField.modulus_bound (F := F)).1
    omega
  have h0 : LawfulField.val (0 : F) = 0 := by
    have := LawfulField.val_of_lt (F := F) (n := 0) LawfulField.modulus_pos
    simpa using this
  rw [h0, zero_add] at hv
  obtain ⟨_, bits⟩ := a
  cases hb with
  | nil => rw [bitsValue] at hv; omega
  | @cons b v bs vs hb _ =>
    have hf := h hx b (by simp [*])
    rw [bitsValue] at hv
    cases v
    · simp only [Bool.toNat_false] at hv; omega
    · rw [AllocatedBit.Means] at hb hf
      rw [hb] at hf
      simp at hf

/-- What is true of C35: the bits are those of an integer below `2^256` that is congruent to the
field element; and the honest prover's bits are the canonical ones.  Missing: that the integer is
less than the modulus. -/
theorem C35_unpack_partial [LawfulField F] (h1 : w one = 1) (num : Num F) :
    (Sound w (unpackFe one num) fun bits => ∃ vs : List Bool,
      List.Forall₂ (fun b v => b.Means w v) bits vs ∧ vs.length = 256 ∧
      (bitsValue vs : F) = num.wire w) ∧
    (num.Honest w → Complete w (unpackFe one num) fun bits =>
      List.Forall₂ (fun b v => b.Honest w v) bits
        ((List.range 256).map fun i => (LawfulField.val (num.wire w)).testBit i)) :=
  ⟨unpackFe_sound h1 num, unpackFe_complete h1⟩

/-- the decomposition of an allocated number -/
example [LawfulField F] (x : F) :
    (Enforces (fun one => do
      let num ← AllocatedNum.alloc (.ok x)
      let bits ← unpackFe one (.ofAllocated num)
      return (num, bits)) fun w r => ∃ vs : List Bool, List.Forall₂ (fun b v => b.Means w v) r.2 vs ∧
        (bitsValue vs : F) = w r.1.var) := by
  refine C33_soundness_of_circuits fun w one h1 => ?_
  refine Sound.bind (P := fun _ => True) (Sound.anyway _ fun _ => trivial) fun num _ => ?_
  refine Sound.bind (C35_unpack_partial h1 _).1 fun bits ⟨vs, h, _, hv⟩ => ⟨vs, h, ?_⟩
  simpa using hv

attribute [local irreducible] Sound Complete

/-! ### C36: 32-bit words -/

/-- **C36**: soundness.  `Carries` says that the wires carry the word, and that the constants among
the bits fit the value that the prover has computed, if any; all words of the interface do. -/
theorem C36_words_sound [LawfulField F] (h1 : w one = 1) (a b c : UInt 32) (x y z : BitVec 32)
    (ha : a.Carries w x) (hb : b.Carries w y) (hc : c.Carries w z) :
    (∀ value, Sound w (UInt.alloc (k := 32) value) fun u => ∃ v, u.Carries w v) ∧
    (∀ v : BitVec 32, (UInt.constant v).Carries w v) ∧
    (∀ n, (a.rotr n).Carries w (x.rotateRight (n % 32))) ∧
    (∀ n, (a.shr n).Carries w (x >>> (n % 32))) ∧
    (Sound w (UInt.xor a b) fun r => r.Carries w (x ^^^ y)) ∧
    (Sound w (UInt.sha256Ch one a b c) fun r => r.Carries w ((x &&& y) ^^^ (~~~x &&& z))) ∧
    (Sound w (UInt.sha256Maj one a b c) fun r =>
      r.Carries w ((x &&& y) ^^^ (x &&& z) ^^^ (y &&& z))) ∧
    ∀ (us : List (UInt 32)) (vs : List (BitVec 32)), List.Forall₂ (fun u v => u.Carries w v) us vs →
      Sound w (UInt.addmany one us) fun r => r.Carries w vs.sum :=
  ⟨UInt.alloc_sound (by omega), fun v => (UInt.constant_honest (by omega) v).carries,
    fun n => ⟨UInt.rotr_means n ha.1, UInt.rotr_wf n ha.2⟩,
    fun n => ⟨UInt.shr_means n ha.1, UInt.shr_wf n ha.2⟩, UInt.xor_sound ha hb,
    UInt.sha256Ch_sound h1 ha hb hc, UInt.sha256Maj_sound h1 ha hb hc,
    fun _ _ h => by rw [← ofNat_sum]; exact UInt.addmany_sound h1 h⟩

/-- **C36**: completeness, for two to ten summands -/
theorem C36_words_complete [LawfulField F] (h1 : w one = 1) (a b c : UInt 32) (x y z : BitVec 32)
    (ha : a.Honest w x) (hb : b.Honest w y) (hc : c.Honest w z) :
    (∀ v, Complete w (UInt.alloc (k := 32) (some v)) fun u => u.Honest w v) ∧
    (∀ v : BitVec 32, (UInt.constant v).Honest w v) ∧
    (∀ n, (a.rotr n).Honest w (x.rotateRight (n % 32))) ∧
    (∀ n, (a.shr n).Honest w (x >>> (n % 32))) ∧
    (Complete w (UInt.xor a b) fun r => r.Honest w (x ^^^ y)) ∧
    (Complete w (UInt.sha256Ch one a b c) fun r => r.Honest w ((x &&& y) ^^^ (~~~x &&& z))) ∧
    (Complete w (UInt.sha256Maj one a b c) fun r =>
      r.Honest w ((x &&& y) ^^^ (x &&& z) ^^^ (y &&& z))) ∧
    ∀ (us : List (UInt 32)) (vs : List (BitVec 32)), List.Forall₂ (fun u v => u.Honest w v) us vs →
      2 ≤ us.length → us.length ≤ 10 →
      Complete w (UInt.addmany one us) fun r => r.Honest w vs.sum :=
  ⟨UInt.alloc_complete (by omega), UInt.constant_honest (by omega), fun n => UInt.rotr_honest n ha,
    fun n => UInt.shr_honest n ha, UInt.xor_complete ha hb, UInt.sha256Ch_complete h1 ha hb hc,
    UInt.sha256Maj_complete h1 ha hb hc,
    fun _ _ h h2 h10 => by rw [← ofNat_sum]; exact UInt.addmany_complete h1 h h2 h10⟩

/-- **C36**: the conversions between words and lists of bits.  `from_bits` and `from_bits_be` panic
exactly on lists of another length than the word's. -/
theorem C36_words_bits {k : ℕ} (bits : List Boolean) (x : BitVec k) (u : UInt k) :
    (List.Forall₂ (fun b v => b.Means w v) bits (bitsOf x) →
      ∃ u, UInt.fromBits bits = some u ∧ u.Carries w x) ∧
    (List.Forall₂ (fun b v => b.Means w v) bits (bitsOf x).reverse →
      ∃ u, UInt.fromBitsBe bits = some u ∧ u.Carries w x) ∧
    ((UInt.fromBits bits : Option (UInt k)) = none ↔ bits.length ≠ k) ∧
    ((UInt.fromBitsBe bits : Option (UInt k)) = none ↔ bits.length ≠ k) ∧
    (u.Means w x → List.Forall₂ (fun b v => b.Means w v) u.intoBits (bitsOf x) ∧
      List.Forall₂ (fun b v => b.Means w v) u.intoBitsBe (bitsOf x).reverse) := by
  refine ⟨UInt.fromBits_carries, UInt.fromBitsBe_carries, ?_, ?_, fun h => ⟨h, List.rel_reverse h⟩⟩
  · unfold UInt.fromBits; split <;> simp [*]
  · unfold UInt.fromBitsBe; split <;> simp [*]

/-- a circuit that adds two allocated words and a constant -/
example [LawfulField F] (x y : BitVec 32) :
    (Enforces (F := F) (fun one => do
      let a ← UInt.alloc (some x)
      let b ← UInt.alloc (some y)
      let r ← UInt.addmany one [a, b, .constant 0xffffffff]
      return (a, b, r)) fun w r => ∃ u v, r.1.Means w u ∧ r.2.1.Means w v ∧ r.2.2.Means w (u + v - 1)) ∧
    Provable (F := F) (fun one => do
      let a ← UInt.alloc (some x)
      let b ← UInt.alloc (some y)
      UInt.addmany one [a, b, .constant 0xffffffff]) fun w r => r.Honest w (x + y - 1) := by
  have hs : ∀ x y : BitVec 32, [x, y, 0xffffffff].sum = x + y - 1 := by
    intro x y
    simp only [List.sum_cons, List.sum_nil]
    rw [show (0xffffffff : BitVec 32) = -1 by decide]
    ring
  have u0 : ∀ (w : Var → F), (UInt.constant (0 : BitVec 32)).Carries w 0 := fun w =>
    (UInt.constant_honest (by omega) _).carries
  constructor
  · refine C33_soundness_of_circuits fun w one h1 => ?_
    have hw := C36_words_sound h1 _ _ _ _ _ _ (u0 w) (u0 w) (u0 w)
    refine Sound.bind (hw.1 _) fun a ⟨u, hu⟩ => ?_
    refine Sound.bind (hw.1 _) fun b ⟨v, hv⟩ => ?_
    refine Sound.bind (hw.2.2.2.2.2.2.2 _ _ (.cons hu (.cons hv (.cons (hw.2.1 _) .nil)))) fun r hr => ?_
    exact (sound_ret _ _).2 ⟨u, v, hu.1, hv.1, by rw [← hs]; exact hr.1⟩
  · refine C33_completeness_of_circuits fun w one h1 => ?_
    refine Complete.bind (UInt.alloc_complete (by omega) x) fun a ha => ?_
    refine Complete.bind (UInt.alloc_complete (by omega) y) fun b hb => ?_
    rw [← hs]
    exact (C36_words_complete h1 a b b x y y ha hb hb).2.2.2.2.2.2.2 _ _
      (.cons ha (.cons hb (.cons (UInt.constant_honest (by omega) _) .nil))) (by simp) (by simp)

/-! ### C37: 64-bit multiply-accumulate -/

/-- **C37**: soundness -/
theorem C37_mul_acc2_sound [LawfulField F] (h1 : w one = 1) (a b c d : UInt 64)
    (x y z t : BitVec 64) (ha : a.Means w x) (hb : b.Means w y) (hc : c.Means w z)
    (hd : d.Means w t) :
    Sound w (UInt.mulAcc2 one a b c d) fun r => ∃ lo hi : BitVec 64, r.1.Means w lo ∧
      r.2.Means w hi ∧ lo.toNat + 2 ^ 64 * hi.toNat = x.toNat * y.toNat + z.toNat + t.toNat :=
  (UInt.mulAcc2_sound h1 ha hb hc hd).mono fun _ ⟨lo, hi, h1, h2, h3⟩ => ⟨lo, hi, h1.1, h2.1, h3⟩

/-- **C37**: completeness -/
theorem C37_mul_acc2_complete [LawfulField F] (h1 : w one = 1) (a b c d : UInt 64)
    (x y z t : BitVec 64) (ha : a.Honest w x) (hb : b.Honest w y) (hc : c.Honest w z)
    (hd : d.Honest w t) :
    Complete w (UInt.mulAcc2 one a b c d) fun r => ∃ lo hi : BitVec 64, r.1.Honest w lo ∧
      r.2.Honest w hi ∧ lo.toNat + 2 ^ 64 * hi.toNat = x.toNat * y.toNat + z.toNat + t.toNat :=
  UInt.mulAcc2_complete h1 ha hb hc hd

/-- a circuit that squares an allocated 64-bit word -/
example [LawfulField F] (x : BitVec 64) :
    (Enforces (F := F) (fun one => do
      let a ← UInt.alloc (some x)
      let r ← UInt.mulAcc2 one a a (.constant 0) (.constant 0)
      return (a, r)) fun w r => ∃ u lo hi : BitVec 64, r.1.Means w u ∧ r.2.1.Means w lo ∧
        r.2.2.Means w hi ∧ lo.toNat + 2 ^ 64 * hi.toNat = u.toNat * u.toNat) ∧
    Provable (F := F) (fun one => do
      let a ← UInt.alloc (some x)
      UInt.mulAcc2 one a a (.constant 0) (.constant 0)) fun w r => ∃ lo hi : BitVec 64,
        r.1.Honest w lo ∧ r.2.Honest w hi ∧ lo.toNat + 2 ^ 64 * hi.toNat = x.toNat * x.toNat := by
  constructor
  · refine C33_soundness_of_circuits fun w one h1 => ?_
    refine Sound.bind (UInt.alloc_sound (by omega) _) fun a ⟨u, hu⟩ => ?_
    have h0 := (UInt.constant_honest (w := w) (k := 64) (by omega) 0).means
    refine Sound.bind (C37_mul_acc2_sound h1 _ _ _ _ _ _ _ _ hu.1 hu.1 h0 h0)
      fun r ⟨lo, hi, h2, h3, h4⟩ => (sound_ret _ _).2 ⟨u, lo, hi, hu.1, h2, h3, by simpa using h4⟩
  · refine C33_completeness_of_circuits fun w one h1 => ?_
    refine Complete.bind (UInt.alloc_complete (by omega) _) fun a ha => ?_
    have h0 := UInt.constant_honest (w := w) (k := 64) (by omega) 0
    exact (C37_mul_acc2_complete h1 _ _ _ _ _ _ _ _ ha ha h0 h0).mono
      fun r ⟨lo, hi, h2, h3, h4⟩ => ⟨lo, hi, h2, h3, by simpa using h4⟩

/-! ### C38: SHA-256 -/

/-- **C38**: soundness, for messages of any number of whole bytes (the most significant bit of every
byte first), and for single blocks without padding -/
theorem C38_sha256_sound [LawfulField F] (h1 : w one = 1) (input : List Boolean) (m : List Bool)
    (h : List.Forall₂ (fun b v => b.Means w v) input m) :
    (m.length % 8 = 0 → Sound w (Sha256.sha256 one input) fun r =>
      List.Forall₂ (fun b v => b.Means w v) r (Fips180.hash m)) ∧
    (m.length = 512 → Sound w (Sha256.sha256BlockNoPadding one input) fun r =>
      List.Forall₂ (fun b v => b.Means w v) r (Fips180.hashBlock m)) :=
  ⟨Sha256.holds_sha256 (.sound h1) h, Sha256.holds_block (.sound h1) h⟩

/-- **C38**: completeness -/
theorem C38_sha256_complete [LawfulField F] (h1 : w one = 1) (input : List Boolean) (m : List Bool)
    (h : List.Forall₂ (fun b v => b.Honest w v) input m) :
    (m.length % 8 = 0 → Complete w (Sha256.sha256 one input) fun r =>
      List.Forall₂ (fun b v => b.Honest w v) r (Fips180.hash m)) ∧
    (m.length = 512 → Complete w (Sha256.sha256BlockNoPadding one input) fun r =>
      List.Forall₂ (fun b v => b.Honest w v) r (Fips180.hashBlock m)) :=
  ⟨Sha256.holds_sha256 (.complete h1) h, Sha256.holds_block (.complete h1) h⟩

/-- the message `abc`, as constants: the gadget yields the published digest -/
example [LawfulField F] (h1 : w one = 1) :
    Complete w (Sha256.sha256 one ((([0x61, 0x62, 0x63] : List (BitVec 8)).flatMap
      Fips180.bits).map Boolean.constant)) fun r => List.Forall₂ (fun b v => b.Honest w v) r
        (Fips180.hash (([0x61, 0x62, 0x63] : List (BitVec 8)).flatMap Fips180.bits)) := by
  refine (C38_sha256_complete h1 _ _ ?_).1 rfl
  rw [List.forall₂_map_left_iff, List.forall₂_same]
  exact fun _ _ => rfl

/-! ### C39: Rescue -/

/-- The call of the native sponge that a call of the gadget stands for -/
def nativeCall (w : Var → F) : RescueGadget.Call F → Rescue.Call F
  | .absorb n => .absorb (n.wire w)
  | .squeeze => .squeeze

/-- **C39**: after any history of calls, the wires squeezed from the gadget carry the elements that
the native sponge yields after the same history. -/
theorem C39_rescue_sound [LawfulField F] (h1 : w one = 1) (calls : List (RescueGadget.Call F)) :
    Sound w (RescueGadget.new one >>= RescueGadget.run one calls) fun r => ∃ r',
      Rescue.run (calls.map (nativeCall w)) Rescue.new = some (r.1.map fun n => w n.var, r') := by
  have hc : List.Forall₂ (RescueGadget.CallRel (NumLogic.sound h1)) calls
      (calls.map (nativeCall w)) := by
    rw [List.forall₂_map_right_iff, List.forall₂_same]
    rintro (n | _) _
    · exact .absorb rfl
    · exact .squeeze
  refine Sound.mono ?_ (RescueGadget.holds_history (NumLogic.sound h1) hc)
  rintro ⟨ns, g⟩ ⟨es, r', h, hr⟩
  dsimp only at hr ⊢
  refine ⟨r', ?_⟩
  rw [h]
  congr 2
  clear h
  induction hr with
  | nil => rfl
  | cons h _ ih => rw [List.map_cons, ← ih]; congr 1; exact h.symm

/-- **C39**: completeness, if the prover knows the absorbed numbers -/
theorem C39_rescue_complete [LawfulField F] (h1 : w one = 1) (calls : List (RescueGadget.Call F))
    (hk : ∀ n, RescueGadget.Call.absorb n ∈ calls → n.Honest w) :
    Complete w (RescueGadget.new one >>= RescueGadget.run one calls) fun r =>
      (∀ n ∈ r.1, n.Honest w) ∧ ∃ r',
        Rescue.run (calls.map (nativeCall w)) Rescue.new = some (r.1.map fun n => w n.var, r') := by
  have hc : List.Forall₂ (RescueGadget.CallRel (NumLogic.complete h1)) calls
      (calls.map (nativeCall w)) := by
    rw [List.forall₂_map_right_iff, List.forall₂_same]
    rintro (n | _) hn
    · exact .absorb ⟨hk n hn, rfl⟩
    · exact .squeeze
  refine Complete.mono ?_ (RescueGadget.holds_history (NumLogic.complete h1) hc)
  rintro ⟨ns, g⟩ ⟨es, r', h, hr⟩
  dsimp only at hr ⊢
  refine ⟨?_, r', ?_⟩
  · clear h
    induction hr with
    | nil => simp
    | cons h _ ih => exact List.forall_mem_cons.2 ⟨h.1, ih⟩
  · rw [h]
    congr 2
    clear h
    induction hr with
    | nil => rfl
    | cons h _ ih => rw [List.map_cons, ← ih]; congr 1; exact h.2.symm

/-- two absorbed constants and a squeeze -/
example [LawfulField F] (h1 : w one = 1) :
    Complete w (RescueGadget.new one >>= RescueGadget.run one
      [.absorb (.const 5), .absorb (.const 6), .squeeze]) fun r => (∀ n ∈ r.1, n.Honest w) ∧ ∃ r',
        Rescue.run [.absorb (5 : F), .absorb 6, .squeeze] Rescue.new =
          some (r.1.map fun n => w n.var, r') :=
  C39_rescue_complete h1 [.absorb (.const 5), .absorb (.const 6), .squeeze] (by
    intro n hn
    simp only [List.mem_cons, RescueGadget.Call.absorb.injEq, List.not_mem_nil, or_false,
      reduceCtorEq] at hn
    rcases hn with rfl | rfl <;> exact Num.honest_const _)

end Halo
