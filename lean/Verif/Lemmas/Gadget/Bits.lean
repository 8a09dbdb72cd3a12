import Verif.Spec.Gadget.Words
import Verif.Lemmas.Gadget.Num
import Verif.Lemmas.Gadget.Logic
import Mathlib.Data.Nat.Bitwise
/-!
# Bit lists and words
-/
namespace Halo
namespace Circuit
variable {F : Type} [Field F] {w : Var → F} {one : Var} {k : ℕ}

theorem bitsValue_lt (l : List Bool) : bitsValue l < 2 ^ l.length := by
  induction l with
  | nil => simp [bitsValue]
  | cons b l ih => rw [bitsValue, List.length_cons, pow_succ]; cases b <;> simp <;> omega

theorem bitsValue_append (l l' : List Bool) :
    bitsValue (l ++ l') = bitsValue l + 2 ^ l.length * bitsValue l' := by
  induction l with
  | nil => simp [bitsValue]
  | cons b l ih => rw [List.cons_append, bitsValue, ih, bitsValue, List.length_cons, pow_succ]; ring

theorem testBit_bitsValue (l : List Bool) (i : ℕ) : (bitsValue l).testBit i = l.getD i false := by
  induction l generalizing i with
  | nil => simp [bitsValue]
  | cons b l ih =>
    rw [bitsValue]
    cases i with
    | zero => cases b <;> simp [Nat.testBit_zero]
    | succ i =>
      rw [Nat.testBit_succ, show (b.toNat + 2 * bitsValue l) / 2 = bitsValue l by cases b <;> simp; omega,
        ih]
      simp

theorem bitsValue_inj {l l' : List Bool} (hl : l.length = l'.length)
    (h : bitsValue l = bitsValue l') : l = l' := by
  apply List.ext_getElem hl
  intro i h1 h2
  have := congrArg (fun n => n.testBit i) h
  simpa [testBit_bitsValue, List.getD, h1, h2] using this

theorem bitsValue_range (n s : ℕ) :
    bitsValue ((List.range n).map fun i => s.testBit i) = s % 2 ^ n := by
  apply Nat.eq_of_testBit_eq
  intro i
  rw [testBit_bitsValue, Nat.testBit_mod_two_pow]
  by_cases h : i < n <;> simp [List.getD, h]

@[simp] theorem length_bitsOf (x : BitVec k) : (bitsOf x).length = k := by simp [bitsOf]

theorem bitsOf_eq (x : BitVec k) : bitsOf x = (List.range k).map fun i => x.toNat.testBit i := rfl

@[simp] theorem bitsValue_bitsOf (x : BitVec k) : bitsValue (bitsOf x) = x.toNat := by
  rw [bitsOf_eq, bitsValue_range, Nat.mod_eq_of_lt x.isLt]

theorem eq_bitsOf {l : List Bool} {x : BitVec k} (hl : l.length = k) (h : bitsValue l = x.toNat) :
    l = bitsOf x := bitsValue_inj (by simp [hl]) (by simp [h])

theorem eq_bitsOf_ofNat (l : List Bool) : l = bitsOf (BitVec.ofNat l.length (bitsValue l)) :=
  eq_bitsOf rfl (by rw [BitVec.toNat_ofNat, Nat.mod_eq_of_lt (bitsValue_lt l)])

theorem bitsOf_inj {x y : BitVec k} (h : bitsOf x = bitsOf y) : x = y := by
  apply BitVec.eq_of_toNat_eq
  rw [← bitsValue_bitsOf, h, bitsValue_bitsOf]

theorem bitsOf_getElem (x : BitVec k) (i : ℕ) (h : i < (bitsOf x).length) :
    (bitsOf x)[i] = x.getLsbD i := by simp [bitsOf]

/-- the low bits of a number -/
theorem take_eq_bitsOf {l : List Bool} (h : k ≤ l.length) :
    l.take k = bitsOf (BitVec.ofNat k (bitsValue l)) := by
  apply eq_bitsOf (by simp [h])
  rw [BitVec.toNat_ofNat]
  conv_rhs => rw [← List.take_append_drop k l, bitsValue_append]
  have := bitsValue_lt (l.take k)
  rw [List.length_take, min_eq_left h] at *
  rw [Nat.add_mul_mod_self_left, Nat.mod_eq_of_lt this]

theorem shiftBits_eq (hk : 0 < k) (n : ℕ) : ∀ x : BitVec k,
    shiftBits n x = (List.range n).map fun i => x.getLsbD i := by
  induction n with
  | zero => simp [shiftBits]
  | succ n ih =>
    intro x
    rw [shiftBits, ih, List.range_succ_eq_map, List.map_cons, List.map_map]
    congr 1
    · have h1 : x &&& 1#k = BitVec.ofNat k (x.toNat % 2) := by
        apply BitVec.eq_of_toNat_eq
        have : (1 : ℕ) % 2 ^ k = 1 := Nat.mod_eq_of_lt (Nat.one_lt_two_pow (by omega))
        have h2 : x.toNat % 2 % 2 ^ k = x.toNat % 2 :=
          Nat.mod_eq_of_lt (lt_of_lt_of_le (Nat.mod_lt _ (by omega))
            (by simpa using Nat.pow_le_pow_right (n := 2) (by omega) hk))
        simp [this, Nat.and_one_is_mod, h2]
      have h2 : x.getLsbD 0 = decide (x.toNat % 2 = 1) := by
        rw [BitVec.getLsbD, Nat.testBit_zero]
      rw [h1, h2]
      have h3 : (0 : ℕ) ≠ 1 % 2 ^ k := by
        rw [Nat.mod_eq_of_lt (Nat.one_lt_two_pow (by omega))]; omega
      rcases Nat.mod_two_eq_zero_or_one x.toNat with h | h <;> rw [h]
      · simp only [zero_ne_one, decide_false, beq_eq_false_iff_ne, ne_eq]
        intro hh
        have := congrArg BitVec.toNat hh
        simp at this
        omega
      · simp
    · apply List.map_congr_left
      intro i _
      simp [add_comm]

theorem shiftBits_self (hk : 0 < k) (x : BitVec k) : shiftBits k x = bitsOf x := shiftBits_eq hk k x

/-! ### Linear combinations of bits -/

theorem eval_addBits (h1 : w one = 1) {bits : List Boolean} {vs : List Bool}
    (h : List.Forall₂ (fun b v => b.Means w v) bits vs) (lc : LC F) :
    (UInt.addBits one lc bits).eval w = lc.eval w + (bitsValue vs : F) := by
  have : ∀ (c : Coeff F) (lc : LC F), (bits.foldl (fun (acc : LC F × Coeff F) bit =>
      (acc.1.addLC (bit.lc one acc.2), acc.2.double)) (lc, c)).1.eval w =
        lc.eval w + c.value * (bitsValue vs : F) := by
    induction h with
    | nil => simp [bitsValue]
    | @cons b v bits vs hb _ ih =>
      intro c lc
      rw [List.foldl_cons, ih, LC.eval_addLC, Boolean.eval_lc h1 hb, bitsValue, Coeff.value_double]
      cases v <;> push_cast <;> simp <;> ring
  have h := this .one lc
  rw [Coeff.value_one, one_mul] at h
  exact h

theorem eval_packBits {bits : List AllocatedBit} {vs : List Bool}
    (h : List.Forall₂ (fun b v => b.Means w v) bits vs) :
    (packBits bits : LC F).eval w = (bitsValue vs : F) := by
  have : ∀ (c : F) (lc : LC F), (bits.foldl (fun (acc : LC F × F) b =>
      (acc.1.add (.full acc.2) b.var, acc.2 + acc.2)) (lc, c)).1.eval w =
        lc.eval w + c * (bitsValue vs : F) := by
    induction h with
    | nil => simp [bitsValue]
    | @cons b v bits vs hb _ ih =>
      intro c lc
      simp only [AllocatedBit.Means] at hb
      rw [List.foldl_cons, ih, LC.eval_add, hb, bitsValue]
      cases v <;> push_cast <;> simp <;> ring
  have h := this 1 LC.zero
  rw [one_mul, LC.eval_zero, zero_add] at h
  exact h

/-! ### Bit decomposition of field elements -/

theorem leNat_append_bits (bytes : List (BitVec 8)) : bitsValue (bytesBits bytes) = leNat bytes := by
  induction bytes with
  | nil => rfl
  | cons b bs ih =>
    have h8 : ((List.range 8).map fun i => b.getLsbD i) = bitsOf b := rfl
    rw [bytesBits, List.flatMap_cons, bitsValue_append, h8, bitsValue_bitsOf, length_bitsOf]
    rw [bytesBits] at ih
    rw [ih, leNat]
    norm_num

theorem length_bytesBits (bytes : List (BitVec 8)) : (bytesBits bytes).length = 8 * bytes.length := by
  induction bytes with
  | nil => rfl
  | cons b bs ih => rw [bytesBits] at ih ⊢; simp [ih]; omega

theorem allocBits_sound (values : List (Option Bool)) :
    Sound w (mapProg (fun value => AllocatedBit.alloc (orMissing value)) values) fun bits =>
      ∃ vs : List Bool, List.Forall₂ (fun b v => b.Means w v) bits vs ∧ vs.length = values.length := by
  refine Logic.mono (Logic.sound w) ((Logic.sound w).mapProg
    (f := fun value => AllocatedBit.alloc (orMissing value))
    (P := fun (_ : Option Bool) (b : AllocatedBit) => ∃ v, b.Means w v)
    (xs := values) fun x _ => AllocatedBit.alloc_sound _) fun bits h => ?_
  induction h with
  | nil => exact ⟨[], .nil, rfl⟩
  | cons hb _ ih =>
    obtain ⟨v, hv⟩ := hb
    obtain ⟨vs, hvs, hl⟩ := ih
    exact ⟨v :: vs, .cons hv hvs, by simp [hl]⟩

theorem allocBits_complete (vs : List Bool) :
    Complete w (mapProg (fun value => AllocatedBit.alloc (orMissing value)) (vs.map some))
      fun bits => List.Forall₂ (fun b v => b.Honest w v) bits vs := by
  refine Logic.mono (Logic.complete w) ((Logic.complete w).mapProg
    (f := fun value => AllocatedBit.alloc (orMissing value))
    (P := fun (v : Option Bool) (b : AllocatedBit) => ∀ x, v = some x → b.Honest w x)
    (xs := vs.map some) fun x hx => ?_) fun bits h => ?_
  · obtain ⟨v, -, rfl⟩ := List.mem_map.1 hx
    exact (AllocatedBit.alloc_complete v).mono fun b hb x hx => by cases hx; exact hb
  · rw [List.forall₂_map_left_iff] at h
    exact h.flip.imp fun _ _ h => h _ rfl

theorem unpackFe_sound [LawfulField F] (h1 : w one = 1) (num : Num F) :
    Sound w (unpackFe one num) fun bits => ∃ vs : List Bool,
      List.Forall₂ (fun b v => b.Means w v) bits vs ∧ vs.length = 256 ∧
      (bitsValue vs : F) = num.wire w := by
  refine Sound.bind (allocBits_sound _) fun bits ⟨vs, hvs, hl⟩ => ?_
  simp only [Prog.pure_eq, sound_bind, sound_enforce, LC.eval_subLC, Num.eval_lc h1, sub_eq_zero,
    sound_pure, eval_packBits hvs]
  refine fun h => ⟨vs, hvs, ?_, h⟩
  rw [hl]
  cases num.value with
  | none => exact List.length_replicate
  | some v => rw [List.length_map, length_bytesBits, Vector.length_toList]

theorem unpackFe_complete [LawfulField F] (h1 : w one = 1) {num : Num F} (h : num.Honest w) :
    Complete w (unpackFe one num) fun bits =>
      List.Forall₂ (fun b v => b.Honest w v) bits
        ((List.range 256).map fun i => (LawfulField.val (num.wire w)).testBit i) := by
  rw [Num.Honest] at h
  simp only [unpackFe, h]
  refine Complete.bind (allocBits_complete _) fun bits hbits => ?_
  have hval : bitsValue (bytesBits (FieldApi.toBytes (num.wire w)).toList) =
      LawfulField.val (num.wire w) := by
    rw [leNat_append_bits, LawfulField.toBytes_val]
  have hlen : (bytesBits (FieldApi.toBytes (num.wire w)).toList).length = 256 := by
    rw [length_bytesBits]; simp
  simp only [Prog.pure_eq, complete_bind, complete_enforce, LC.eval_subLC, Num.eval_lc h1,
    sub_eq_zero, complete_pure, eval_packBits (hbits.imp fun _ _ h => h.1), hval,
    LawfulField.val_cast]
  refine ⟨trivial, ?_⟩
  have : bytesBits (FieldApi.toBytes (num.wire w)).toList =
      (List.range 256).map fun i => (LawfulField.val (num.wire w)).testBit i := by
    apply bitsValue_inj
    · simp [hlen]
    · rw [hval, bitsValue_range, Nat.mod_eq_of_lt]
      exact (LawfulField.val_lt _).trans
        ((LawfulField.modulus_bound (F := F)).2.trans (Nat.pow_lt_pow_right (by omega) (by omega)))
  rwa [← this]

end Circuit
end Halo
