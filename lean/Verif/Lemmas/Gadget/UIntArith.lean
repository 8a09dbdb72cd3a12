import Verif.Lemmas.Gadget.UInt
import Verif.Lemmas.LawfulField
/-!
# Addition and multiplication of words
-/
namespace Halo
namespace Circuit
variable {F : Type} [Field F] {w : Var → F} {one : Var} {k : ℕ}

namespace UInt

/-- The number of turns of the loop -/
theorem addmanyLoop_sound (rv : Option ℕ) : ∀ (m i : ℕ) (coeff : Coeff F) (bits : List Boolean)
    (lc : LC F), Sound w (addmanyLoop rv m i coeff bits lc) fun r => ∃ (new : List Boolean)
      (vs : List Bool), r.1 = bits ++ new ∧ List.Forall₂ (fun b v => b.Means w v) new vs ∧
        (∀ b ∈ new, b.isConstant = false) ∧ vs.length = Nat.size m ∧
        r.2.eval w = lc.eval w + coeff.value * (bitsValue vs : F) := by
  intro m
  induction m using Nat.strong_induction_on with
  | _ m ih =>
  intro i coeff bits lc
  rw [addmanyLoop]
  split
  · rename_i h
    exact ⟨[], [], by simp, .nil, by simp, by simp [h], by simp [bitsValue]⟩
  · rename_i h
    refine Sound.bind (AllocatedBit.alloc_sound _) fun b ⟨v, hb⟩ => ?_
    refine Sound.mono ?_ (ih (m >>> 1) (by rw [Nat.shiftRight_one]; omega) _ _ _ _)
    rintro ⟨r1, r2⟩ ⟨new, vs, h1, h2, h3, h4, h5⟩
    refine ⟨.is b :: new, v :: vs, by simpa using h1, .cons hb h2, by simpa [Boolean.isConstant] using h3, ?_, ?_⟩
    · have : Nat.size m = Nat.size (m >>> 1) + 1 := by
        obtain ⟨n, b, rfl⟩ : ∃ n b, m = Nat.bit b n := ⟨m.div2, m.bodd, (Nat.bit_bodd_div2 m).symm⟩
        rw [Nat.size_bit h, Nat.shiftRight_one, ← Nat.div2_val, Nat.div2_bit]
      rw [List.length_cons, h4, this]
    · simp only [AllocatedBit.Means] at hb
      rw [h5, LC.eval_add, hb, Coeff.value_double, bitsValue]
      cases v <;> push_cast <;> simp <;> ring

theorem addmanyLoop_complete (s : ℕ) : ∀ (m i : ℕ) (coeff : Coeff F) (bits : List Boolean)
    (lc : LC F), Complete w (addmanyLoop (some s) m i coeff bits lc) fun r => ∃ (new : List Boolean),
      r.1 = bits ++ new ∧ List.Forall₂ (fun b v => b.Honest w v) new
        ((List.range (Nat.size m)).map fun j => s.testBit (i + j)) ∧
        r.2.eval w = lc.eval w + coeff.value *
          (bitsValue ((List.range (Nat.size m)).map fun j => s.testBit (i + j)) : F) := by
  intro m
  induction m using Nat.strong_induction_on with
  | _ m ih =>
  intro i coeff bits lc
  rw [addmanyLoop]
  split
  · rename_i h
    exact ⟨[], by simp, by simp [h], by simp [bitsValue, h]⟩
  · rename_i h
    have hbit : ((s >>> i) &&& 1 == 1) = s.testBit i := by
      rw [Nat.testBit, Nat.and_comm 1, Nat.and_one_is_mod]
      rcases Nat.mod_two_eq_zero_or_one (s >>> i) with h | h <;> simp [h]
    simp only [Option.map_some, orMissing_some, hbit]
    refine Complete.bind (AllocatedBit.alloc_complete _) fun b hb => ?_
    refine Complete.mono ?_ (ih (m >>> 1) (by rw [Nat.shiftRight_one]; omega) _ _ _ _)
    have hs : Nat.size m = Nat.size (m >>> 1) + 1 := by
      obtain ⟨n, b, rfl⟩ : ∃ n b, m = Nat.bit b n := ⟨m.div2, m.bodd, (Nat.bit_bodd_div2 m).symm⟩
      rw [Nat.size_bit h, Nat.shiftRight_one, ← Nat.div2_val, Nat.div2_bit]
    have hl : ((List.range (Nat.size m)).map fun j => s.testBit (i + j)) =
        s.testBit i :: (List.range (Nat.size (m >>> 1))).map fun j => s.testBit (i + 1 + j) := by
      rw [hs, List.range_succ_eq_map, List.map_cons, List.map_map]
      congr 1
      apply List.map_congr_left
      intro j _
      simp [add_assoc, add_comm 1]
    rw [hl]
    rintro ⟨r1, r2⟩ ⟨new, h1, h2, h5⟩
    refine ⟨.is b :: new, by simpa using h1, .cons hb h2, ?_⟩
    have hb := hb.1
    simp only [AllocatedBit.Means] at hb
    rw [h5, LC.eval_add, hb, Coeff.value_double, bitsValue]
    cases s.testBit i <;> push_cast <;> simp <;> ring

variable {ops : List (UInt 32)} {xs : List (BitVec 32)}

theorem eval_operands (h1 : w one = 1) (h : List.Forall₂ (fun u x => u.Means w x) ops xs)
    (lc : LC F) : (ops.foldl (fun lc op => addBits one lc op.bits) lc).eval w =
      lc.eval w + (((xs.map BitVec.toNat).sum : ℕ) : F) := by
  induction h generalizing lc with
  | nil => simp
  | cons hx _ ih =>
    rw [List.foldl_cons, ih, eval_addBits h1 hx, bitsValue_bitsOf, List.map_cons, List.sum_cons]
    push_cast; ring

theorem sum_operands_le (xs : List (BitVec 32)) :
    (xs.map BitVec.toNat).sum ≤ xs.length * (2 ^ 32 - 1) := by
  induction xs with
  | nil => simp
  | cons x xs ih => simp only [List.map_cons, List.sum_cons, List.length_cons]; omega

theorem resultValue_eq (xs : List (BitVec 32)) (s : ℕ)
    (h : List.Forall₂ (fun (u : UInt 32) x => u.value = some x) ops xs) :
    ops.foldl addValue (some s) = some (s + (xs.map BitVec.toNat).sum) := by
  induction h generalizing s with
  | nil => simp
  | cons hx _ ih =>
    rw [List.foldl_cons, addValue, hx]
    simp only [Option.map_some, ih, List.map_cons, List.sum_cons]
    congr 1; omega

theorem resultValue_none (ops : List (UInt 32)) :
    ops.foldl addValue none = none := by
  induction ops with
  | nil => rfl
  | cons u ops ih => rw [List.foldl_cons, addValue]; cases u.value <;> simpa using ih

theorem resultValue_some {n s : ℕ}
    (h : ops.foldl addValue (some s) = some n) :
    ∃ xs, List.Forall₂ (fun (u : UInt 32) x => u.value = some x) ops xs := by
  induction ops generalizing s with
  | nil => exact ⟨[], .nil⟩
  | cons u ops ih =>
    rw [List.foldl_cons, addValue] at h
    cases hu : u.value with
    | none => rw [hu] at h; simp only [resultValue_none] at h; cases h
    | some v =>
      rw [hu] at h
      obtain ⟨xs, hxs⟩ := ih h
      exact ⟨v :: xs, .cons hu hxs⟩

theorem size_max {n : ℕ} (h1 : 2 ≤ n) (h2 : n ≤ 10) :
    32 ≤ Nat.size (n * (2 ^ 32 - 1)) ∧ 2 ^ Nat.size (n * (2 ^ 32 - 1)) ≤ 2 ^ 64 := by
  constructor
  · by_contra h
    have h3 := Nat.lt_size_self (n * (2 ^ 32 - 1))
    have h4 : 2 ^ Nat.size (n * (2 ^ 32 - 1)) ≤ 2 ^ 32 := Nat.pow_le_pow_right (by omega) (by omega)
    omega
  · exact Nat.pow_le_pow_right (by omega) (Nat.size_le.2 (by omega))

theorem value_eq_of_constant {u : UInt k} {v x : BitVec k} (hc : u.bits.all Boolean.isConstant = true)
    (hv : u.value = some v) (h : u.Carries w x) : v = x := by
  apply bitsOf_inj
  have h1 := h.2 v hv
  have h2 := h.1
  rw [Means] at h2
  generalize bitsOf v = l1 at *
  generalize bitsOf x = l2 at *
  rw [List.all_eq_true] at hc
  generalize u.bits = bits at *
  clear * - hc h1 h2
  induction h1 generalizing l2 with
  | nil => cases h2; rfl
  | cons h _ ih => cases h2 with
    | cons h' h2 =>
      rw [Boolean.eq_of_fits_means (hc _ (by simp)) h h', ih _ (fun b hb => hc b (by simp [hb])) h2]

theorem cast_inj_of_lt [LawfulField F] {a b : ℕ} (ha : a < 2 ^ 254) (hb : b < 2 ^ 254)
    (h : (a : F) = b) : a = b := by
  have hm := (LawfulField.modulus_bound (F := F)).1
  rw [← LawfulField.val_of_lt (F := F) (ha.trans hm), h, LawfulField.val_of_lt (hb.trans hm)]

theorem addmany_sound [LawfulField F] (h1 : w one = 1)
    (h : List.Forall₂ (fun u x => u.Carries w x) ops xs) :
    Sound w (addmany one ops) fun r => r.Carries w (BitVec.ofNat 32 (xs.map BitVec.toNat).sum) := by
  have hm : List.Forall₂ (fun u x => u.Means w x) ops xs := h.imp fun _ _ h => h.1
  unfold addmany
  split
  · trivial
  rename_i hlen
  rw [not_or, Nat.not_lt, Nat.not_lt] at hlen
  simp only []
  split
  · rename_i ac mv v hac hmv
    obtain ⟨n, hn, rfl⟩ := Option.map_eq_some_iff.1 hmv
    obtain ⟨ys, hys⟩ := resultValue_some hn
    rw [resultValue_eq ys 0 hys, zero_add] at hn
    cases hn
    have : ys = xs := by
      clear * - h hys hac
      rw [List.all_eq_true] at hac
      induction h generalizing ys with
      | nil => cases hys; rfl
      | cons hx _ ih => cases hys with
        | cons hy hys =>
          rw [value_eq_of_constant (hac _ (by simp)) hy hx, ih (fun u hu => hac u (by simp [hu])) _ hys]
    rw [this]
    exact (constant_honest (by omega) _).carries
  · refine Sound.bind (addmanyLoop_sound _ _ _ _ _ _) ?_
    rintro ⟨bits, lc⟩ ⟨new, vs, hb, hvs, hnc, hl, hlc⟩
    simp only [List.nil_append] at hb
    subst hb
    refine Sound.bind (P := fun _ => _) ((sound_enforce _ _).2 fun h => h) fun _ he => ?_
    rw [LC.eval_subLC, sub_eq_zero, eval_operands h1 hm, hlc] at he
    simp only [LC.eval_zero, zero_add, Coeff.value_one, one_mul] at he
    have hsz := size_max hlen.1 hlen.2
    have hlt := bitsValue_lt vs
    rw [hl] at hlt
    have hle := sum_operands_le xs
    rw [← h.length_eq] at hle
    have heq := cast_inj_of_lt (lt_of_le_of_lt hle (by omega))
      (lt_of_lt_of_le hlt (hsz.2.trans (Nat.pow_le_pow_right (by omega) (by omega)))) he
    have hlb := hvs.length_eq
    refine ⟨?_, wf_of_not_constant (fun b hb => hnc b (List.mem_of_mem_take hb)) ?_⟩
    · rw [heq, Means, ← take_eq_bitsOf (by omega)]
      exact forall₂_take hvs 32
    · simp only [List.length_take]; omega

theorem addmany_complete [LawfulField F] (h1 : w one = 1)
    (h : List.Forall₂ (fun u x => u.Honest w x) ops xs) (h2 : 2 ≤ ops.length)
    (h10 : ops.length ≤ 10) :
    Complete w (addmany one ops) fun r => r.Honest w (BitVec.ofNat 32 (xs.map BitVec.toNat).sum) := by
  have hm : List.Forall₂ (fun u x => u.Means w x) ops xs := h.imp fun _ _ h => h.means
  unfold addmany
  rw [if_neg (by omega)]
  simp only [resultValue_eq xs 0 (h.imp fun _ _ h => h.2), zero_add, Option.map_some]
  split
  · rename_i hv
    cases hv
    exact constant_honest (by omega) _
  · refine Complete.bind (addmanyLoop_complete _ _ _ _ _ _) ?_
    rintro ⟨bits, lc⟩ ⟨new, hb, hvs, hlc⟩
    simp only [List.nil_append, zero_add] at hb hvs
    subst hb
    have hsz := size_max h2 h10
    have hle := sum_operands_le xs
    rw [← h.length_eq] at hle
    have hlt := lt_of_le_of_lt hle (Nat.lt_size_self _)
    refine (complete_bind _ _ _).2 ((complete_enforce _ _).2 ⟨?_, ?_⟩)
    · rw [LC.eval_subLC, sub_eq_zero, eval_operands h1 hm, hlc]
      simp only [LC.eval_zero, zero_add, Coeff.value_one, one_mul]
      rw [bitsValue_range, Nat.mod_eq_of_lt hlt]
    · refine ⟨?_, rfl⟩
      have := take_eq_bitsOf (k := 32)
        (l := (List.range (Nat.size (ops.length * (2 ^ 32 - 1)))).map
          fun j => (xs.map BitVec.toNat).sum.testBit j) (by simpa using hsz.1)
      rw [bitsValue_range, Nat.mod_eq_of_lt hlt] at this
      rw [← this]
      exact forall₂_take hvs 32

/-! ### `mul_acc2` -/

theorem eval_lc64 (h1 : w one = 1) {u : UInt 64} {x : BitVec 64} (h : u.Means w x) :
    (u.lc one : LC F).eval w = (x.toNat : F) := by
  rw [lc, eval_addBits h1 h, bitsValue_bitsOf, LC.eval_zero, zero_add]

theorem fromBytes_twoPow64 [LawfulField F] :
    FieldApi.fromBytes twoPow64Bytes = some ((2 ^ 64 : ℕ) : F) := by
  have hv : leNat twoPow64Bytes.toList = 2 ^ 64 := by decide +kernel
  have := LawfulField.fromBytes_ok (F := F) twoPow64Bytes (by
    rw [hv]
    exact lt_of_lt_of_le (Nat.pow_lt_pow_right (by omega) (by omega))
      (LawfulField.modulus_bound (F := F)).1.le)
  rw [this, hv]

theorem split_bits {vs : List Bool} (h : vs.length = 128) :
    vs.take 64 = bitsOf (BitVec.ofNat 64 (bitsValue (vs.take 64))) ∧
    (vs.take 128).drop 64 = bitsOf (BitVec.ofNat 64 (bitsValue (vs.drop 64))) ∧
    bitsValue vs = (BitVec.ofNat 64 (bitsValue (vs.take 64))).toNat +
      2 ^ 64 * (BitVec.ofNat 64 (bitsValue (vs.drop 64))).toNat := by
  have h1 := eq_bitsOf_ofNat (vs.take 64)
  have h2 := eq_bitsOf_ofNat (vs.drop 64)
  have l1 : (vs.take 64).length = 64 := by simp [h]
  have l2 : (vs.drop 64).length = 64 := by simp [h]
  rw [l1] at h1
  rw [l2] at h2
  have ht : vs.take 128 = vs := List.take_of_length_le (by omega)
  refine ⟨h1, by rw [ht]; exact h2, ?_⟩
  conv_lhs => rw [← List.take_append_drop 64 vs, bitsValue_append, l1]
  have b1 := bitsValue_lt (vs.take 64)
  have b2 := bitsValue_lt (vs.drop 64)
  rw [l1] at b1
  rw [l2] at b2
  rw [BitVec.toNat_ofNat, BitVec.toNat_ofNat, Nat.mod_eq_of_lt b1, Nat.mod_eq_of_lt b2]

theorem mulAcc2_sound [LawfulField F] (h1 : w one = 1) {a b c d : UInt 64}
    {x y z t : BitVec 64} (ha : a.Means w x) (hb : b.Means w y) (hc : c.Means w z)
    (hd : d.Means w t) :
    Sound w (mulAcc2 one a b c d) fun r => ∃ lo hi : BitVec 64, r.1.Carries w lo ∧
      r.2.Carries w hi ∧ lo.toNat + 2 ^ 64 * hi.toNat = x.toNat * y.toNat + z.toNat + t.toNat := by
  unfold mulAcc2
  refine Sound.bind (allocBooleans_sound _) fun bits ⟨vs, hvs, hl, hnc⟩ => ?_
  have hl' : vs.length = 128 := by
    rw [hl]
    split
    · rw [shiftBits_self (by omega)]; simp
    · simp
  obtain ⟨s1, s2, s3⟩ := split_bits hl'
  generalize BitVec.ofNat 64 (bitsValue (vs.take 64)) = lo at *
  generalize BitVec.ofNat 64 (bitsValue (vs.drop 64)) = hi at *
  obtain ⟨ulo, hulo, clo⟩ := fromBits_carries (k := 64) (w := w) (x := lo)
    (bits := bits.take 64) (by rw [← s1]; exact forall₂_take hvs 64)
  obtain ⟨uhi, huhi, chi⟩ := fromBits_carries (k := 64) (w := w) (x := hi)
    (bits := (bits.take 128).drop 64) (by rw [← s2]; exact List.forall₂_drop 64 (forall₂_take hvs 128))
  simp only [hulo, huhi, orPanic, fromBytes_twoPow64, Prog.pure_eq, sound_bind, sound_pure,
    sound_doMultiply, sound_enforce, LC.eval_subLC, LC.eval_subVar, LC.eval_addScaled,
    eval_lc64 h1 ha, eval_lc64 h1 hb, eval_lc64 h1 hc, eval_lc64 h1 hd, eval_lc64 h1 clo.1,
    eval_lc64 h1 chi.1, sub_eq_zero, Coeff.value_full]
  intro l r o _ hm e1 e2 e3
  rw [← e1, ← e2] at hm
  rw [← hm] at e3
  refine ⟨lo, hi, clo, chi, ?_⟩
  have hx := x.isLt
  have hy := y.isLt
  have hz := z.isLt
  have ht := t.isLt
  have h3 := lo.isLt
  have h4 := hi.isLt
  have hxy : x.toNat * y.toNat < 2 ^ 64 * 2 ^ 64 := Nat.mul_lt_mul'' hx hy
  refine cast_inj_of_lt (F := F) ?_ ?_ ?_
  · exact lt_of_lt_of_le (b := 2 ^ 129) (by omega) (Nat.pow_le_pow_right (by omega) (by omega))
  · exact lt_of_lt_of_le (b := 2 ^ 129) (by omega) (Nat.pow_le_pow_right (by omega) (by omega))
  · push_cast at e3 ⊢
    linear_combination e3

theorem mulAcc2_complete [LawfulField F] (h1 : w one = 1) {a b c d : UInt 64}
    {x y z t : BitVec 64} (ha : a.Honest w x) (hb : b.Honest w y) (hc : c.Honest w z)
    (hd : d.Honest w t) :
    Complete w (mulAcc2 one a b c d) fun r => ∃ lo hi : BitVec 64, r.1.Honest w lo ∧
      r.2.Honest w hi ∧ lo.toNat + 2 ^ 64 * hi.toNat = x.toNat * y.toNat + z.toNat + t.toNat := by
  unfold mulAcc2
  simp only [ha.2, hb.2, hc.2, hd.2, both, Option.bind_some, Option.map_some]
  have hx := x.isLt
  have hy := y.isLt
  have hz := z.isLt
  have ht := t.isLt
  have hxy : x.toNat * y.toNat ≤ (2 ^ 64 - 1) * (2 ^ 64 - 1) :=
    Nat.mul_le_mul (by omega) (by omega)
  have hprod : (BitVec.setWidth 128 x * BitVec.setWidth 128 y).toNat = x.toNat * y.toNat := by
    rw [BitVec.toNat_mul, BitVec.toNat_setWidth, BitVec.toNat_setWidth,
      Nat.mod_eq_of_lt (a := x.toNat) (by omega), Nat.mod_eq_of_lt (a := y.toNat) (by omega),
      Nat.mod_eq_of_lt (by omega)]
  have hsum : (BitVec.setWidth 128 x * BitVec.setWidth 128 y + BitVec.setWidth 128 z +
      BitVec.setWidth 128 t).toNat = x.toNat * y.toNat + z.toNat + t.toNat := by
    rw [BitVec.toNat_add, BitVec.toNat_add, hprod, BitVec.toNat_setWidth, BitVec.toNat_setWidth,
      Nat.mod_eq_of_lt (a := z.toNat) (by omega), Nat.mod_eq_of_lt (a := t.toNat) (by omega),
      Nat.mod_eq_of_lt (a := x.toNat * y.toNat + z.toNat) (by omega), Nat.mod_eq_of_lt (by omega)]
  generalize BitVec.setWidth 128 x * BitVec.setWidth 128 y + BitVec.setWidth 128 z +
      BitVec.setWidth 128 t = S at *
  generalize BitVec.setWidth 128 x * BitVec.setWidth 128 y = P at *
  rw [shiftBits_self (by omega)]
  refine Complete.bind (allocBooleans_complete _) fun bits hvs => ?_
  obtain ⟨s1, s2, s3⟩ := split_bits (vs := bitsOf S) (by simp)
  rw [bitsValue_bitsOf] at s3
  generalize BitVec.ofNat 64 (bitsValue ((bitsOf S).take 64)) = lo at *
  generalize BitVec.ofNat 64 (bitsValue ((bitsOf S).drop 64)) = hi at *
  obtain ⟨ulo, hulo, clo⟩ := fromBits_honest (k := 64) (w := w) (x := lo)
    (bits := bits.take 64) (by rw [← s1]; exact forall₂_take hvs 64)
  obtain ⟨uhi, huhi, chi⟩ := fromBits_honest (k := 64) (w := w) (x := hi)
    (bits := (bits.take 128).drop 64) (by rw [← s2]; exact List.forall₂_drop 64 (forall₂_take hvs 128))
  have e : ((S.toNat : ℕ) : F) = _ := congrArg (Nat.cast (R := F)) (s3.symm.trans rfl).symm
  rw [hsum] at e
  push_cast at e
  simp only [hulo, huhi, orPanic, fromBytes_twoPow64, Prog.pure_eq, complete_bind, complete_pure,
    complete_doMultiply, complete_enforce, LC.eval_subLC, LC.eval_subVar, LC.eval_addScaled,
    eval_lc64 h1 ha.means, eval_lc64 h1 hb.means, eval_lc64 h1 hc.means, eval_lc64 h1 hd.means,
    eval_lc64 h1 clo.means, eval_lc64 h1 chi.means, sub_eq_zero, Coeff.value_full, orMissing_some,
    ok_bind, LawfulField.fromU64_eq, LawfulField.fromU128_eq, hprod]
  refine ⟨_, rfl, by push_cast; rfl, fun l r o e1 e2 e3 => ?_⟩
  refine ⟨e1.symm, e2.symm, ?_, lo, hi, clo, chi, by rw [← s3, hsum]⟩
  simp only [e3]
  push_cast
  linear_combination -e

end UInt
end Circuit
end Halo
