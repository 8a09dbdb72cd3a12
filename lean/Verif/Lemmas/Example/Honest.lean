import Verif.Lemmas.Example.Step
import Verif.Lemmas.Gadget.Must
/-!
# The values of the honest prover of the Bitcoin example
-/
namespace Halo
namespace Example
open Circuit Recursion
open Circuit.Sha256 (foldProg index)
variable {F : Type} [Field F] {w : Var → F} {one : Var}

/-- A byte with its bits in the other order -/
def mirror (b : ℕ) : ℕ := (List.range 8).foldl (fun acc i => 2 * acc + (b.testBit i).toNat) 0

theorem mirror_step (b n : ℕ) (acc : F) : (List.range n).foldl (fun acc i =>
      let acc := acc + acc
      if b.testBit i then acc + 1 else acc) acc =
    acc * 2 ^ n + ((List.range n).foldl (fun acc i => 2 * acc + (b.testBit i).toNat) 0 : ℕ) := by
  induction n with
  | zero => simp
  | succ n ih =>
    simp only [List.range_succ, List.foldl_append, List.foldl_cons, List.foldl_nil, ih]
    push_cast
    cases b.testBit n <;> simp <;> ring

theorem doubleAndAdd_eq (l : List ℕ) : (doubleAndAdd l : F) = (bytesValue (l.map mirror) : ℕ) := by
  unfold doubleAndAdd
  rw [List.foldl_reverse]
  induction l with
  | nil => simp [bytesValue]
  | cons b l ih =>
    rw [List.foldr_cons, ih, List.map_cons, bytesValue]
    refine (mirror_step b 8 _).trans ?_
    rw [mirror]
    push_cast
    ring

theorem mirror_lt : ∀ a < 256, mirror a < 256 := by decide +kernel

theorem mirror_eq : ∀ a < 256, (mirror a = a ↔ ∀ i < 8, a.testBit i = a.testBit (7 - i)) := by decide +kernel

theorem bytes3_inj {a b c a' b' c' : ℕ} (ha : a < 256) (hb : b < 256) (ha' : a' < 256) (hb' : b' < 256)
    (h : bytesValue [a, b, c] = bytesValue [a', b', c']) : a = a' ∧ b = b' ∧ c = c' := by
  simp only [bytesValue] at h
  omega

theorem mirrored_iff {p : List Bool} {a b c : ℕ} (ha : a < 256) (hb : b < 256) (hc : c < 256)
    (h : bytesValue [a, b, c] = Bitcoin.mantissa p) :
    Bitcoin.Mirrored p ↔ mirror a = a ∧ mirror b = b ∧ mirror c = c := by
  have key : ∀ i < 8, (Bitcoin.mantissa p).testBit (8 * 0 + i) = a.testBit i ∧
      (Bitcoin.mantissa p).testBit (8 * 1 + i) = b.testBit i ∧ (Bitcoin.mantissa p).testBit (8 * 2 + i) = c.testBit i := by
    intro i hi
    have e : ∀ k x : ℕ, (Bitcoin.mantissa p / 2 ^ (8 * k)) % 2 ^ 8 = x →
        (Bitcoin.mantissa p).testBit (8 * k + i) = x.testBit i := by
      rintro k x rfl
      rw [Nat.testBit_mod_two_pow, Nat.testBit_div_two_pow, Nat.add_comm]
      simp [hi]
    simp only [bytesValue] at h
    refine ⟨e 0 a ?_, e 1 b ?_, e 2 c ?_⟩ <;> norm_num <;> omega
  rw [mirror_eq a ha, mirror_eq b hb, mirror_eq c hc]
  constructor
  · intro H
    refine ⟨fun i hi => ?_, fun i hi => ?_, fun i hi => ?_⟩
    · rw [← (key i hi).1, ← (key (7 - i) (by omega)).1, H 0 (by omega) i hi]
    · rw [← (key i hi).2.1, ← (key (7 - i) (by omega)).2.1, H 1 (by omega) i hi]
    · rw [← (key i hi).2.2, ← (key (7 - i) (by omega)).2.2, H 2 (by omega) i hi]
  · rintro ⟨h1, h2, h3⟩ byte hb i hi
    interval_cases byte
    · rw [(key i hi).1, (key (7 - i) (by omega)).1, h1 i hi]
    · rw [(key i hi).2.1, (key (7 - i) (by omega)).2.1, h2 i hi]
    · rw [(key i hi).2.2, (key (7 - i) (by omega)).2.2, h3 i hi]

theorem inputBits_complete (vs : List Bool) : Complete w (inputBits (F := F) vs)
    fun bits => List.Forall₂ (AllocatedBit.Honest w) bits vs := by
  refine Logic.mono (Logic.complete w) ((Logic.complete w).mapProg
    (f := fun b => AllocatedBit.allocInputUnchecked (.ok b)) (P := fun (v : Bool) (b : AllocatedBit) => b.Honest w v)
    fun v _ => AllocatedBit.allocInputUnchecked_complete v) fun bits h => h.flip

theorem privateBits_complete (vs : List Bool) : Complete w (privateBits (F := F) vs)
    fun bits => List.Forall₂ (AllocatedBit.Honest w) bits vs := by
  refine Logic.mono (Logic.complete w) ((Logic.complete w).mapProg (f := fun b => AllocatedBit.alloc (.ok b))
    (P := fun (v : Bool) (b : AllocatedBit) => b.Honest w v) fun v _ => AllocatedBit.alloc_complete v) fun bits h => h.flip

theorem checks_complete {bits : List AllocatedBit} {vs : List Bool}
    (h : List.Forall₂ (AllocatedBit.Honest w) bits vs) :
    Complete w (foldProg (fun _ b => AllocatedBit.check (F := F) b) bits ()) fun _ => True := by
  induction h with
  | nil => trivial
  | cons hb _ ih => exact Complete.bind (AllocatedBit.check_complete hb) fun _ _ => ih

variable [LawfulField F]

theorem ne_256 : (256 : F) ≠ 0 := by
  intro h
  have := UInt.cast_inj_of_lt (F := F) (a := 256) (b := 0) (by norm_num) (by norm_num) (by exact_mod_cast h)
  omega

/-- The values of the two gates -/
theorem gate_values {c : CompactBits} {p : List Bool} (hl : p.length = Bitcoin.payloadBits) (hc : c.Honest w p)
    (h4 : 4 ≤ Bitcoin.size p) (h32 : Bitcoin.size p < 32) :
    ∃ t, targetBytes ((c.mantissa.getD [])) (Bitcoin.size p) = some t ∧ (c.targetVal : Prog F _) = .pure (some t) ∧
      t.length = 32 ∧ (∀ b ∈ t, b < 256) ∧ bytesValue t = Bitcoin.target p ∧
      (c.productValues (some t) : Except SynthesisError (F × F × F)) =
        .ok (Bitcoin.mantissa p, 256 ^ (Bitcoin.size p - 3), doubleAndAdd t) ∧
      (c.powerValues : Except SynthesisError (F × F × F)) =
        .ok (256 ^ (Bitcoin.size p - 3), 256 ^ 3, 256 ^ Bitcoin.size p) ∧
      ((Bitcoin.mantissa p : F) * 256 ^ (Bitcoin.size p - 3) = doubleAndAdd t ↔ Bitcoin.Mirrored p) ∧
      (Bitcoin.Mirrored p → t.map mirror = t) := by
  have hlen : (Bitcoin.field (Bitcoin.header p) 576 23).length = 23 := by
    rw [Bitcoin.field, List.length_take, List.length_drop, length_header hl]
    rfl
  obtain ⟨x, y, z, e1, e2, hx, hy, hz, -⟩ := mantissaBytes_eq (knows_all hc.mantissaBits) hlen
  have hm : c.mantissa = some [x, y, z] := hc.mantissa.trans e1
  have ht := targetBytes_eq (a := x) (b := y) (c := z) (by omega : 3 ≤ Bitcoin.size p) (by omega)
  have e2 : bytesValue [x, y, z] = Bitcoin.mantissa p := e2
  have hmi := mirrored_iff hx hy hz e2
  have hm0 : mirror 0 = 0 := by decide
  refine ⟨_, by rw [hm]; exact ht, ?_, ?_, ?_, ?_, ?_, ?_, ?_, ?_⟩
  · unfold CompactBits.targetVal
    simp only [hm, hc.size, ht, orPanic]
    rfl
  · simp
    omega
  · intro b hb
    simp only [List.mem_append, List.mem_replicate, List.mem_cons, List.not_mem_nil, or_false] at hb
    omega
  · rw [bytesValue_target, e2, Bitcoin.target, if_pos (by omega)]
  · unfold CompactBits.productValues
    have h64 : bytesValue [x, y, z] < 2 ^ 64 := by simp only [bytesValue]; omega
    have e3 : (FieldApi.fromU64 (BitVec.ofNat 64 (bytesValue [x, y, z])) : F) = Bitcoin.mantissa p := by
      rw [LawfulField.fromU64_eq, BitVec.toNat_ofNat, Nat.mod_eq_of_lt h64, e2]
    rw [hm, hc.size]
    simp only [orMissing, Option.map_some]
    show Except.ok (_, _, _) = _
    rw [e3, fromU64_256]
  · unfold CompactBits.powerValues
    rw [hc.size]
    simp only [orMissing, Option.map_some]
    show Except.ok (_, _, _) = _
    rw [fromU64_256, fromU64_pow3]
  · rw [doubleAndAdd_eq, List.map_append, List.map_append, List.map_replicate, List.map_replicate, hm0]
    show _ = ((bytesValue (List.replicate (Bitcoin.size p - 3) 0 ++ [mirror x, mirror y, mirror z] ++
      List.replicate (32 - Bitcoin.size p) 0) : ℕ) : F) ↔ _
    rw [bytesValue_target, hmi, ← e2, Nat.cast_mul, Nat.cast_pow, Nat.cast_ofNat]
    rw [mul_left_inj' (pow_ne_zero _ ne_256)]
    constructor
    · intro h
      have hx' := mirror_lt x hx
      have hy' := mirror_lt y hy
      have hz' := mirror_lt z hz
      have := UInt.cast_inj_of_lt (F := F) (lt_of_lt_of_le (b := 2 ^ 24) (by simp only [bytesValue]; omega) (by norm_num))
        (lt_of_lt_of_le (b := 2 ^ 24) (by simp only [bytesValue]; omega) (by norm_num)) h
      obtain ⟨h1, h2, h3⟩ := bytes3_inj hx hy hx' hy' this
      exact ⟨h1.symm, h2.symm, h3.symm⟩
    · rintro ⟨h1, h2, h3⟩
      rw [h1, h2, h3]
  · intro H
    obtain ⟨h1, h2, h3⟩ := hmi.1 H
    simp [hm0, h1, h2, h3]

theorem testBit_bytesValue {l : List ℕ} (h : ∀ b ∈ l, b < 256) (i : ℕ) :
    (bytesValue l).testBit i = (l.getD (i / 8) 0).testBit (i % 8) := by
  induction l generalizing i with
  | nil => simp [bytesValue]
  | cons b l ih =>
    have hb : b < 2 ^ 8 := h b (by simp)
    have e : bytesValue (b :: l) = 2 ^ 8 * bytesValue l + b := by rw [bytesValue]; ring
    rw [e, Nat.testBit_two_pow_mul_add _ hb]
    split_ifs with hi
    · rw [Nat.div_eq_of_lt hi, Nat.mod_eq_of_lt hi]
      rfl
    · rw [ih fun x hx => h x (by simp [hx])]
      have h1 : i / 8 = (i - 8) / 8 + 1 := by omega
      have h2 : i % 8 = (i - 8) % 8 := by omega
      rw [h1, h2]
      rfl

/-- The bits of a number of 256 bits -/
def bits256 (n : ℕ) : List Bool := (List.range 256).map fun i => n.testBit i

theorem length_bits256 (n : ℕ) : (bits256 n).length = 256 := by simp [bits256]

theorem bitsValue_bits256 {n : ℕ} (h : n < 2 ^ 256) : bitsValue (bits256 n) = n := by
  rw [bits256, bitsValue_range, Nat.mod_eq_of_lt h]

omit [LawfulField F] [Field F] in
theorem leNat_bytes (k n : ℕ) : leNat (List.ofFn fun i : Fin k => BitVec.ofNat 8 (n >>> (8 * i.1))) = n % 256 ^ k := by
  induction k generalizing n with
  | zero => simp [leNat, Nat.mod_one]
  | succ k ih =>
    rw [List.ofFn_succ, leNat, pow_succ', Nat.mod_mul, ← ih (n / 256)]
    congr 1
    have : ∀ i : ℕ, n >>> (8 * (i + 1)) = (n / 256) >>> (8 * i) := by
      intro i
      rw [Nat.shiftRight_eq_div_pow, Nat.shiftRight_eq_div_pow, Nat.div_div_eq_div_mul, Nat.mul_add, mul_one, pow_add,
        Nat.mul_comm]
      rfl
    simp only [Fin.val_succ, this]

theorem fieldOfU256_eq {n : ℕ} (h : n < modulus F) : (fieldOfU256 n : Except SynthesisError F) = .ok (n : F) := by
  have hm := LawfulField.modulus_bound (F := F)
  have e : leNat (Vector.ofFn fun i : Fin 32 => BitVec.ofNat 8 (n >>> (8 * i.1))).toList = n := by
    rw [Vector.toList_ofFn, leNat_bytes, Nat.mod_eq_of_lt (by norm_num; omega)]
  unfold fieldOfU256
  rw [LawfulField.fromBytes_ok _ (by rw [e]; exact h), e]

/-- The bounds of a target that is not zero -/
theorem target_bounds {p : List Bool} (hf : Bitcoin.Fine p) (hs : Bitcoin.size p < 32) :
    255 < Bitcoin.target p ∧ Bitcoin.target p < 2 ^ 247 ∧ Bitcoin.target p % 2 = 0 := by
  have hM : Bitcoin.mantissa p < 2 ^ 23 := lt_of_lt_of_le (bitsValue_lt _)
    (Nat.pow_le_pow_right (by omega) (by rw [Bitcoin.field, List.length_take]; omega))
  have h4 := hf.low
  have h0 := hf.mantissa
  rw [Bitcoin.target, if_pos (by omega)]
  obtain ⟨k, hk⟩ : ∃ k, Bitcoin.size p - 3 = k + 1 := ⟨Bitcoin.size p - 4, by omega⟩
  have hk' : k ≤ 27 := by omega
  rw [hk, pow_succ]
  have h1 : 1 ≤ 256 ^ k := Nat.one_le_pow _ _ (by omega)
  have h2 : 256 ^ k ≤ 256 ^ 27 := Nat.pow_le_pow_right (by omega) hk'
  generalize 256 ^ k = y at *
  generalize Bitcoin.mantissa p = M at *
  have h3 : 1 ≤ M * y := Nat.mul_pos (by omega) h1
  have h5 : M * y < 2 ^ 23 * 256 ^ 27 := lt_of_lt_of_le (Nat.mul_lt_mul_of_pos_right hM h1) (Nat.mul_le_mul_left _ h2)
  rw [← Nat.mul_assoc]
  generalize M * y = z at *
  norm_num at h5 ⊢
  omega

theorem work_facts {T : ℕ} (h1 : 0 < T) (h2 : T < 2 ^ 247) :
    (2 ^ 256 - 1 - T) / (T + 1) + 1 = Bitcoin.blockWork T ∧
    (T + 1) * Bitcoin.blockWork T + (2 ^ 256 - 1 - T) % (T + 1) = 2 ^ 256 := by
  have e : (2 ^ 256 - 1 - T) / (T + 1) + 1 = Bitcoin.blockWork T := by
    rw [Bitcoin.blockWork]
    have : 2 ^ 256 = (2 ^ 256 - 1 - T) + (T + 1) := by omega
    conv_rhs => rw [this]
    rw [Nat.add_div_right _ (by omega)]
  refine ⟨e, ?_⟩
  have := Nat.div_add_mod (2 ^ 256 - 1 - T) (T + 1)
  rw [← e, Nat.mul_add, mul_one]
  omega

theorem work_values {T : ℕ} (hT1 : 255 < T) (hT2 : T < 2 ^ 247) :
    (workValue (some T) : Prog F _) = .pure (.ok (Bitcoin.blockWork T : ℕ)) ∧
    (remainderValue (some T) : Prog F _) = .pure (.ok ((2 ^ 256 - 1 - T) % (T + 1) : ℕ)) := by
  have hm := LawfulField.modulus_bound (F := F)
  obtain ⟨e1, e2⟩ := work_facts (by omega) hT2
  have hw : Bitcoin.blockWork T < 2 ^ 248 := by
    rw [Bitcoin.blockWork, Nat.div_lt_iff_lt_mul (by omega)]
    omega
  have hr : (2 ^ 256 - 1 - T) % (T + 1) < 2 ^ 247 := lt_of_lt_of_le (Nat.mod_lt _ (by omega)) (by omega)
  constructor
  · rw [workValue, if_neg (by omega)]
    simp only [e1]
    rw [if_neg (by omega), fieldOfU256_eq (by omega)]
    rfl
  · rw [remainderValue, if_neg (by omega), fieldOfU256_eq (by omega)]
    rfl

theorem complete_checkWork (h1 : w one = 1) {T : ℕ} (hT1 : 255 < T) (hT2 : T < 2 ^ 247) (hT3 : T % 2 = 0)
    {t : List Boolean} (ht : List.Forall₂ (Boolean.Honest w) t (bits256 T)) {p c : AllocatedNum F}
    (hc : w c.var = w p.var + (Bitcoin.blockWork T : ℕ)) :
    Complete w (checkWork one t (some T) p c) fun _ => True := by
  have hm := LawfulField.modulus_bound (F := F)
  obtain ⟨e1, e2⟩ := work_facts (by omega) hT2
  have hw : Bitcoin.blockWork T < 2 ^ 248 := by
    rw [Bitcoin.blockWork, Nat.div_lt_iff_lt_mul (by omega)]
    omega
  have hr : (2 ^ 256 - 1 - T) % (T + 1) < 2 ^ 247 := lt_of_lt_of_le (Nat.mod_lt _ (by omega)) (by omega)
  obtain ⟨ew, er⟩ := work_values (F := F) hT1 hT2
  have vb : ∀ n < 2 ^ 254, ∀ x : AllocatedNum F, w x.var = (bitsValue (bits256 n) : ℕ) →
      (List.range 256).map (fun i => (LawfulField.val ((Num.ofAllocated x).wire w)).testBit i) = bits256 n := by
    intro n hn x hx
    rw [Num.wire_ofAllocated, hx, bitsValue_bits256 (by omega), LawfulField.val_of_lt (by omega)]
    rfl
  unfold checkWork
  rw [ew, er]
  show Complete w (constrainWork one t p c _ _) _
  rw [constrainWork_eq]
  have := complete_workBy h1 ht (length_bits256 T) (p := p) (c := c)
    (unpackW := fun n => unpackFe one (.ofAllocated n)) (unpackR := fun n => unpackFe one (.ofAllocated n))
    (wv := bits256 (Bitcoin.blockWork T)) (rv := bits256 ((2 ^ 256 - 1 - T) % (T + 1)))
    (length_bits256 _) (length_bits256 _) (by
      intro n hn hv
      refine Complete.andThen (unpackFe_complete h1 (Num.honest_ofAllocated hn)) fun r hr => ?_
      rw [vb _ (by omega) _ hv] at hr
      exact hr) (by
      intro n hn hv
      refine Complete.andThen (unpackFe_complete h1 (Num.honest_ofAllocated hn)) fun r hr => ?_
      rw [vb _ (by omega) _ hv] at hr
      exact hr) (by
      rw [bitsValue_bits256 (by omega), bitsValue_bits256 (by omega), bitsValue_bits256 (by omega)]
      rw [show 2 * (T / 2) + 1 = T + 1 by omega]
      exact e2) (by rw [bitsValue_bits256 (by omega)]; exact hc)
  rw [bitsValue_bits256 (by omega), bitsValue_bits256 (by omega)] at this
  exact this

/-- What the honest prover supplies is enough. -/
theorem complete_honest (h1 : w one = 1) {old new : List AllocatedBit} {vo vn : List Bool}
    (ho : List.Forall₂ (AllocatedBit.Honest w) old vo) (hn : List.Forall₂ (AllocatedBit.Honest w) new vn)
    (hlo : vo.length = Bitcoin.payloadBits) (hln : vn.length = Bitcoin.payloadBits) (hf : Bitcoin.Fine vn)
    (h : Bitcoin.Follows F vo vn) (hmi : Bitcoin.Mirrored vn)
    (hw : (Bitcoin.chainWork vn : F) = Bitcoin.chainWork vo + Bitcoin.blockWork (Bitcoin.target vn)) :
    Complete w ((bitcoin : RecursiveCircuit F).synthesize one old new) fun _ => True := by
  rw [bitcoin_eq]
  refine complete_bitcoinBy h1 ho hn hlo hln h.height h.prevHash fun l p c hl hpv hcv => ?_
  refine Complete.bind (complete_fromHeader hln hf.low hl) fun cb hcb => ?_
  obtain ⟨t, -, e1, e2, e3, e4, e5, e6, e7, e8⟩ := gate_values hln hcb hf.low h.size
  have hd : (doubleAndAdd t : F) = (bytesValue t : ℕ) := by rw [doubleAndAdd_eq, e8 hmi]
  obtain ⟨t1, t2, t3⟩ := target_bounds hf h.size
  refine Complete.bind (P := fun r => List.Forall₂ (Boolean.Honest w) r.1 (bits256 (Bitcoin.target vn)) ∧
    r.2 = some (Bitcoin.target vn)) ?_ ?_
  · unfold CompactBits.unpack
    rw [e1, e6]
    simp only [complete_bind, complete_enforce]
    refine ⟨zero_of_means h1 (means_honest hcb.mantissaSignBit) h.positive, ?_⟩
    show Complete w (cb.constrain one (bitOfBytes (some t)) 1 (cb.productValues (some t)) _) _
    rw [e5]
    have := complete_constrain (w := w) h1 hln hcb h.size (bit := bitOfBytes (some t)) (ts := bits256 (Bitcoin.target vn))
      (length_bits256 _) (by
        intro i hi
        simp only [bitOfBytes, orMissing, Option.map_some, Except.ok.injEq]
        rw [← testBit_bytesValue e3, e4, bits256]
        simp [hi]) 1 (256 ^ (Bitcoin.size vn - 3)) (by
        rw [e7.2 hmi, hd, e4, bitsValue_bits256 (by omega)]) (by
        rw [one_pow, one_mul, ← pow_add]
        congr 1
        have := hf.low
        omega)
    rw [bitsValue_bits256 (by omega), ← e4, ← hd, one_pow, one_mul] at this
    refine Complete.andThen this fun r hr => ⟨?_, ?_⟩
    · rw [← e4]
      exact hr
    · exact congrArg some e4
  · rintro ⟨tb, tv⟩ ⟨htb, htv⟩
    simp only at htb htv ⊢
    subst htv
    exact complete_checkWork h1 t1 t2 t3 htb (by rw [hcv, hpv, hw])

/-- The circuit with the values of the honest prover -/
theorem step_honest {old new : List Bool} (hlo : old.length = Bitcoin.payloadBits) (hln : new.length = Bitcoin.payloadBits)
    (hf : Bitcoin.Fine new) (h : Bitcoin.Follows F old new) (hmi : Bitcoin.Mirrored new)
    (hw : (Bitcoin.chainWork new : F) = Bitcoin.chainWork old + Bitcoin.blockWork (Bitcoin.target new)) :
    Provable (stepCircuit (bitcoin : RecursiveCircuit F) old new) fun w bits =>
      List.Forall₂ (fun b v => b.Means w v) bits old := by
  refine provable_of_complete fun w one h1 => ?_
  unfold stepCircuit
  refine Complete.bind (inputBits_complete new) fun nb hnb => ?_
  refine Complete.bind (checks_complete hnb) fun _ _ => ?_
  refine Complete.bind (privateBits_complete old) fun ob hob => ?_
  refine Complete.bind (complete_honest h1 hob hnb hlo hln hf h hmi hw) fun _ _ => hob.imp fun _ _ h => h.1

attribute [local irreducible] Must

/-- What follows if the values of the honest prover satisfy the constraints -/
theorem must_honest (h1 : w one = 1) {old new : List AllocatedBit} {vo vn : List Bool}
    (ho : List.Forall₂ (AllocatedBit.Honest w) old vo) (hn : List.Forall₂ (AllocatedBit.Honest w) new vn)
    (hlo : vo.length = Bitcoin.payloadBits) (hln : vn.length = Bitcoin.payloadBits) (hf : Bitcoin.Fine vn)
    (h : Bitcoin.Follows F vo vn) :
    Must w ((bitcoin : RecursiveCircuit F).synthesize one old new) fun _ => Bitcoin.Mirrored vn ∧
      (Bitcoin.chainWork vn : F) = Bitcoin.chainWork vo + Bitcoin.blockWork (Bitcoin.target vn) := by
  rw [bitcoin_eq, bitcoinBy]
  refine Must.bind (must_of_complete (complete_unpackPayloadBits h1 ho hlo)) ?_
  rintro ⟨ph, pw, pb⟩ ⟨hph, hpw, hpb⟩
  refine Must.bind (must_of_complete (complete_unpackPayloadBits h1 hn hln)) ?_
  rintro ⟨nh, nw, nb⟩ ⟨hnh, hnw, hnb⟩
  simp only at hph hpw hpb hnh hnw hnb ⊢
  refine Must.skip fun _ => Must.skip fun _ => Must.skip fun _ => Must.skip fun _ => Must.skip fun _ => ?_
  refine Must.bind (must_of_complete (complete_fromHeader hln hf.low hnb)) fun cb hcb => ?_
  obtain ⟨t, -, e1, e2, e3, e4, e5, e6, e7, e8⟩ := gate_values hln hcb hf.low h.size
  obtain ⟨t1, t2, t3⟩ := target_bounds hf h.size
  refine Must.bind (P := fun r => Bitcoin.Mirrored vn ∧ r.2 = some (Bitcoin.target vn)) ?_ ?_
  · unfold CompactBits.unpack
    rw [e1]
    refine Must.skip fun _ => ?_
    show Must w (cb.constrain one (bitOfBytes (some t)) 1 (cb.productValues (some t)) _ >>= fun target =>
      pure (target, some (bytesValue t))) _
    refine Must.bind (P := fun _ => Bitcoin.Mirrored vn) ?_ fun tb hmi => must_pure ⟨hmi, congrArg some e4⟩
    unfold CompactBits.constrain
    refine Must.skip fun _ => Must.skip fun _ => Must.skip fun _ => ?_
    split_ifs
    · exact must_panic
    refine Must.skip fun _ => Must.skip fun _ => Must.skip fun _ => Must.skip fun _ => Must.skip fun _ =>
      Must.skip fun _ => Must.skip fun _ => Must.skip fun _ => ?_
    rw [e5]
    refine Must.bind (P := fun _ => Bitcoin.Mirrored vn) ?_ fun _ hmi => Must.anyway _ fun _ => hmi
    refine must_doMultiply ?_
    rintro _ ⟨rfl⟩ e a b c _ _ _
    exact e7.1 e
  · rintro ⟨tb, tv⟩ ⟨hmi, htv⟩
    simp only at htv ⊢
    subst htv
    obtain ⟨ew, er⟩ := work_values (F := F) t1 t2
    unfold checkWork constrainWork
    rw [ew, er]
    refine Must.bind (must_pure (Q := fun r => r = .ok (Bitcoin.blockWork (Bitcoin.target vn) : F)) rfl) ?_
    rintro _ rfl
    refine Must.skip fun _ => Must.skip fun _ => ?_
    refine Must.bind (must_of_complete (AllocatedNum.alloc_complete _)) fun bw ⟨_, hbw⟩ => ?_
    refine Must.skip fun _ => Must.skip fun _ => Must.skip fun _ => Must.skip fun _ => Must.skip fun _ => ?_
    refine Must.skip fun _ => Must.skip fun _ => Must.skip fun _ => Must.skip fun _ => Must.skip fun _ => ?_
    refine Must.skip fun _ => Must.skip fun _ => Must.skip fun _ => Must.skip fun _ => Must.skip fun _ => ?_
    refine Must.skip fun _ => Must.skip fun _ => Must.skip fun _ => Must.skip fun _ => Must.skip fun _ => ?_
    refine Must.skip fun _ => Must.skip fun _ => must_enforce fun e => ⟨hmi, ?_⟩
    simp only [AllocatedNum.lc, LC.eval_subLC, LC.eval_ofVar, hbw, hnw, hpw] at e
    linear_combination e

/-- What holds if the values of the honest prover satisfy the circuit -/
theorem honest_step {old new : List Bool} (hlo : old.length = Bitcoin.payloadBits) (hln : new.length = Bitcoin.payloadBits)
    (hf : Bitcoin.Fine new) {R : (Var → F) → List AllocatedBit → Prop}
    (h : Provable (stepCircuit (bitcoin : RecursiveCircuit F) old new) R) : Bitcoin.Follows F old new ∧ Bitcoin.Mirrored new ∧
      (Bitcoin.chainWork new : F) = Bitcoin.chainWork old + Bitcoin.blockWork (Bitcoin.target new) := by
  have hF : Bitcoin.Follows F old new := by
    refine must_of_provable h fun w one h1 => ?_
    unfold stepCircuit
    refine Must.bind (must_of_complete (inputBits_complete new)) fun nb hnb => Must.skip fun _ => ?_
    refine Must.bind (must_of_complete (privateBits_complete old)) fun ob hob => ?_
    exact Must.bind (must_of_sound (sound_bitcoin h1 (hob.imp fun _ _ h => h.1) (hnb.imp fun _ _ h => h.1) hlo hln))
      fun _ h => must_pure h.1
  refine ⟨hF, must_of_provable h fun w one h1 => ?_⟩
  unfold stepCircuit
  refine Must.bind (must_of_complete (inputBits_complete new)) fun nb hnb => Must.skip fun _ => ?_
  refine Must.bind (must_of_complete (privateBits_complete old)) fun ob hob => ?_
  exact Must.bind (must_honest h1 hob hnb hlo hln hf hF) fun _ h => must_pure h

end Example
end Halo
