import Verif.Lemmas.Example.Honest
import Verif.Spec.RecursionHonest
import Verif.Lemmas.FieldInst
/-!
# C63: the steps that the circuit of the Bitcoin example allows; C64: those that it can prove
-/
namespace Halo
namespace Example
open Circuit Recursion
variable {F : Type} [Field F] [DecidableEq F] [LawfulField F]

/-- **C63**, what holds: the verifier's constraints allow a step exactly if the height increases by one, the
hash of the old header and that in the new header are equal as field elements, the target is not
negative, and its size is less than 32. So every step that extends the chain is allowed, if the size is
less than 32; but nothing is enforced about work. -/
theorem C63_allowed_steps_partial {old new : List Bool} (hlo : old.length = Bitcoin.payloadBits)
    (hln : new.length = Bitcoin.payloadBits) (hf : Bitcoin.Fine new) :
    Allows (bitcoin : RecursiveCircuit F) old new ↔ Bitcoin.Follows F old new :=
  ⟨allows_sound hlo hln, allows_complete hlo hln hf⟩

/-- A payload with zeros where the circuit does not look -/
def somePayload (height work : ℕ) (prev nBits : List Bool) : List Bool :=
  bitsOf (BitVec.ofNat 32 height) ++ (bitsOf (BitVec.ofNat 256 work) ++ (List.replicate 32 false ++ (prev ++
    (List.replicate 288 false ++ (nBits ++ List.replicate 32 false)))))

/-- `nBits` of the genesis block, `0x1d00ffff` -/
def easyBits : List Bool := bitsOf 0x1d00ffff#32

theorem field_right {a b : List Bool} {s n : ℕ} (h : a.length ≤ s) :
    Bitcoin.field (a ++ b) s n = Bitcoin.field b (s - a.length) n := by
  simp [Bitcoin.field, List.drop_append, List.drop_eq_nil_of_le h]

theorem field_left {a b : List Bool} {n : ℕ} (h : a.length = n) : Bitcoin.field (a ++ b) 0 n = a := by
  simp [Bitcoin.field, ← h]

theorem field_field {l : List Bool} {s n t m : ℕ} (h : t + m ≤ n) :
    Bitcoin.field (Bitcoin.field l s n) t m = Bitcoin.field l (s + t) m := by
  simp only [Bitcoin.field, List.drop_take, List.take_take, List.drop_drop]
  rw [min_eq_left (by omega)]

theorem somePayload_fields {height work : ℕ} {prev nBits : List Bool} (hh : height < 2 ^ 32) (hw : work < 2 ^ 256)
    (hp : prev.length = 256) (hn : nBits.length = 32) :
    (somePayload height work prev nBits).length = Bitcoin.payloadBits ∧
    Bitcoin.height (somePayload height work prev nBits) = height ∧
    Bitcoin.chainWork (somePayload height work prev nBits) = work ∧
    Bitcoin.prevHash (somePayload height work prev nBits) = prev ∧
    Bitcoin.mantissa (somePayload height work prev nBits) = bitsValue (Bitcoin.field (nBits ++ List.replicate 32 false) 0 23) ∧
    Bitcoin.negative (somePayload height work prev nBits) =
      (Bitcoin.field (nBits ++ List.replicate 32 false) 23 1).headD false ∧
    Bitcoin.size (somePayload height work prev nBits) = bitsValue (Bitcoin.field (nBits ++ List.replicate 32 false) 24 8) := by
  have l1 : (bitsOf (BitVec.ofNat 32 height)).length = 32 := by simp [bitsOf]
  have l2 : (bitsOf (BitVec.ofNat 256 work)).length = 256 := by simp [bitsOf]
  have tail : ∀ {s n : ℕ}, 576 ≤ s → s + n ≤ 640 → Bitcoin.field (Bitcoin.header (somePayload height work prev nBits)) s n =
      Bitcoin.field (nBits ++ List.replicate 32 false) (s - 576) n := by
    intro s n h1 h2
    rw [Bitcoin.header, field_field h2, somePayload, field_right (by omega), field_right (by omega),
      field_right (by rw [List.length_replicate]; omega), field_right (by rw [List.length_replicate]; omega),
      field_right (by simp only [List.length_replicate]; omega)]
    rw [List.length_replicate, List.length_replicate, l1, l2, hp]
    exact congrArg (Bitcoin.field _ · n) (by omega)
  refine ⟨?_, ?_, ?_, ?_, ?_, ?_, ?_⟩
  · simp only [somePayload, List.length_append, l1, l2, hp, hn, List.length_replicate]
    rfl
  · rw [Bitcoin.height, somePayload, field_left l1, bitsValue_bitsOf, BitVec.toNat_ofNat, Nat.mod_eq_of_lt hh]
  · rw [Bitcoin.chainWork, somePayload, field_right l1.le, l1, Nat.sub_self, field_left l2, bitsValue_bitsOf,
      BitVec.toNat_ofNat, Nat.mod_eq_of_lt hw]
  · rw [Bitcoin.prevHash, Bitcoin.header, field_field (by norm_num), somePayload, field_right (by omega),
      field_right (by omega), field_right (by rw [List.length_replicate]; omega), l1, l2, List.length_replicate, field_left hp]
  · rw [Bitcoin.mantissa, tail (by omega) (by omega)]
  · have h := tail (s := 599) (n := 1) (by omega) (by omega)
    rw [Bitcoin.negative, List.getD_eq_getElem?_getD]
    have : ∀ l : List Bool, l[599]?.getD false = (Bitcoin.field l 599 1).headD false := by
      intro l
      rw [Bitcoin.field, List.headD_eq_head?_getD, List.head?_take, if_neg (by omega), List.head?_drop]
    rw [this, h]
  · rw [Bitcoin.size, tail (by omega) (by omega)]

theorem somePayload_facts {height work : ℕ} {prev : List Bool} (hh : height < 2 ^ 32) (hw : work < 2 ^ 256)
    (hp : prev.length = 256) : (somePayload height work prev easyBits).length = Bitcoin.payloadBits ∧
    Bitcoin.height (somePayload height work prev easyBits) = height ∧
    Bitcoin.chainWork (somePayload height work prev easyBits) = work ∧
    Bitcoin.prevHash (somePayload height work prev easyBits) = prev ∧
    Bitcoin.mantissa (somePayload height work prev easyBits) = 0xffff ∧
    Bitcoin.negative (somePayload height work prev easyBits) = false ∧
    Bitcoin.size (somePayload height work prev easyBits) = 0x1d := by
  obtain ⟨h1, h2, h3, h4, h5, h6, h7⟩ := somePayload_fields hh hw hp (nBits := easyBits) (by decide)
  exact ⟨h1, h2, h3, h4, h5.trans (by decide +kernel), h6.trans (by decide +kernel), h7.trans (by decide +kernel)⟩

theorem somePayload_fine {height work : ℕ} {prev : List Bool} (hh : height < 2 ^ 32) (hw : work < 2 ^ 256)
    (hp : prev.length = 256) : Bitcoin.Fine (somePayload height work prev easyBits) := by
  obtain ⟨-, -, -, -, h1, -, h2⟩ := somePayload_facts hh hw hp
  exact ⟨by omega, by omega, by omega⟩

/-- **C63 fails**: whatever the old payload is, a header that follows it may come with any cumulative
work. -/
theorem C63_any_work {old : List Bool} (hlo : old.length = Bitcoin.payloadBits)
    (hh : Bitcoin.height old + 1 < 2 ^ 32) {work : ℕ} (hw : work < 2 ^ 256) :
    ∃ new, new.length = Bitcoin.payloadBits ∧ Bitcoin.Fine new ∧ Bitcoin.prevHash new = Bitcoin.hash (Bitcoin.header old) ∧
      Bitcoin.target new = 0xffff * 256 ^ 26 ∧ Bitcoin.chainWork new = work ∧
      Allows (bitcoin : RecursiveCircuit F) old new := by
  have hp : (Bitcoin.hash (Bitcoin.header old)).length = 256 := length_bitcoinHash _
  obtain ⟨h1, h2, h3, h4, h5, h6, h7⟩ := somePayload_facts hh hw hp
  refine ⟨_, h1, somePayload_fine hh hw hp, h4, ?_, h3,
    (C63_allowed_steps_partial hlo h1 (somePayload_fine hh hw hp)).2 ⟨h2, by rw [h4], h6, by omega⟩⟩
  rw [Bitcoin.target, h7, h5]
  rfl

/-- **C63 fails**: whatever the old payload is, a header that contains another hash than that of the old
header is accepted, with the right work. -/
theorem C63_wrong_hash {old : List Bool} (hlo : old.length = Bitcoin.payloadBits)
    (hh : Bitcoin.height old + 1 < 2 ^ 32) (hw : Bitcoin.chainWork old + Bitcoin.blockWork (0xffff * 256 ^ 26) < 2 ^ 256) :
    ∃ new, new.length = Bitcoin.payloadBits ∧ Bitcoin.Fine new ∧ Bitcoin.prevHash new ≠ Bitcoin.hash (Bitcoin.header old) ∧
      Bitcoin.chainWork new = Bitcoin.chainWork old + Bitcoin.blockWork (Bitcoin.target new) ∧
      Allows (bitcoin : RecursiveCircuit F) old new := by
  have hm := LawfulField.modulus_bound (F := F)
  have hp : (Bitcoin.hash (Bitcoin.header old)).length = 256 := length_bitcoinHash _
  have hlt := bitsValue_lt (Bitcoin.hash (Bitcoin.header old))
  rw [hp] at hlt
  obtain ⟨v, hv, hne, hc⟩ : ∃ v, v < 2 ^ 256 ∧ v ≠ bitsValue (Bitcoin.hash (Bitcoin.header old)) ∧
      (v : F) = bitsValue (Bitcoin.hash (Bitcoin.header old)) := by
    by_cases h : modulus F ≤ bitsValue (Bitcoin.hash (Bitcoin.header old))
    · exact ⟨bitsValue (Bitcoin.hash (Bitcoin.header old)) - modulus F, lt_of_le_of_lt (Nat.sub_le _ _) hlt, by omega, by
        rw [Nat.cast_sub h, LawfulField.cast_modulus, sub_zero]⟩
    · exact ⟨bitsValue (Bitcoin.hash (Bitcoin.header old)) + modulus F, by omega, by omega, by
        rw [Nat.cast_add, LawfulField.cast_modulus, add_zero]⟩
  obtain ⟨l, hl, rfl⟩ := exists_bits 256 v hv
  obtain ⟨h1, h2, h3, h4, h5, h6, h7⟩ := somePayload_facts hh hw hl
  refine ⟨_, h1, somePayload_fine hh hw hl, fun h => hne (by rw [← h, h4]), ?_,
    (C63_allowed_steps_partial hlo h1 (somePayload_fine hh hw hl)).2 ⟨h2, by rw [h4, hc], h6, by omega⟩⟩
  rw [h3, Bitcoin.target, h7, h5]
  rfl

/-- So the property as stated is false, for the circuits over both fields. -/
theorem C63_extends_false (F : Type) [Field F] [DecidableEq F] [LawfulField F] :
    ¬ ∀ old new : List Bool, old.length = Bitcoin.payloadBits → new.length = Bitcoin.payloadBits → Bitcoin.Fine new →
      Allows (bitcoin : RecursiveCircuit F) old new → Bitcoin.Extends old new := by
  intro h
  have hf : (List.replicate 256 false).length = 256 := List.length_replicate
  obtain ⟨h1, h2, h3, -⟩ := somePayload_facts (height := 0) (work := 0) (by norm_num) (by norm_num) hf
  obtain ⟨new, n1, n2, n3, n4, n5, n6⟩ := C63_any_work (F := F) h1 (by rw [h2]; norm_num) (work := 0) (by norm_num)
  have := (h _ _ h1 n1 n2 n6).work
  rw [n5, h3, n4] at this
  revert this
  decide +kernel

/-- The payload of the genesis block, from which proofs start -/
def genesis : List Bool := packPayloadBits 0 genesisChainWork genesisHeader

/-- The genesis payload of the example may be followed by a block that claims a cumulative work of `2^256 - 1`, and by one
with a wrong hash. -/
example : (∃ new, Bitcoin.chainWork new = 2 ^ 256 - 1 ∧ Allows (bitcoin : RecursiveCircuit Fp) genesis new) ∧
    ∃ new, Bitcoin.prevHash new ≠ Bitcoin.hash (Bitcoin.header genesis) ∧ Allows (bitcoin : RecursiveCircuit Fq) genesis new := by
  have hl : genesis.length = Bitcoin.payloadBits := by decide +kernel
  have hh : Bitcoin.height genesis + 1 < 2 ^ 32 := by decide +kernel
  have hw : Bitcoin.chainWork genesis + Bitcoin.blockWork (0xffff * 256 ^ 26) <
    2 ^ 256 := by decide +kernel
  obtain ⟨new, -, -, -, -, h1, h2⟩ := C63_any_work (F := Fp) hl hh (work := 2 ^ 256 - 1) (by norm_num)
  obtain ⟨new', -, -, h3, -, h4⟩ := C63_wrong_hash (F := Fq) hl hh hw
  exact ⟨⟨new, h1, h2⟩, new', h3, h4⟩

/-! ### The honest prover -/

omit [DecidableEq F] in
/-- **C64**, what holds: the values that the code computes satisfy the constraints exactly if, besides the
conditions of C63, the cumulative work is right as a field element, and each byte of the mantissa of the
target is the same when its bits are reversed. -/
theorem C64_provable_steps_partial {old new : List Bool} (hlo : old.length = Bitcoin.payloadBits)
    (hln : new.length = Bitcoin.payloadBits) (hf : Bitcoin.Fine new) :
    Provable (stepCircuit (bitcoin : RecursiveCircuit F) old new) (fun w bits =>
      List.Forall₂ (fun b v => b.Means w v) bits old) ↔
    Bitcoin.Follows F old new ∧ Bitcoin.Mirrored new ∧
      (Bitcoin.chainWork new : F) = Bitcoin.chainWork old + Bitcoin.blockWork (Bitcoin.target new) :=
  ⟨honest_step hlo hln hf, fun h => step_honest hlo hln hf h.1 h.2.1 h.2.2⟩

omit [DecidableEq F] in
/-- **C64**, for chains of proofs: with such a mantissa, the circuit accepts all steps that extend the chain, so C60
and C61 apply to them. -/
theorem C64_accepts_partial {old new : List Bool} (hlo : old.length = Bitcoin.payloadBits)
    (hln : new.length = Bitcoin.payloadBits) (hf : Bitcoin.Fine new) (hs : Bitcoin.size new < 32)
    (hm : Bitcoin.Mirrored new) (h : Bitcoin.Extends old new) : Accepts (bitcoin : RecursiveCircuit F) old new :=
  fun _ _ h1 _ _ ho hn => complete_honest h1 ho hn hlo hln hf ⟨h.height, by rw [h.prevHash], h.positive, hs⟩ hm
    (by rw [h.work]; push_cast; rfl)

omit [DecidableEq F] in
/-- **C64 fails**: the honest prover cannot prove a step to a block with another mantissa. -/
theorem C64_not_provable {old new : List Bool} (hlo : old.length = Bitcoin.payloadBits)
    (hln : new.length = Bitcoin.payloadBits) (hf : Bitcoin.Fine new) (hm : ¬ Bitcoin.Mirrored new) :
    ¬ Provable (stepCircuit (bitcoin : RecursiveCircuit F) old new) fun _ _ => True :=
  fun h => hm (honest_step hlo hln hf h).2.1

/-- `nBits` after the first change of the difficulty, from height 32256, `0x1d00d86a` -/
def harderBits : List Bool := bitsOf 0x1d00d86a#32

/-- **C64 fails**: every chain can be extended by a block with the target `0x1d00d86a`, for which the honest prover
fails, although the constraints can be satisfied. -/
theorem C64_extends_not_provable {old : List Bool} (hlo : old.length = Bitcoin.payloadBits)
    (hh : Bitcoin.height old + 1 < 2 ^ 32) (hw : Bitcoin.chainWork old + Bitcoin.blockWork (0xd86a * 256 ^ 26) < 2 ^ 256) :
    ∃ new, new.length = Bitcoin.payloadBits ∧ Bitcoin.Fine new ∧ Bitcoin.Extends old new ∧
      Allows (bitcoin : RecursiveCircuit F) old new ∧
      ¬ Provable (stepCircuit (bitcoin : RecursiveCircuit F) old new) fun _ _ => True := by
  have hp : (Bitcoin.hash (Bitcoin.header old)).length = 256 := length_bitcoinHash _
  obtain ⟨h1, h2, h3, h4, h5, h6, h7⟩ := somePayload_fields hh hw hp (nBits := harderBits) (by decide)
  replace h5 := h5.trans (show _ = 0xd86a by decide +kernel)
  replace h6 := h6.trans (show _ = false by decide +kernel)
  replace h7 := h7.trans (show _ = 0x1d by decide +kernel)
  have hf : Bitcoin.Fine (somePayload (Bitcoin.height old + 1) (Bitcoin.chainWork old + Bitcoin.blockWork (0xd86a * 256 ^ 26))
    (Bitcoin.hash (Bitcoin.header old)) harderBits) := ⟨by omega, by omega, by omega⟩
  refine ⟨_, h1, hf, ⟨h2, h4, h6, ?_⟩, (C63_allowed_steps_partial hlo h1 hf).2 ⟨h2, by rw [h4], h6, by omega⟩,
    C64_not_provable hlo h1 hf ?_⟩
  · rw [h3, Bitcoin.target, h7, h5]
    rfl
  · intro h
    have := h 0 (by omega) 2 (by omega)
    rw [h5] at this
    revert this
    decide +kernel

/-- The payload of the block with height 1 of Bitcoin -/
def block1 : List Bool := packPayloadBits 1 (hexBytes 32 0x0000000000000000000000000000000000000000000000000000000200020002)
  (hexBytes 80 0x010000006fe28c0ab6f1b372c1a6a246ae63f74f931e8365e15a089c68d6190000000000982051fd1e4ba744bbbe680e1fee14677ba1a3c3540bf7b1cdb606e857233e0e61bc6649ffff001d01e36299)

theorem block1_extends : Bitcoin.Extends genesis block1 :=
  ⟨by decide +kernel, by decide +kernel, by decide +kernel, by decide +kernel⟩

/-- The step from the genesis block to the next one can be proved, in both fields. -/
example : Accepts (bitcoin : RecursiveCircuit Fp) genesis block1 ∧ Accepts (bitcoin : RecursiveCircuit Fq) genesis block1 := by
  have hl : genesis.length = Bitcoin.payloadBits := by decide +kernel
  have hl' : block1.length = Bitcoin.payloadBits := by decide +kernel
  have hf : Bitcoin.Fine block1 := ⟨by decide +kernel, by decide +kernel, by decide +kernel⟩
  have hs : Bitcoin.size block1 < 32 := by decide +kernel
  have hm : Bitcoin.Mirrored block1 := by unfold Bitcoin.Mirrored; decide +kernel
  exact ⟨C64_accepts_partial hl hl' hf hs hm block1_extends, C64_accepts_partial hl hl' hf hs hm block1_extends⟩

/-- The genesis block meets the conditions for the counterexample. -/
example : ∃ new, Bitcoin.Extends genesis new ∧ ¬ Provable (stepCircuit (bitcoin : RecursiveCircuit Fp) genesis new) fun _ _ => True := by
  obtain ⟨new, -, -, h, -, h'⟩ := C64_extends_not_provable (F := Fp) (old := genesis) (by decide +kernel) (by decide +kernel)
    (by decide +kernel)
  exact ⟨new, h, h'⟩

end Example
end Halo
