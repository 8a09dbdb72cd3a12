import Verif.Spec.Step
import Verif.Lemmas.Gadget.Inputs
import Verif.Lemmas.Example.Complete
import Verif.Lemmas.Recursion.TwinCircuit
import Verif.Lemmas.Recursion.FollowSynth
/-!
# The steps that the circuit of the Bitcoin example allows
-/
namespace Halo
namespace Example
open Circuit Recursion
open Circuit.Sha256 (foldProg)
variable {F : Type} [Field F] {w : Var → F} {one : Var}

/-- Public bits that have the values of given bits -/
theorem soundIn_inputBits {α : Type} {Q : α → Prop} {vs : List F} :
    ∀ {l v : List Bool} {f : List AllocatedBit → Prog F α}, l.length = v.length →
    (∀ bits, List.Forall₂ (fun b v => AllocatedBit.Means w b v) bits v → SoundIn w vs (f bits) Q) →
    SoundIn w (v.map ofBool ++ vs) (inputBits l >>= f) Q
  | [], [], _, _, h => h [] .nil
  | a :: l, b :: v, f, hl, h => by
    simp only [inputBits, mapProg, prog_bind_assoc]
    intro x o hx
    exact soundIn_inputBits (l := l) (by simpa using hl) fun bits hb => h _ (.cons hx hb)

/-- The bits of a number -/
theorem exists_bits (n k : ℕ) (h : k < 2 ^ n) : ∃ l : List Bool, l.length = n ∧ bitsValue l = k := by
  refine ⟨bitsOf (BitVec.ofNat n k), by simp [bitsOf], ?_⟩
  rw [bitsValue_bitsOf, BitVec.toNat_ofNat, Nat.mod_eq_of_lt h]

variable [DecidableEq F] [LawfulField F]

/-- Every work goes with the target zero. -/
theorem workChecked (old new : List Bool) : Bitcoin.WorkChecked F old new := by
  obtain ⟨k, h0, hk, hkF⟩ : ∃ k : ℕ, 0 < k ∧ k < 2 ^ 256 ∧ (k : F) = Bitcoin.chainWork new - Bitcoin.chainWork old := by
    have hm := LawfulField.modulus_bound (F := F)
    by_cases h : (Bitcoin.chainWork new : F) - Bitcoin.chainWork old = 0
    · exact ⟨modulus F, by omega, by omega, by rw [h]; exact LawfulField.cast_modulus⟩
    · refine ⟨LawfulField.val ((Bitcoin.chainWork new : F) - Bitcoin.chainWork old), Nat.pos_of_ne_zero fun h0 => h ?_,
        lt_trans (LawfulField.val_lt _) (by omega), LawfulField.val_cast _⟩
      rw [← LawfulField.val_cast ((Bitcoin.chainWork new : F) - Bitcoin.chainWork old), h0, Nat.cast_zero]
  refine ⟨0, k, 2 ^ 256 - k, 0, by norm_num, hk, by omega, by simp, by omega, by rw [hkF]; ring⟩

omit [DecidableEq F] in
theorem allows_sound {old new : List Bool} (hlo : old.length = Bitcoin.payloadBits)
    (hln : new.length = Bitcoin.payloadBits) (h : Allows (bitcoin : RecursiveCircuit F) old new) :
    Bitcoin.Follows F old new := by
  obtain ⟨bits, s, w, hc, hs, hb⟩ := h
  refine holds_of_soundIn (Q := fun bits => List.Forall₂ (fun b v => b.Means w v) bits old → Bitcoin.Follows F old new)
    hc hs (fun one h1 => ?_) hb
  rw [← List.append_nil (new.map ofBool)]
  refine soundIn_inputBits rfl fun nb hnb => ?_
  show Sound w _ _
  refine Sound.bind (P := fun _ => True) (Sound.anyway _ fun _ => trivial) fun _ _ => ?_
  refine Sound.bind (P := fun _ => True) (Sound.anyway _ fun _ => trivial) fun ob _ => ?_
  simp only [sound_bind]
  by_cases ho : List.Forall₂ (fun b v => AllocatedBit.Means w b v) ob old
  · refine (sound_bitcoin h1 ho hnb hlo hln).mono fun _ h => ?_
    exact fun _ => h.1
  · refine Sound.anyway _ fun _ => ?_
    exact fun h => (ho h).elim

/-- The circuit, with other values -/
def cheat (old new ts : List Bool) (x b : F) (wv rv : List Bool) (one : Var) : Prog F (List AllocatedBit) := do
  let newBits ← inputBits new
  foldProg (fun _ b => AllocatedBit.check b) newBits ()
  let oldBits ← privateBits old
  bitcoinWith new ts x b wv rv one oldBits newBits
  return oldBits

theorem allows_complete {old new : List Bool} (hlo : old.length = Bitcoin.payloadBits)
    (hln : new.length = Bitcoin.payloadBits) (hf : Bitcoin.Fine new) (h : Bitcoin.Follows F old new) :
    Allows (bitcoin : RecursiveCircuit F) old new := by
  obtain ⟨t, k, r, x, ht, hk, hr, e1, e2, e3⟩ := workChecked (F := F) old new
  obtain ⟨ts, htl, rfl⟩ := exists_bits 256 t ht
  obtain ⟨wv, hwl, rfl⟩ := exists_bits 256 k hk
  obtain ⟨rv, hrl, rfl⟩ := exists_bits 256 r hr
  have h256 : (256 : F) ^ 3 ≠ 0 := by
    refine pow_ne_zero _ fun h => ?_
    have := UInt.cast_inj_of_lt (F := F) (a := 256) (b := 0) (by norm_num) (by norm_num) (by exact_mod_cast h)
    omega
  have key : Provable (cheat old new ts x (x ^ 32 * 256 ^ Bitcoin.size new / 256 ^ 3) wv rv) fun w bits =>
      List.Forall₂ (fun b v => b.Means w v) bits old := by
    refine provable_of_complete fun w one h1 => ?_
    unfold cheat
    refine Complete.bind (inputBits_follow new) fun nb hnb => ?_
    refine Complete.bind (checks_follow hnb) fun _ _ => ?_
    refine Complete.bind (P := fun bits => List.Forall₂ (fun b v => b.Honest w v) bits old) ?_ fun ob hob => ?_
    · refine Logic.mono (Logic.complete w) ((Logic.complete w).mapProg (f := fun b => AllocatedBit.alloc (.ok b))
        (P := fun (v : Bool) (b : AllocatedBit) => b.Honest w v) fun v _ => AllocatedBit.alloc_complete v) fun bits h => h.flip
    refine Complete.bind (complete_bitcoinWith h1 hob hnb hlo hln h.height h.prevHash h.positive hf.low h.size htl hwl
      hrl ?_ ?_ e2 e3) fun _ _ => hob.imp fun _ _ h => h.1
    · rw [mul_div_assoc', ← e1, mul_div_assoc, div_self h256, mul_one]
    · rw [div_mul_cancel₀ _ h256]
  obtain ⟨a, t, hat, hst, hm⟩ := key
  obtain ⟨b, t', h1, -, -, h4⟩ := twin_system (F := F) (circuit := cheat old new ts x
    (x ^ 32 * 256 ^ Bitcoin.size new / 256 ^ 3) wv rv)
    (circuit' := stepCircuit bitcoin (List.replicate old.length false) new)
    (R := fun a b => a.map (·.var) = b.map (·.var)) (vs := new.map ofBool) (by
      intro V one hV
      rw [← List.append_nil (new.map ofBool)]
      refine twin_inputBits hln hln fun nb nb' hnb hv => ?_
      show Twin V _ _ _
      refine Twin.bind (twin_checkAll hnb) fun _ _ _ => ?_
      refine Twin.bind (twin_privateBits hlo (by rw [List.length_replicate, hlo])) fun ob ob' hob => ?_
      refine Twin.bind (twin_bitcoinWith hV hob.1 hnb hv hf ts x _ hwl hrl) fun _ _ _ => ?_
      refine Twin.ret ?_
      rw [← List.forall₂_eq_eq_eq, List.forall₂_map_left_iff, List.forall₂_map_right_iff]
      refine hob.1.1.imp ?_
      rintro _ _ ⟨v, v', y, hy⟩
      rfl)
  obtain ⟨hR, hlike, hin⟩ := h4 _ _ _ hat
  refine ⟨b, t', t.w, h1, ?_, ?_⟩
  · have : t.publicInputs = new.map ofBool := by
      rw [System.publicInputs, hin]
      have e : (List.range' 1 ((new.map (ofBool : Bool → F)).length + 1)).length =
        (some (1 : F) :: (new.map ofBool).map some).length := by simp
      rw [show (fun p : ℕ × Option F => p.2.getD 0) = (fun o => o.getD 0) ∘ Prod.snd from rfl, ← List.map_map,
        List.map_snd_zip e.ge]
      simp
    exact hlike.satisfied (this ▸ hst)
  · have hm : List.Forall₂ (fun x (v : Bool) => t.w x = if v then 1 else 0) (a.map (·.var)) old :=
      List.forall₂_map_left_iff.2 hm
    rw [hR] at hm
    exact (List.forall₂_map_left_iff (f := AllocatedBit.var)).1 hm

end Example
end Halo
