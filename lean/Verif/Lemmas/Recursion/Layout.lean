import Verif.Lemmas.Gadget.Bits
import Verif.Lemmas.Proofs.Bytes
import Verif.Spec.Recursion
/-!
# The encoding of a deferred record
-/
namespace Halo
namespace Recursion
open Circuit Proofs
variable {F : Type} [Field F]

theorem bytesBits_append (a b : List (BitVec 8)) : bytesBits (a ++ b) = bytesBits a ++ bytesBits b :=
  List.flatMap_append

theorem bitsAt_skip {l l' : List Bool} {start len : ℕ} (h : l.length ≤ start) :
    (bitsAt (l ++ l') start len : F) = bitsAt l' (start - l.length) len := by
  rw [bitsAt, bitsAt, List.drop_append, List.drop_eq_nil_of_le h, List.nil_append]

theorem bitsAt_here {l l' : List Bool} {start len : ℕ} (h0 : start = 0) (h : l.length = len) :
    (bitsAt (l ++ l') start len : F) = (bitsValue l : F) := by
  subst h0 h
  simp [bitsAt]

theorem bitsAt_last {l : List Bool} {start len : ℕ} (h0 : start = 0) (h : l.length = len) :
    (bitsAt l start len : F) = (bitsValue l : F) := by
  subst h0 h
  simp [bitsAt]

variable [LawfulField F]

theorem bits32_length (a : F) : (bytesBits (bytes32 a)).length = 256 := by simp [length_bytesBits]
theorem bits16_length (a : F) : (bytesBits (bytes16 a)).length = 128 := by simp [length_bytesBits]

theorem bits32_value (a : F) : (bitsValue (bytesBits (bytes32 a)) : F) = a := by
  rw [leNat_append_bits, bytes32, LawfulField.toBytes_val, LawfulField.val_cast]

theorem bits16_value {a : F} (h : LawfulField.val a < 2 ^ 128) : (bitsValue (bytesBits (bytes16 a)) : F) = a := by
  rw [leNat_append_bits, bytes16, bytes32, Util.leNat_take, LawfulField.toBytes_val,
    Nat.mod_eq_of_lt (by simpa using h), LawfulField.val_cast]

theorem flat16_length (l : List F) : (bytesBits (l.flatMap bytes16)).length = 128 * l.length := by
  rw [length_bytesBits, flatMap16_length]; ring

theorem bitsAt_flat {l : List F} (h : ∀ a ∈ l, LawfulField.val a < 2 ^ 128) (rest : List Bool) :
    ((List.range l.length).map fun j => (bitsAt (bytesBits (l.flatMap bytes16) ++ rest) (128 * j) 128 : F)) = l := by
  induction l with
  | nil => rfl
  | cons a l ih =>
    rw [List.length_cons, List.range_succ_eq_map, List.map_cons, List.map_map, List.flatMap_cons,
      bytesBits_append, List.append_assoc, bitsAt_here (by simp) (bits16_length a), bits16_value (h a (by simp))]
    congr 1
    conv_rhs => rw [← ih fun b hb => h b (by simp [hb])]
    refine List.map_congr_left fun j _ => ?_
    show bitsAt _ (128 * (j + 1)) 128 = _
    rw [bitsAt_skip (by rw [bits16_length]; omega), bits16_length]
    rw [show 128 * (j + 1) - 128 = 128 * j by omega]

theorem deferredOf_toBytes {k : ℕ} {d : Deferred F} (hs : (LawfulField.val d.x < 2 ^ 128 ∧
    LawfulField.val d.yOld < 2 ^ 128 ∧ LawfulField.val d.yCur < 2 ^ 128 ∧ LawfulField.val d.yNew < 2 ^ 128) ∧
    (∀ a ∈ d.challengesSqPackedOld, LawfulField.val a < 2 ^ 128) ∧
      ∀ a ∈ d.challengesSqPackedNew, LawfulField.val a < 2 ^ 128)
    (ho : d.challengesSqPackedOld.length = k) (hn : d.challengesSqPackedNew.length = k) :
    deferredOf k (bytesBits d.toBytes) = d ∧ (bytesBits d.toBytes).length = deferredSize k := by
  constructor
  · have eo := fun rest => ho ▸ bitsAt_flat hs.2.1 rest
    have en := fun rest => hn ▸ bitsAt_flat hs.2.2 rest
    obtain ⟨⟨s1, s2, s3, s4⟩, s5, s6⟩ := hs
    obtain ⟨x, yo, yc, yn, ky, tp, tn, sx, rx, rxy, co, gx, cn, b1, b2, b3, b4, b5⟩ := d
    dsimp only at *
    simp only [deferredOf, Deferred.toBytes, bytesBits_append, List.append_assoc, Deferred.mk.injEq]
    refine ⟨?_, ?_, ?_, ?_, ?_, ?_, ?_, ?_, ?_, ?_, ?_, ?_, ?_, ?_, ?_, ?_, ?_, ?_⟩
    all_goals
      simp (disch := first | (simp only [bits32_length, bits16_length, flat16_length, ho, hn] <;> omega) | omega) only
        [bitsAt_skip, bitsAt_here, bitsAt_last, bits32_length, bits16_length, flat16_length, ho, hn,
          bits32_value, bits16_value s1, bits16_value s2, bits16_value s3, bits16_value s4]
    · exact (List.map_congr_left fun j _ => congrArg (fun s => bitsAt _ s 128) (by omega)).trans (eo _)
    · exact (List.map_congr_left fun j _ => congrArg (fun s => bitsAt _ s 128) (by omega)).trans (en _)
  · simp only [Deferred.toBytes, bytesBits_append, List.length_append, bits32_length, bits16_length, flat16_length,
      ho, hn, deferredSize]
    ring

end Recursion
end Halo
