import Verif.Model.Print
import Verif.Spec.Print
import Verif.Lemmas.FieldBytes
/-!
# Lemmas on printing
-/
namespace Halo
open Fe

theorem digitChar_mem {n : ℕ} (h : n < 16) : n.digitChar ∈ hexDigits := by
  interval_cases n <;> decide

theorem idxOf_digitChar {n : ℕ} (h : n < 16) : hexDigits.idxOf n.digitChar = n := by
  interval_cases n <;> decide

theorem byteHex_mem {b : U8} {c : Char} (h : c ∈ byteHex b) : c ∈ hexDigits := by
  have := b.isLt
  simp only [byteHex, List.mem_cons, List.not_mem_nil, or_false] at h
  rcases h with rfl | rfl
  · exact digitChar_mem (by omega)
  · exact digitChar_mem (by omega)

theorem hexNat_append (l1 l2 : List Char) : hexNat (l1 ++ l2) = hexNat l1 * 16 ^ l2.length + hexNat l2 := by
  induction l1 with
  | nil => simp [hexNat]
  | cons c l ih => simp only [List.cons_append, hexNat, ih, List.length_append, pow_add]; ring

theorem hexNat_byteHex (b : U8) : hexNat (byteHex b) = b.toNat := by
  have := b.isLt
  simp only [byteHex, hexNat, idxOf_digitChar (show b.toNat / 16 < 16 by omega),
    idxOf_digitChar (show b.toNat % 16 < 16 by omega), List.length_cons, List.length_nil]
  omega

theorem length_flatMap_byteHex (l : List U8) : (l.flatMap byteHex).length = 2 * l.length := by
  induction l with
  | nil => rfl
  | cons b l ih => simp only [List.flatMap_cons, List.length_append, ih, byteHex, List.length_cons, List.length_nil]; ring

theorem hexNat_bytes (l : List U8) : hexNat (l.reverse.flatMap byteHex) = leNat l := by
  induction l with
  | nil => rfl
  | cons b l ih =>
    rw [List.reverse_cons, List.flatMap_append, hexNat_append, ih]
    simp only [List.flatMap_cons, List.flatMap_nil, List.append_nil, hexNat_byteHex, leNat]
    simp only [byteHex, List.length_cons, List.length_nil]
    omega

theorem length_debugBytes (v : Vector U8 32) : (debugBytes v).length = 66 := by
  rw [debugBytes, List.length_append, length_flatMap_byteHex, List.length_reverse, Vector.length_toList]
  rfl

theorem drop_debugBytes (v : Vector U8 32) : (debugBytes v).drop 2 = v.toList.reverse.flatMap byteHex := rfl

theorem debugBytes_inj {v w : Vector U8 32} (h : debugBytes v = debugBytes w) : v = w := by
  have := congrArg (fun l => hexNat (l.drop 2)) h
  simp only [drop_debugBytes, hexNat_bytes] at this
  exact Vector.toList_inj.1 (leNat_inj (by simp) this)

/-- numbers in front of a character that is no digit can be told apart -/
theorem toDigits_append_inj {m n : ℕ} {c : Char} {l1 l2 : List Char} (hc : c.isDigit = false)
    (h : Nat.toDigits 10 m ++ c :: l1 = Nat.toDigits 10 n ++ c :: l2) : m = n ∧ l1 = l2 := by
  have key : ∀ (a b : List Char), (∀ x ∈ a, x.isDigit = true) → (∀ x ∈ b, x.isDigit = true) →
      a ++ c :: l1 = b ++ c :: l2 → a = b ∧ l1 = l2 := by
    intro a
    induction a with
    | nil =>
      intro b _ hb h
      cases b with
      | nil => simpa using h
      | cons y b =>
        simp only [List.nil_append, List.cons_append, List.cons.injEq] at h
        have := hb y (by simp)
        rw [← h.1, hc] at this
        cases this
    | cons x a ih =>
      intro b ha hb h
      cases b with
      | nil =>
        simp only [List.nil_append, List.cons_append, List.cons.injEq] at h
        have := ha x (by simp)
        rw [h.1, hc] at this
        cases this
      | cons y b =>
        simp only [List.cons_append, List.cons.injEq] at h
        obtain ⟨e1, e2⟩ := ih b (fun z hz => ha z (by simp [hz])) (fun z hz => hb z (by simp [hz])) h.2
        exact ⟨by rw [h.1, e1], e2⟩
  obtain ⟨e1, e2⟩ := key _ _ (fun x hx => Nat.isDigit_of_mem_toDigits (by decide) (by decide) hx)
    (fun x hx => Nat.isDigit_of_mem_toDigits (by decide) (by decide) hx) h
  refine ⟨?_, e2⟩
  have := congrArg (fun l => Nat.ofDigitChars 10 l 0) e1
  simpa using this

end Halo
