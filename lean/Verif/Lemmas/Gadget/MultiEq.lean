import Verif.Spec.Gadget.MultiEq
import Verif.Model.Gadget.MultiEq
import Verif.Lemmas.Gadget.Num
import Verif.Lemmas.Gadget.Logic
import Verif.Lemmas.LinComb
/-!
# Packed equalities
-/
namespace Halo
namespace Circuit
variable {F : Type} [Field F] {w : Var → F}

namespace MultiEq

/-- What is pending: both sides are integers of that many bits, and if they are equal, `P` holds. -/
def Owes (w : Var → F) (m : MultiEq F) (P : Prop) : Prop :=
  m.bitsUsed < 254 ∧ ∃ a b : ℕ, a < 2 ^ m.bitsUsed ∧ b < 2 ^ m.bitsUsed ∧ m.lhs.eval w = a ∧ m.rhs.eval w = b ∧ (a = b → P)

theorem owes_empty {P : Prop} (h : P) (ops : ℕ) : Owes w (⟨ops, 0, .zero, .zero⟩ : MultiEq F) P :=
  ⟨by norm_num, 0, 0, by simp, by simp, by simp, by simp, fun _ => h⟩

variable [LawfulField F]

theorem cast_inj_of_lt {n a b : ℕ} (hn : n ≤ 254) (ha : a < 2 ^ n) (hb : b < 2 ^ n) (h : (a : F) = b) : a = b := by
  have hm := (LawfulField.modulus_bound (F := F)).1
  have hp : (2 : ℕ) ^ n ≤ 2 ^ 254 := Nat.pow_le_pow_right (by norm_num) hn
  rw [LawfulField.cast_eq_iff, Nat.mod_eq_of_lt (by omega),
    Nat.mod_eq_of_lt (by omega)] at h
  exact h

theorem Owes.settle {m : MultiEq F} {P : Prop} (h : m.Owes w P) (he : m.lhs.eval w = m.rhs.eval w) : P := by
  obtain ⟨hb, a, b, h1, h2, h3, h4, h5⟩ := h
  exact h5 (cast_inj_of_lt hb.le h1 h2 (by rw [← h3, ← h4, he]))

omit [LawfulField F] in
theorem Owes.push {m : MultiEq F} {P : Prop} (h : m.Owes w P) {n : ℕ} {l r : LC F} (hn : m.bitsUsed + n < 254)
    (hl : FitsIn w n l) (hr : FitsIn w n r) (ops : ℕ) :
    Owes w (⟨ops, m.bitsUsed + n, m.lhs.addScaled (.full ((1 + 1) ^ m.bitsUsed)) l,
      m.rhs.addScaled (.full ((1 + 1) ^ m.bitsUsed)) r⟩ : MultiEq F) (P ∧ l.eval w = r.eval w) := by
  obtain ⟨hb, a, b, h1, h2, h3, h4, h5⟩ := h
  obtain ⟨u, hu, hl⟩ := hl
  obtain ⟨v, hv, hr⟩ := hr
  have lt : ∀ {a u : ℕ}, a < 2 ^ m.bitsUsed → u < 2 ^ n → a + 2 ^ m.bitsUsed * u < 2 ^ (m.bitsUsed + n) := by
    intro a u ha hu
    rw [pow_add]
    calc a + 2 ^ m.bitsUsed * u < 2 ^ m.bitsUsed + 2 ^ m.bitsUsed * u := by omega
      _ = 2 ^ m.bitsUsed * (u + 1) := by ring
      _ ≤ _ := Nat.mul_le_mul le_rfl hu
  refine ⟨hn, a + 2 ^ m.bitsUsed * u, b + 2 ^ m.bitsUsed * v, lt h1 hu, lt h2 hv, ?_, ?_, fun e => ?_⟩
  · simp only [LC.eval_addScaled, h3, hl, Coeff.value]
    push_cast
    norm_num [mul_comm]
  · simp only [LC.eval_addScaled, h4, hr, Coeff.value]
    push_cast
    norm_num [mul_comm]
  · have e1 : a = b := by
      have := congrArg (· % 2 ^ m.bitsUsed) e
      simpa [Nat.mod_eq_of_lt h1, Nat.mod_eq_of_lt h2] using this
    have e2 : u = v := by
      subst e1
      exact Nat.eq_of_mul_eq_mul_left (Nat.two_pow_pos _) (Nat.add_left_cancel e)
    exact ⟨h5 e1, by rw [hl, hr, e2]⟩

theorem enforceEqual_sound {m : MultiEq F} {P : Prop} (h : m.Owes w P) {n : ℕ} {l r : LC F} (hl : FitsIn w n l)
    (hr : FitsIn w n r) : Sound w (m.enforceEqual n l r) fun m' => m'.Owes w (P ∧ l.eval w = r.eval w) := by
  unfold enforceEqual
  split
  · intro he
    simp only [LC.eval_subLC, sub_eq_zero] at he
    show Sound w (if fieldCapacity > 0 + n then _ else _) _
    split
    · rename_i hn
      have := (owes_empty (w := w) (h.settle he) (m.ops + 1)).push (n := n) (by simpa [fieldCapacity] using hn) hl hr (m.ops + 1)
      exact this
    · trivial
  · show Sound w (if fieldCapacity > m.bitsUsed + n then _ else _) _
    split
    · rename_i hn
      exact h.push hn hl hr m.ops
    · trivial

theorem drop_sound {m : MultiEq F} {P : Prop} (h : m.Owes w P) : Sound w m.drop fun _ => P := by
  unfold drop
  split
  · intro he
    simp only [LC.eval_subLC, sub_eq_zero] at he
    exact h.settle he
  · rename_i hz
    obtain ⟨hb, a, b, h1, h2, h3, h4, h5⟩ := h
    obtain hz : m.bitsUsed = 0 := by omega
    rw [hz, pow_zero] at h1 h2
    exact h5 (by omega)

theorem enforceAll_sound : ∀ {eqs : List (ℕ × LC F × LC F)} {m : MultiEq F} {P : Prop}, m.Owes w P →
    (∀ e ∈ eqs, FitsIn w e.1 e.2.1 ∧ FitsIn w e.1 e.2.2) →
    Sound w (enforceAll eqs m) fun m' => m'.Owes w (P ∧ ∀ e ∈ eqs, e.2.1.eval w = e.2.2.eval w)
  | [], m, P, h, _ => by
    show Owes w m _
    simpa using h
  | (n, l, r) :: eqs, m, P, h, he => by
    refine (enforceEqual_sound h (he _ List.mem_cons_self).1 (he _ List.mem_cons_self).2).bind fun m' hm' => ?_
    refine (enforceAll_sound hm' fun e h => he e (List.mem_cons_of_mem _ h)).mono fun m'' hm'' => ?_
    simpa [and_assoc] using hm''

omit [LawfulField F] in
theorem enforceEqual_complete {m : MultiEq F} (hb : m.lhs.eval w = m.rhs.eval w) {n : ℕ} {l r : LC F} (hn : n < 254)
    (he : l.eval w = r.eval w) : Complete w (m.enforceEqual n l r) fun m' => m'.lhs.eval w = m'.rhs.eval w := by
  unfold enforceEqual
  split
  · refine ⟨by simp [hb], ?_⟩
    show Complete w (if fieldCapacity > 0 + n then _ else _) _
    rw [if_pos (by simpa [fieldCapacity] using hn)]
    show LC.eval w _ = LC.eval w _
    simp [he]
  · rename_i h
    show Complete w (if fieldCapacity > m.bitsUsed + n then _ else _) _
    rw [if_pos (by omega)]
    show LC.eval w _ = LC.eval w _
    simp [he, hb]

omit [LawfulField F] in
theorem enforceAll_complete : ∀ {eqs : List (ℕ × LC F × LC F)} {m : MultiEq F}, m.lhs.eval w = m.rhs.eval w →
    (∀ e ∈ eqs, e.1 < 254 ∧ e.2.1.eval w = e.2.2.eval w) →
    Complete w (enforceAll eqs m) fun m' => m'.lhs.eval w = m'.rhs.eval w
  | [], _, h, _ => h
  | _ :: _, _, h, he =>
    (enforceEqual_complete h (he _ List.mem_cons_self).1 (he _ List.mem_cons_self).2).bind fun _ hm' =>
      enforceAll_complete hm' fun e h => he e (List.mem_cons_of_mem _ h)

omit [LawfulField F] in
theorem enforceAll_bits : ∀ {eqs : List (ℕ × LC F × LC F)} {m : MultiEq F} {Q : MultiEq F → Prop},
    Complete w (enforceAll eqs m) Q → ∀ e ∈ eqs, e.1 < 254
  | [], _, _, _ => by simp
  | (n, l, r) :: eqs, m, Q, h => by
    have h := (complete_bind _ _ _).1 h
    suffices n < 254 ∧ ∃ m', Complete w (enforceAll eqs m') Q by
      obtain ⟨hn, m', h'⟩ := this
      intro e he
      rcases List.mem_cons.1 he with rfl | he
      · exact hn
      · exact enforceAll_bits h' e he
    unfold enforceEqual at h
    split at h
    · obtain ⟨-, h⟩ := h
      change Complete w (if fieldCapacity > 0 + n then _ else _) _ at h
      split at h
      · rename_i hn
        exact ⟨by simpa [fieldCapacity] using hn, _, h⟩
      · exact h.elim
    · change Complete w (if fieldCapacity > m.bitsUsed + n then _ else _) _ at h
      split at h
      · rename_i hn
        exact ⟨by simp only [fieldCapacity] at hn; omega, _, h⟩
      · exact h.elim

omit [LawfulField F] in
theorem enforceAll_pure : ∀ {eqs : List (ℕ × LC F × LC F)} {m : MultiEq F}, m.bitsUsed + (eqs.map (·.1)).sum < 254 →
    ∃ m', enforceAll eqs m = .pure m' ∧ m'.bitsUsed = m.bitsUsed + (eqs.map (·.1)).sum
  | [], m, _ => ⟨m, rfl, by simp⟩
  | (n, l, r) :: eqs, m, h => by
    simp only [List.map_cons, List.sum_cons] at h ⊢
    obtain ⟨m', h1, h2⟩ := enforceAll_pure (eqs := eqs) (m := ⟨m.ops, m.bitsUsed + n,
      m.lhs.addScaled (.full ((1 + 1) ^ m.bitsUsed)) l, m.rhs.addScaled (.full ((1 + 1) ^ m.bitsUsed)) r⟩)
      (by show m.bitsUsed + n + _ < 254; omega)
    refine ⟨m', ?_, by rw [h2]; show m.bitsUsed + n + _ = _; omega⟩
    rw [← h1]
    have hn : ¬ fieldCapacity ≤ m.bitsUsed + n := by simp only [fieldCapacity]; omega
    show (m.enforceEqual n l r >>= fun m => enforceAll eqs m) = _
    have : m.enforceEqual n l r = .pure ⟨m.ops, m.bitsUsed + n,
      m.lhs.addScaled (.full ((1 + 1) ^ m.bitsUsed)) l, m.rhs.addScaled (.full ((1 + 1) ^ m.bitsUsed)) r⟩ := by
      unfold enforceEqual
      rw [if_neg hn]
      show (if fieldCapacity > m.bitsUsed + n then _ else _) = _
      rw [if_pos (by omega)]
      rfl
    rw [this]
    rfl

end MultiEq
end Circuit
end Halo
