import Verif.Lemmas.Gadget.MultiEq
import Verif.Lemmas.Gadget.Closed
import Verif.Lemmas.FieldInst
/-!
# Packed equalities (C81)
-/
namespace Halo
namespace Circuit
namespace MultiEq
variable {F : Type} [Field F] {w : Var → F} [LawfulField F]

/-- **C81**, soundness: if both sides of each equality have values of the stated size, then the constraints imply all equalities. -/
theorem C81_sound {eqs : List (ℕ × LC F × LC F)} (h : ∀ e ∈ eqs, FitsIn w e.1 e.2.1 ∧ FitsIn w e.1 e.2.2) :
    Sound w (MultiEq.all eqs) fun _ => ∀ e ∈ eqs, e.2.1.eval w = e.2.2.eval w := by
  refine (enforceAll_sound (P := True) (owes_empty trivial 0) h).bind fun m hm => (drop_sound hm).mono fun _ h => h.2

omit [LawfulField F] in
/-- **C81**, completeness: if the equalities hold, and none has 254 bits or more, then the program does not panic and its
constraints are satisfied. The values need not be in range. -/
theorem C81_complete {eqs : List (ℕ × LC F × LC F)} (h : ∀ e ∈ eqs, e.1 < 254 ∧ e.2.1.eval w = e.2.2.eval w) :
    Complete w (MultiEq.all eqs) fun _ => True := by
  refine (enforceAll_complete (m := new) (by simp [new]) h).bind fun m hm => ?_
  unfold drop
  split
  · exact ⟨by simp [hm], trivial⟩
  · trivial

omit [LawfulField F] in
/-- **C81**: an equality of 254 bits or more makes it panic. -/
theorem C81_bits {eqs : List (ℕ × LC F × LC F)} {Q : Unit → Prop} (h : Complete w (MultiEq.all eqs) Q) :
    ∀ e ∈ eqs, e.1 < 254 :=
  enforceAll_bits ((complete_bind _ _ _).1 h)

omit [LawfulField F] in
/-- **C81**: as long as there are fewer than 254 bits together, all equalities cost a single constraint, and none if there are
no bits. -/
theorem C81_packed {eqs : List (ℕ × LC F × LC F)} (h : (eqs.map (·.1)).sum < 254) :
    if (eqs.map (·.1)).sum = 0 then MultiEq.all eqs = .pure () else ∃ lc, MultiEq.all eqs = .enforceZero lc (.pure ()) := by
  obtain ⟨m, h1, h2⟩ := enforceAll_pure (eqs := eqs) (m := new) (by simpa [new] using h)
  have h2 : m.bitsUsed = (eqs.map (·.1)).sum := by simpa [new] using h2
  have h3 : MultiEq.all eqs = m.drop := by
    show (enforceAll eqs new >>= fun m => m.drop) = _
    rw [h1]
    rfl
  rw [h3, ← h2]
  unfold drop
  split
  · rename_i h
    rw [if_neg (by omega)]
    rfl
  · rename_i h
    rw [if_pos (by omega)]
    exact ⟨_, rfl⟩

/-- The circuit that allocates numbers and states with a `MultiEq` that each is equal to the bit next to it -/
def bitsCircuit (vs : List Bool) : Var → Prog F (List (AllocatedBit × AllocatedBit)) := fun _ => do
  let bs ← mapProg (fun v => do
    let a ← AllocatedBit.alloc (.ok v)
    let b ← AllocatedBit.alloc (.ok v)
    return (a, b)) vs
  MultiEq.all (bs.map fun b => (1, .ofVar b.1.var, .ofVar b.2.var))
  return bs

/-- An example: in a circuit that states with a `MultiEq` that pairs of bits are equal, however many, they are equal for every
assignment that satisfies the constraints; and there is one. -/
example (vs : List Bool) :
    (Enforces (bitsCircuit (F := F) vs) fun w bs => ∀ b ∈ bs, w b.1.var = w b.2.var) ∧
    Provable (bitsCircuit (F := F) vs) fun w bs => ∀ b ∈ bs, w b.1.var = w b.2.var := by
  constructor
  · refine enforces_of_sound fun w one h1 => ?_
    refine Sound.bind (P := fun bs => ∀ b ∈ bs, (∃ v, b.1.Means w v) ∧ ∃ v, b.2.Means w v) ?_ fun bs hbs => ?_
    · refine ((Logic.sound w).mapProg (P := fun _ b => (∃ v, b.1.Means w v) ∧ ∃ v, b.2.Means w v) fun v _ => ?_).mono
        fun bs h => ?_
      · exact (AllocatedBit.alloc_sound _).bind fun a ha => (AllocatedBit.alloc_sound _).bind fun b hb => ⟨ha, hb⟩
      · intro b hb
        obtain ⟨i, hi, rfl⟩ := List.getElem_of_mem hb
        exact h.get (h.length_eq ▸ hi) hi
    · have fits : ∀ {b : AllocatedBit}, (∃ v, b.Means w v) → FitsIn w 1 (.ofVar b.var) := by
        rintro b ⟨v, hv⟩
        refine ⟨v.toNat, by cases v <;> decide, ?_⟩
        rw [LC.eval_ofVar, hv]
        cases v <;> simp
      refine (C81_sound (w := w) (eqs := bs.map fun b => (1, .ofVar b.1.var, .ofVar b.2.var)) ?_).bind fun _ h => ?_
      · intro e he
        obtain ⟨b, hb, rfl⟩ := List.mem_map.1 he
        exact ⟨fits (hbs b hb).1, fits (hbs b hb).2⟩
      · intro b hb
        simpa using h _ (List.mem_map.2 ⟨b, hb, rfl⟩)
  · refine provable_of_complete fun w one h1 => ?_
    refine Complete.bind (P := fun bs => ∀ b ∈ bs, w b.1.var = w b.2.var) ?_ fun bs hbs => ?_
    · refine ((Logic.complete w).mapProg (P := fun _ b => w b.1.var = w b.2.var) fun v _ => ?_).mono fun bs h => ?_
      · refine (AllocatedBit.alloc_complete v).bind fun a ha => (AllocatedBit.alloc_complete v).bind fun b hb => ?_
        exact ha.1.trans hb.1.symm
      · intro b hb
        obtain ⟨i, hi, rfl⟩ := List.getElem_of_mem hb
        exact h.get (h.length_eq ▸ hi) hi
    · refine Complete.bind (C81_complete (w := w) (eqs := bs.map fun b => (1, .ofVar b.1.var, .ofVar b.2.var)) ?_) fun _ _ => hbs
      intro e he
      obtain ⟨b, hb, rfl⟩ := List.mem_map.1 he
      simpa using hbs b hb

omit [LawfulField F] in
/-- **C81**: the values have to be in range. Of two equalities of one bit each, `2 = 0` and `0 = 1`, none holds, but the
constraint is satisfied. -/
theorem C81_range_needed : ∃ (w : Var → F) (eqs : List (ℕ × LC F × LC F)),
    Complete w (MultiEq.all eqs) (fun _ => True) ∧ (eqs.map fun e => (e.2.1.eval w, e.2.2.eval w)) = [(1 + 1, 0), (0, 1)] := by
  refine ⟨fun v => if v = .A 0 then 1 + 1 else if v = .A 1 then 1 else 0,
    [(1, .ofVar (.A 0), .zero), (1, .zero, .ofVar (.A 1))], ?_, by simp⟩
  refine ⟨?_, trivial⟩
  simp [new, Coeff.value, Coeff.mul, Coeff.neg, LC.ofVar, LC.addVar, LC.addScaled, LC.add, LC.subLC, LC.sub, LC.zero]

/-- `C81_packed` and `C81_sound` for three equalities -/
example (w : Var → Fp) (a b c : Var) (ha : w a = 3) (hb : w b = 200) (hc : w c = 1) :
    ((([(2, LC.ofVar a, LC.ofVar a), (8, .ofVar b, .ofVar b), (1, .ofVar c, .ofVar c)] : List (ℕ × LC Fp × LC Fp)).map
      (·.1)).sum < 254) ∧
    ∀ e ∈ ([(2, LC.ofVar a, LC.ofVar a), (8, .ofVar b, .ofVar b), (1, .ofVar c, .ofVar c)] : List (ℕ × LC Fp × LC Fp)),
      FitsIn w e.1 e.2.1 ∧ FitsIn w e.1 e.2.2 := by
  refine ⟨by simp, ?_⟩
  intro e he
  simp only [List.mem_cons, List.not_mem_nil, or_false] at he
  rcases he with rfl | rfl | rfl
  · exact ⟨⟨3, by norm_num, by simp [ha]⟩, 3, by norm_num, by simp [ha]⟩
  · exact ⟨⟨200, by norm_num, by simp [hb]⟩, 200, by norm_num, by simp [hb]⟩
  · exact ⟨⟨1, by norm_num, by simp [hc]⟩, 1, by norm_num, by simp [hc]⟩

end MultiEq
end Circuit
end Halo
