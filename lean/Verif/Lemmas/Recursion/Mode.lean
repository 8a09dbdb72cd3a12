import Verif.Model.Recursion.Gadgets
import Verif.Lemmas.Gadget.Bits
import Verif.Lemmas.Gadget.Num
import Verif.Lemmas.Gadget.Logic
/-!
# Soundness and completeness at once

`hon` says whether the prover is honest; what is only known or needed for honest provers is stated
under the hypothesis `hon = true`.
-/
namespace Halo
namespace Circuit
variable {F : Type} [Field F] {w : Var → F} {one : Var} {hon : Bool}

/-- completeness for honest provers, soundness for all -/
def Logic.mode (w : Var → F) : Bool → Logic F
  | true => .complete w
  | false => .sound w

/-- `hon` decides between completeness and soundness. -/
abbrev Holds {α : Type} (hon : Bool) (w : Var → F) (p : Prog F α) (Q : α → Prop) : Prop :=
  (Logic.mode w hon).holds p Q

theorem holds_true {α : Type} {p : Prog F α} {Q : α → Prop} : Holds true w p Q ↔ Complete w p Q := Iff.rfl
theorem holds_false {α : Type} {p : Prog F α} {Q : α → Prop} : Holds false w p Q ↔ Sound w p Q := Iff.rfl

namespace Holds
variable {α β : Type}

theorem bind {p : Prog F α} {f : α → Prog F β} {P : α → Prop} {Q : β → Prop} (h : Holds hon w p P)
    (hf : ∀ a, P a → Holds hon w (f a) Q) : Holds hon w (p >>= f) Q := (Logic.mode w hon).bind h hf

theorem mono {p : Prog F α} {P Q : α → Prop} (h : Holds hon w p P) (hq : ∀ a, P a → Q a) :
    Holds hon w p Q := (Logic.mode w hon).mono h hq

theorem ret {a : α} {Q : α → Prop} (h : Q a) : Holds hon w (Pure.pure a) Q := (Logic.mode w hon).ret h

theorem pure {a : α} {Q : α → Prop} (h : Q a) : Holds hon w (.pure a) Q := (Logic.mode w hon).pure h

/-- What is wrong in honest runs does not happen, in others it ends the run. -/
theorem panic {Q : α → Prop} (h : hon ≠ true) : Holds hon w .panic Q := by
  cases hon
  · exact trivial
  · exact absurd rfl h

theorem guard {c : Prop} [Decidable c] {p : Prog F α} {Q : α → Prop} (hc : hon = true → ¬ c)
    (h : ¬ c → Holds hon w p Q) : Holds hon w (if c then .panic else p) Q := by
  split
  · rename_i hcc
    exact panic fun hh => hc hh hcc
  · rename_i hcc
    exact h hcc

theorem enforce {lc : LC F} (h : hon = true → lc.eval w = 0) :
    Holds hon w (.enforce lc) fun _ => lc.eval w = 0 := by
  cases hon
  · exact fun h => h
  · exact ⟨h rfl, h rfl⟩

end Holds

/-- The number is known to honest provers. -/
def AllocatedNum.Ok (hon : Bool) (w : Var → F) (n : AllocatedNum F) : Prop := hon = true → n.Honest w
/-- The number is known to honest provers. -/
def Combination.Ok (hon : Bool) (w : Var → F) (a : Combination F) : Prop := hon = true → a.Honest w

/-- The wire carries the bit, and honest provers know it. -/
def AllocatedBit.Ok (hon : Bool) (w : Var → F) (b : AllocatedBit) (v : Bool) : Prop :=
  b.Means w v ∧ (hon = true → b.value = some v)

/-- The wires carry the bits. -/
abbrev BitsOk (hon : Bool) (w : Var → F) (bits : List AllocatedBit) (vs : List Bool) : Prop :=
  List.Forall₂ (AllocatedBit.Ok hon w) bits vs

theorem BitsOk.means {bits : List AllocatedBit} {vs : List Bool} (h : BitsOk hon w bits vs) :
    List.Forall₂ (fun b v => b.Means w v) bits vs := h.imp fun _ _ h => h.1

theorem AllocatedBit.Ok.honest {b : AllocatedBit} {v : Bool} (h : b.Ok true w v) : b.Honest w v :=
  ⟨h.1, h.2 rfl⟩

theorem bitsOk_true {bits : List AllocatedBit} {vs : List Bool} :
    BitsOk true w bits vs ↔ List.Forall₂ (fun b v => b.Honest w v) bits vs :=
  ⟨fun h => h.imp fun _ _ h => h.honest, fun h => h.imp fun _ _ h => ⟨h.1, fun _ => h.2⟩⟩

theorem bitsOk_false {bits : List AllocatedBit} {vs : List Bool} :
    BitsOk false w bits vs ↔ List.Forall₂ (fun b v => b.Means w v) bits vs :=
  ⟨fun h => h.imp fun _ _ h => h.1, fun h => h.imp fun _ _ h => ⟨h, nofun⟩⟩

namespace AllocatedNum
variable {n m : AllocatedNum F}

theorem alloc_holds {v : Except SynthesisError F} {u : F} (h : hon = true → v = .ok u) :
    Holds hon w (alloc v) fun r => r.Ok hon w ∧ (hon = true → w r.var = u) := by
  cases hon
  · exact Sound.anyway _ fun _ => ⟨nofun, nofun⟩
  · rw [h rfl]
    exact (alloc_complete u).mono fun r hr => ⟨fun _ => hr.1, fun _ => hr.2⟩

theorem mul_holds (hn : n.Ok hon w) (hm : m.Ok hon w) :
    Holds hon w (n.mul m) fun r => r.Ok hon w ∧ w r.var = w n.var * w m.var := by
  cases hon
  · exact (mul_sound n m).mono fun r hr => ⟨nofun, hr⟩
  · exact (mul_complete (hn rfl) (hm rfl)).mono fun r hr => ⟨fun _ => hr.1, hr.2⟩

theorem one_ok (h1 : w one = 1) : (AllocatedNum.one one : AllocatedNum F).Ok hon w := by
  intro _; simp [AllocatedNum.one, Honest, h1]

theorem ofBit_ok {b : AllocatedBit} {v : Bool} (h : b.Ok hon w v) : (ofBit b : AllocatedNum F).Ok hon w := by
  intro hh
  subst hh
  exact ofBit_honest h.honest

variable [LawfulField F]

theorem invert_holds (h1 : w one = 1) (hn : n.Ok hon w) (h0 : hon = true → w n.var ≠ 0) :
    Holds hon w (n.invert one) fun r => r.Ok hon w ∧ w n.var ≠ 0 ∧ w r.var = (w n.var)⁻¹ := by
  cases hon
  · exact (invert_sound h1 n).mono fun r hr => ⟨nofun, hr⟩
  · exact (invert_complete h1 (hn rfl) (h0 rfl)).mono fun r hr => ⟨fun _ => hr.1, h0 rfl, hr.2⟩

/-- the square root gadget, with the root that honest provers compute -/
theorem sqrt_honest (hn : n.Honest w) {y : F} (hy : FieldApi.sqrt (w n.var) = some y) :
    Complete w n.sqrt fun r => r.Honest w ∧ w r.var = y := by
  have hs : IsSquare (w n.var) := by
    by_contra h
    rw [LawfulField.sqrt_none _ h] at hy
    cases hy
  obtain ⟨y', hy', hyy⟩ := LawfulField.sqrt_some _ hs
  rw [hy] at hy'
  cases hy'
  rw [Honest] at hn
  simp only [sqrt, alloc, Prog.pure_eq, complete_bind, complete_doAlloc, complete_doMultiply,
    complete_enforce, LC.eval_subVar, LC.eval_ofVar, sub_eq_zero, complete_pure, hn, orMissing_some,
    ok_bind, hy, ok_toOption, Honest]
  exact ⟨_, rfl, fun x hx => ⟨_, rfl, hyy, fun a b c ha hb hc =>
    ⟨by rw [ha, hx], by rw [hb, hx], hc, by rw [hx], hx⟩⟩⟩

theorem sqrt_holds (hn : n.Ok hon w) (hs : hon = true → IsSquare (w n.var)) :
    Holds hon w n.sqrt fun r => r.Ok hon w ∧ w r.var * w r.var = w n.var ∧
      (hon = true → FieldApi.sqrt (w n.var) = some (w r.var)) := by
  cases hon
  · exact (sqrt_sound n).mono fun r hr => ⟨nofun, hr, nofun⟩
  · obtain ⟨y, hy, hyy⟩ := LawfulField.sqrt_some _ (hs rfl)
    exact (sqrt_honest (hn rfl) hy).mono fun r hr => ⟨fun _ => hr.1, by rw [hr.2, hyy], fun _ => by rw [hr.2, hy]⟩

end AllocatedNum

namespace Combination
variable {a b : Combination F} {n : AllocatedNum F} {m : Num F}

theorem mul_holds (h1 : w one = 1) (ha : a.Ok hon w) (hb : b.Ok hon w) :
    Holds hon w (a.mul one b) fun r => r.Ok hon w ∧ w r.var = a.wire w * b.wire w := by
  cases hon
  · exact (mul_sound h1 a b).mono fun r hr => ⟨nofun, hr⟩
  · exact (mul_complete h1 (ha rfl) (hb rfl)).mono fun r hr => ⟨fun _ => hr.1, hr.2⟩

theorem ok_ofAllocated (h : n.Ok hon w) : (ofAllocated n).Ok hon w := fun hh => honest_ofAllocated (h hh)
theorem ok_add (ha : a.Ok hon w) (hb : b.Ok hon w) : (a.add b).Ok hon w :=
  fun hh => honest_add (ha hh) (hb hh)
theorem ok_addAllocated (ha : a.Ok hon w) (hn : n.Ok hon w) : (a.addAllocated n).Ok hon w :=
  fun hh => honest_addAllocated (ha hh) (hn hh)
theorem ok_subAllocated (ha : a.Ok hon w) (hn : n.Ok hon w) : (a.subAllocated n).Ok hon w :=
  fun hh => honest_subAllocated (ha hh) (hn hh)
theorem ok_scale (c : F) (ha : a.Ok hon w) : (a.scale c).Ok hon w := fun hh => honest_scale c (ha hh)

end Combination
end Circuit
end Halo
