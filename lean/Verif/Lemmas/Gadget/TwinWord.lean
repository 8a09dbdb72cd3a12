import Verif.Lemmas.Gadget.TwinNum
import Verif.Lemmas.Gadget.UIntArith
/-!
# Bits and words ask for the same constraints, whatever values are known

`addmany` looks at values when all bits of all operands are constant. Words are therefore either `Known`: all
bits are constant, and the value is known, on both sides; or `Free`: no bit is constant.
-/
set_option linter.unusedSectionVars false
namespace Halo
namespace Circuit
variable {F : Type} [Field F] {V : Var → Prop} {one : Var} {k : ℕ}

namespace AllocatedBit
variable {a a' b b' : AllocatedBit}

theorem twin_xor (ha : Twin V a a') (hb : Twin V b b') :
    Circuit.Twin V (xor a b : Prog F AllocatedBit) (xor a' b') (Twin V) := by
  have h1 := ha.mem
  have h2 := hb.mem
  intro x o hx d e f _ hd he hf
  refine ⟨by rw [ha.var], by lc_in, by rw [hb.var], by lc_in, by rw [ha.var, hb.var], by lc_in, ?_⟩
  exact ⟨_, _, _, hx⟩

theorem twin_and (ha : Twin V a a') (hb : Twin V b b') :
    Circuit.Twin V (and a b : Prog F AllocatedBit) (and a' b') (Twin V) := by
  have h1 := ha.mem
  have h2 := hb.mem
  intro d e f _ hd he hf
  refine ⟨by rw [ha.var], by lc_in, by rw [hb.var], by lc_in, ?_⟩
  exact ⟨_, _, _, hf⟩

theorem twin_andNot (ho : V one) (ha : Twin V a a') (hb : Twin V b b') :
    Circuit.Twin V (andNot one a b : Prog F AllocatedBit) (andNot one a' b') (Twin V) := by
  have h1 := ha.mem
  have h2 := hb.mem
  intro d e f _ hd he hf
  refine ⟨by rw [ha.var], by lc_in, by rw [hb.var], by lc_in, ?_⟩
  exact ⟨_, _, _, hf⟩

theorem twin_nor (ho : V one) (ha : Twin V a a') (hb : Twin V b b') :
    Circuit.Twin V (nor one a b : Prog F AllocatedBit) (nor one a' b') (Twin V) := by
  have h1 := ha.mem
  have h2 := hb.mem
  intro d e f _ hd he hf
  refine ⟨by rw [ha.var], by lc_in, by rw [hb.var], by lc_in, ?_⟩
  exact ⟨_, _, _, hf⟩

end AllocatedBit

namespace Boolean
variable {a a' b b' c c' : Boolean}

theorem Twin.isConstant (h : Twin V a a') : a'.isConstant = a.isConstant := by cases h <;> rfl

/-- The result is constant only if both are. -/
theorem twin_xor (ha : Twin V a a') (hb : Twin V b b') :
    Circuit.Twin V (xor a b : Prog F Boolean) (xor a' b') fun r r' => Twin V r r' ∧
      (a'.isConstant = false ∨ b'.isConstant = false → r'.isConstant = false) := by
  cases ha with
  | constant x =>
    cases hb with
    | constant y => cases x <;> cases y <;> exact ⟨.constant _, by simp [isConstant]⟩
    | is hb => cases x <;> exact ⟨by first | exact .is hb | exact .not hb, by simp [isConstant, negate]⟩
    | not hb => cases x <;> exact ⟨by first | exact .not hb | exact .is hb, by simp [isConstant, negate]⟩
  | is ha =>
    cases hb with
    | constant y => cases y <;> exact ⟨by first | exact .is ha | exact .not ha, by simp [isConstant, negate]⟩
    | is hb => exact (AllocatedBit.twin_xor ha hb).bind fun r r' hr => Twin.ret ⟨.is hr, by simp [isConstant]⟩
    | not hb =>
      exact (AllocatedBit.twin_xor ha hb).bind fun r r' hr => Twin.ret ⟨.not hr, by simp [isConstant, negate]⟩
  | not ha =>
    cases hb with
    | constant y => cases y <;> exact ⟨by first | exact .not ha | exact .is ha, by simp [isConstant, negate]⟩
    | is hb =>
      exact (AllocatedBit.twin_xor hb ha).bind fun r r' hr => Twin.ret ⟨.not hr, by simp [isConstant, negate]⟩
    | not hb => exact (AllocatedBit.twin_xor ha hb).bind fun r r' hr => Twin.ret ⟨.is hr, by simp [isConstant]⟩

theorem twin_and (ho : V one) (ha : Twin V a a') (hb : Twin V b b') :
    Circuit.Twin V (and one a b : Prog F Boolean) (and one a' b') (Twin V) := by
  cases ha with
  | constant x =>
    cases hb with
    | constant y => cases x <;> cases y <;> exact .constant _
    | is hb => cases x <;> first | exact .is hb | exact .constant _
    | not hb => cases x <;> first | exact .not hb | exact .constant _
  | is ha =>
    cases hb with
    | constant y => cases y <;> first | exact .is ha | exact .constant _
    | is hb => exact (AllocatedBit.twin_and ha hb).bind fun r r' hr => Twin.ret (.is hr)
    | not hb => exact (AllocatedBit.twin_andNot ho ha hb).bind fun r r' hr => Twin.ret (.is hr)
  | not ha =>
    cases hb with
    | constant y => cases y <;> first | exact .not ha | exact .constant _
    | is hb => exact (AllocatedBit.twin_andNot ho hb ha).bind fun r r' hr => Twin.ret (.is hr)
    | not hb => exact (AllocatedBit.twin_nor ho ha hb).bind fun r r' hr => Twin.ret (.is hr)

theorem twin_chGeneral (ho : V one) (ha : Twin V a a') (hb : Twin V b b') (hc : Twin V c c') (v v') :
    Circuit.Twin V (chGeneral one a b c v : Prog F Boolean) (chGeneral one a' b' c' v') (Twin V) := by
  intro x _ hx d e f _ hd he hf
  have h1 := ha.in (F := F) (k := .one) ho
  have h2 := hb.in (F := F) (k := .one) ho
  have h3 := hc.in (F := F) (k := .one) ho
  refine ⟨by rw [ha.lc], LC.in_subVar h1 hd, by rw [hb.lc, hc.lc], LC.in_subVar (LC.in_subLC h2 h3) he,
    by rw [hc.lc], LC.in_subVar (LC.in_subLC (LC.in_ofVar hx) h3) hf, ?_⟩
  exact .is ⟨_, _, _, hx⟩

theorem twin_majGeneral (ho : V one) (ha : Twin V a a') (hb : Twin V b b') (hc : Twin V c c') (v v') :
    Circuit.Twin V (majGeneral one a b c v : Prog F Boolean) (majGeneral one a' b' c' v') (Twin V) := by
  intro x _ hx
  refine (twin_and ho hb hc).bind fun bc bc' hbc => ?_
  intro d e f _ hd he hf
  have h1 := ha.in (F := F) (k := .one) ho
  have h2 := hb.in (F := F) (k := .one) ho
  have h3 := hc.in (F := F) (k := .one) ho
  have h4 := hbc.in (F := F) (k := .one) ho
  refine ⟨by rw [hbc.lc, hb.lc, hc.lc], LC.in_subVar (LC.in_subLC (LC.in_subLC (LC.in_addLC h4 h4) h2) h3) hd,
    by rw [ha.lc], LC.in_subVar h1 he, by rw [hbc.lc], LC.in_subVar (LC.in_subVar h4 hx) hf, ?_⟩
  exact .is ⟨_, _, _, hx⟩

theorem twin_negate {p p' : Prog F Boolean} (h : Circuit.Twin V p p' (Twin V)) :
    Circuit.Twin V (do return (← p).negate) (do return (← p').negate) (Twin V) :=
  h.bind fun _ _ hr => Twin.ret hr.negate

theorem twin_ch (ho : V one) (ha : Twin V a a') (hb : Twin V b b') (hc : Twin V c c') :
    Circuit.Twin V (sha256Ch one a b c : Prog F Boolean) (sha256Ch one a' b' c') (Twin V) := by
  have n1 := ha.negate
  have n2 := hb.negate
  have n3 := hc.negate
  have h1 := ha
  have h2 := hb
  have h3 := hc
  cases ha with
  | constant x =>
    cases x
    · cases hb with
      | constant y => cases hc with
        | constant z => exact .constant _
        | _ => exact h3
      | _ => exact h3
    · cases hb with
      | constant y =>
        cases y <;> cases hc with
        | constant z => exact .constant _
        | _ => first | exact twin_and ho n1 h3 | exact twin_negate (twin_and ho n1 n3)
      | is hb => cases hc with
        | constant z => cases z <;> exact twin_and ho h1 h2
        | _ => exact twin_chGeneral ho h1 h2 h3 _ _
      | not hb => cases hc with
        | constant z => cases z <;> exact twin_and ho h1 h2
        | _ => exact twin_chGeneral ho h1 h2 h3 _ _
  | is ha =>
    cases hb with
    | constant y =>
      cases y
      · exact twin_and ho n1 h3
      · cases hc with
        | constant z => cases z <;> first | exact twin_and ho h1 h2 | exact twin_negate (twin_and ho h1 n2)
        | _ => exact twin_negate (twin_and ho n1 n3)
    | is hb => cases hc with
      | constant z => cases z <;> first | exact twin_and ho h1 h2 | exact twin_negate (twin_and ho h1 n2)
      | _ => exact twin_chGeneral ho h1 h2 h3 _ _
    | not hb => cases hc with
      | constant z => cases z <;> first | exact twin_and ho h1 h2 | exact twin_negate (twin_and ho h1 n2)
      | _ => exact twin_chGeneral ho h1 h2 h3 _ _
  | not ha =>
    cases hb with
    | constant y =>
      cases y
      · exact twin_and ho n1 h3
      · cases hc with
        | constant z => cases z <;> first | exact twin_and ho h1 h2 | exact twin_negate (twin_and ho h1 n2)
        | _ => exact twin_negate (twin_and ho n1 n3)
    | is hb => cases hc with
      | constant z => cases z <;> first | exact twin_and ho h1 h2 | exact twin_negate (twin_and ho h1 n2)
      | _ => exact twin_chGeneral ho h1 h2 h3 _ _
    | not hb => cases hc with
      | constant z => cases z <;> first | exact twin_and ho h1 h2 | exact twin_negate (twin_and ho h1 n2)
      | _ => exact twin_chGeneral ho h1 h2 h3 _ _

theorem twin_maj (ho : V one) (ha : Twin V a a') (hb : Twin V b b') (hc : Twin V c c') :
    Circuit.Twin V (sha256Maj one a b c : Prog F Boolean) (sha256Maj one a' b' c') (Twin V) := by
  have n1 := ha.negate
  have n2 := hb.negate
  have n3 := hc.negate
  have h1 := ha
  have h2 := hb
  have h3 := hc
  cases ha with
  | constant x =>
    cases x
    · cases hb with
      | constant y => cases hc with
        | constant z => exact .constant _
        | _ => exact twin_and ho h2 h3
      | _ => exact twin_and ho h2 h3
    · cases hb with
      | constant y =>
        cases y <;> cases hc with
        | constant z => exact .constant _
        | _ => first | exact twin_and ho h1 h3 | exact twin_negate (twin_and ho n1 n3)
      | is hb => cases hc with
        | constant z => cases z <;> first | exact twin_and ho h1 h2 | exact twin_negate (twin_and ho n1 n2)
        | _ => exact twin_negate (twin_and ho n2 n3)
      | not hb => cases hc with
        | constant z => cases z <;> first | exact twin_and ho h1 h2 | exact twin_negate (twin_and ho n1 n2)
        | _ => exact twin_negate (twin_and ho n2 n3)
  | is ha =>
    cases hb with
    | constant y =>
      cases y
      · exact twin_and ho h1 h3
      · cases hc with
        | constant z => cases z <;> first | exact twin_and ho h1 h2 | exact twin_negate (twin_and ho n1 n2)
        | _ => exact twin_negate (twin_and ho n1 n3)
    | is hb => cases hc with
      | constant z => cases z <;> first | exact twin_and ho h1 h2 | exact twin_negate (twin_and ho n1 n2)
      | _ => exact twin_majGeneral ho h1 h2 h3 _ _
    | not hb => cases hc with
      | constant z => cases z <;> first | exact twin_and ho h1 h2 | exact twin_negate (twin_and ho n1 n2)
      | _ => exact twin_majGeneral ho h1 h2 h3 _ _
  | not ha =>
    cases hb with
    | constant y =>
      cases y
      · exact twin_and ho h1 h3
      · cases hc with
        | constant z => cases z <;> first | exact twin_and ho h1 h2 | exact twin_negate (twin_and ho n1 n2)
        | _ => exact twin_negate (twin_and ho n1 n3)
    | is hb => cases hc with
      | constant z => cases z <;> first | exact twin_and ho h1 h2 | exact twin_negate (twin_and ho n1 n2)
      | _ => exact twin_majGeneral ho h1 h2 h3 _ _
    | not hb => cases hc with
      | constant z => cases z <;> first | exact twin_and ho h1 h2 | exact twin_negate (twin_and ho n1 n2)
      | _ => exact twin_majGeneral ho h1 h2 h3 _ _

end Boolean

theorem map_isConstant {as as' : List Boolean} (h : List.Forall₂ (Boolean.Twin V) as as') :
    as'.all Boolean.isConstant = as.all Boolean.isConstant := by
  induction h with
  | nil => rfl
  | cons h _ ih => rw [List.all_cons, List.all_cons, h.isConstant, ih]

namespace UInt

/-- The same bits, up to values -/
def Weak (V : Var → Prop) (u u' : UInt k) : Prop := List.Forall₂ (Boolean.Twin V) u.bits u'.bits ∧ u'.bits.length = k

/-- The same constant -/
def Known (u u' : UInt k) : Prop :=
  u = u' ∧ (∀ b ∈ u'.bits, b.isConstant = true) ∧ u'.value.isSome = true ∧ u'.bits.length = k

/-- No bit is constant -/
def Free (V : Var → Prop) (u u' : UInt k) : Prop := Weak V u u' ∧ ∀ b ∈ u'.bits, b.isConstant = false

/-- The same constant or no bit is constant -/
def Strict (V : Var → Prop) (u u' : UInt k) : Prop := Known u u' ∨ Free V u u'

theorem bits_twin_refl {l : List Boolean} (h : ∀ b ∈ l, b.isConstant = true) :
    List.Forall₂ (Boolean.Twin V) l l := by
  refine RescueGadget.forall₂_refl fun b hb => ?_
  have := h b hb
  cases b with
  | constant c => exact .constant c
  | _ => simp [Boolean.isConstant] at this

theorem Known.weak {u u' : UInt k} (h : Known u u') : Weak V u u' := by
  obtain ⟨rfl, h1, -, h2⟩ := h
  exact ⟨bits_twin_refl h1, h2⟩

theorem Strict.weak {u u' : UInt k} (h : Strict V u u') : Weak V u u' := h.elim Known.weak And.left

theorem constant_known (hk : 0 < k) (x : BitVec k) : Known (constant x) (constant x) := by
  refine ⟨rfl, ?_, rfl, by simp [constant, shiftBits_self hk]⟩
  intro b hb
  simp only [constant, List.mem_map] at hb
  obtain ⟨v, -, rfl⟩ := hb
  cases v <;> rfl

section rotr
variable {u u' : UInt 32}

theorem rotr_mem {u : UInt 32} {n : ℕ} {b : Boolean} (h : b ∈ (u.rotr n).bits) : b ∈ u.bits := by
  have := List.mem_of_mem_take h
  rw [List.mem_append] at this
  exact this.elim List.mem_of_mem_drop id

theorem rotr_length {u : UInt 32} (n : ℕ) (h : u.bits.length = 32) : (u.rotr n).bits.length = 32 := by
  simp only [rotr, List.length_take, List.length_append, List.length_drop, h]
  omega

theorem Known.rotr (h : Known u u') (n : ℕ) : Known (u.rotr n) (u'.rotr n) := by
  obtain ⟨rfl, h1, h2, h3⟩ := h
  exact ⟨rfl, fun b hb => h1 b (rotr_mem hb), by simpa [UInt.rotr] using h2, rotr_length n h3⟩

theorem Weak.rotr (h : Weak V u u') (n : ℕ) : Weak V (u.rotr n) (u'.rotr n) :=
  ⟨forall₂_take (forall₂_append (List.forall₂_drop _ h.1) h.1) 32, rotr_length n h.2⟩

theorem Free.rotr (h : Free V u u') (n : ℕ) : Free V (u.rotr n) (u'.rotr n) :=
  ⟨h.1.rotr n, fun b hb => h.2 b (rotr_mem hb)⟩

theorem Strict.rotr (h : Strict V u u') (n : ℕ) : Strict V (u.rotr n) (u'.rotr n) :=
  h.imp (fun h => h.rotr n) fun h => h.rotr n

theorem shr_length {u : UInt 32} (n : ℕ) : (u.shr n).bits.length = 32 := by
  simp only [shr, List.length_take, List.length_append, List.length_replicate]
  omega

theorem Weak.shr (h : Weak V u u') (n : ℕ) : Weak V (u.shr n) (u'.shr n) :=
  ⟨forall₂_take (forall₂_append (List.forall₂_drop _ h.1) (forall₂_replicate (.constant false) _)) 32,
    shr_length n⟩

theorem Known.shr (h : Known u u') (n : ℕ) : Known (u.shr n) (u'.shr n) := by
  obtain ⟨rfl, h1, h2, h3⟩ := h
  refine ⟨rfl, fun b hb => ?_, by simpa [UInt.shr] using h2, shr_length n⟩
  have := List.mem_of_mem_take hb
  rw [List.mem_append] at this
  rcases this with h | h
  · exact h1 b (List.mem_of_mem_drop h)
  · rw [List.eq_of_mem_replicate h]
    rfl

end rotr

/-! ### Bitwise operations -/

section bitwise
variable {a a' b b' c c' : UInt 32}

/-- Related bits -/
theorem forall₂_zip' {α β γ δ : Type} {A : α → β → Prop} {B : γ → δ → Prop} {as : List α} {as' : List β}
    {bs : List γ} {bs' : List δ} (ha : List.Forall₂ A as as') (hb : List.Forall₂ B bs bs') :
    List.Forall₂ (fun t t' => A t.1 t'.1 ∧ B t.2 t'.2) (as.zip bs) (as'.zip bs') := by
  induction ha generalizing bs bs' with
  | nil => exact .nil
  | cons h _ ih => cases hb with
    | nil => exact .nil
    | cons h' hs => exact .cons ⟨h, h'⟩ (ih hs)

/-- The same constant bit -/
def KnownBit (b b' : Boolean) : Prop := b = b' ∧ b'.isConstant = true

/-- The same bit, which is not constant -/
def FreeBit (V : Var → Prop) (b b' : Boolean) : Prop := Boolean.Twin V b b' ∧ b'.isConstant = false

theorem Known.bits {u u' : UInt k} (h : Known u u') : List.Forall₂ KnownBit u.bits u'.bits := by
  obtain ⟨rfl, h1, -⟩ := h
  exact RescueGadget.forall₂_refl fun b hb => ⟨rfl, h1 b hb⟩

theorem Free.bits {u u' : UInt k} (h : Free V u u') : List.Forall₂ (FreeBit V) u.bits u'.bits :=
  (RescueGadget.forall₂_mem h.1.1).imp fun _ _ hb => ⟨hb.1, h.2 _ hb.2⟩

theorem known_of {bits bits' : List Boolean} (h : List.Forall₂ KnownBit bits bits') (hl : bits'.length = k)
    {v v' : Option (BitVec k)} (hv : v = v') (hs : v'.isSome = true) : Known (⟨bits, v⟩ : UInt k) ⟨bits', v'⟩ := by
  have : bits = bits' ∧ ∀ b ∈ bits', b.isConstant = true := by
    clear hl
    induction h with
    | nil => exact ⟨rfl, by simp⟩
    | cons h _ ih =>
      refine ⟨by rw [h.1, ih.1], fun b hb => ?_⟩
      rw [List.mem_cons] at hb
      rcases hb with rfl | hb
      · exact h.2
      · exact ih.2 b hb
  obtain ⟨rfl, h2⟩ := this
  subst hv
  exact ⟨rfl, h2, hs, hl⟩

theorem free_of {bits bits' : List Boolean} (h : List.Forall₂ (FreeBit V) bits bits') (hl : bits'.length = k)
    (v v' : Option (BitVec k)) : Free V (⟨bits, v⟩ : UInt k) ⟨bits', v'⟩ := by
  refine ⟨⟨h.imp fun _ _ h => h.1, hl⟩, ?_⟩
  clear hl
  induction h with
  | nil => simp
  | cons h _ ih =>
    intro b hb
    rw [List.mem_cons] at hb
    rcases hb with rfl | hb
    · exact h.2
    · exact ih b hb

theorem weak_xor (ha : Weak V a a') (hb : Weak V b b') :
    Circuit.Twin V (xor a b : Prog F (UInt 32)) (xor a' b') (Weak V) := by
  refine (twin_mapProg (forall₂_zip' ha.1 hb.1) (R := Boolean.Twin V)
    fun t t' ht => Twin.mono (fun _ _ h => h.1) (Boolean.twin_xor ht.1 ht.2)).bind fun bits bits' hbits => ?_
  exact Twin.ret ⟨hbits.1, by simp [hbits.2, ha.2, hb.2]⟩

theorem free_xor (ha : Free V a a') (hb : Weak V b b') :
    Circuit.Twin V (xor a b : Prog F (UInt 32)) (xor a' b') (Free V) := by
  refine (twin_mapProg (forall₂_zip' ha.bits hb.1) (R := FreeBit V)
    fun t t' ht => Twin.mono (fun _ _ h => ⟨h.1, h.2 (.inl ht.1.2)⟩) (Boolean.twin_xor ht.1.1 ht.2)).bind
    fun bits bits' hbits => ?_
  exact Twin.ret (free_of hbits.1 (by simp [hbits.2, ha.1.2, hb.2]) _ _)

theorem known_xor (ha : Known a a') (hb : Known b b') :
    Circuit.Twin V (xor a b : Prog F (UInt 32)) (xor a' b') Known := by
  refine (twin_mapProg (forall₂_zip' ha.bits hb.bits) (R := KnownBit) fun t t' ht => ?_).bind
    fun bits bits' hbits => ?_
  · obtain ⟨⟨x, y⟩, ⟨x', y'⟩⟩ := t, t'
    obtain ⟨⟨rfl, h1⟩, ⟨rfl, h2⟩⟩ := ht
    cases x with
    | constant c => cases y with
      | constant d => cases c <;> cases d <;> exact ⟨rfl, rfl⟩
      | _ => simp [Boolean.isConstant] at h2
    | _ => simp [Boolean.isConstant] at h1
  · obtain ⟨rfl, -, h1, h2⟩ := ha
    obtain ⟨rfl, -, h3, h4⟩ := hb
    obtain ⟨x, hx⟩ := Option.isSome_iff_exists.1 h1
    obtain ⟨y, hy⟩ := Option.isSome_iff_exists.1 h3
    exact Twin.ret (known_of hbits.1 (by simp [hbits.2, h2, h4]) rfl (by simp [hx, hy]))

theorem weak_triop {f : BitVec 32 → BitVec 32 → BitVec 32 → BitVec 32}
    {cf : Boolean → Boolean → Boolean → Prog F Boolean}
    (hf : ∀ {a a' b b' c c'}, Boolean.Twin V a a' → Boolean.Twin V b b' → Boolean.Twin V c c' →
      Circuit.Twin V (cf a b c) (cf a' b' c') (Boolean.Twin V))
    (ha : Weak V a a') (hb : Weak V b b') (hc : Weak V c c') :
    Circuit.Twin V (triop f cf a b c) (triop f cf a' b' c') (Weak V) := by
  refine (twin_mapProg (forall₂_zip' (forall₂_zip' ha.1 hb.1) hc.1) (R := Boolean.Twin V)
    fun t t' ht => hf ht.1.1 ht.1.2 ht.2).bind fun bits bits' hbits => ?_
  exact Twin.ret ⟨hbits.1, by simp [hbits.2, ha.2, hb.2, hc.2]⟩

theorem known_triop {f : BitVec 32 → BitVec 32 → BitVec 32 → BitVec 32}
    {cf : Boolean → Boolean → Boolean → Prog F Boolean}
    (hf : ∀ x y z, ∃ r, cf (.constant x) (.constant y) (.constant z) = .pure (.constant r))
    (ha : Known a a') (hb : Known b b') (hc : Known c c') :
    Circuit.Twin V (triop f cf a b c) (triop f cf a' b' c') Known := by
  refine (twin_mapProg (forall₂_zip' (forall₂_zip' ha.bits hb.bits) hc.bits) (R := KnownBit)
    fun t t' ht => ?_).bind fun bits bits' hbits => ?_
  · obtain ⟨⟨⟨x, y⟩, z⟩, ⟨⟨x', y'⟩, z'⟩⟩ := t, t'
    obtain ⟨⟨⟨rfl, h1⟩, ⟨rfl, h2⟩⟩, ⟨rfl, h3⟩⟩ := ht
    cases x with
    | constant c => cases y with
      | constant d => cases z with
        | constant e =>
          obtain ⟨r, hr⟩ := hf c d e
          simp only [hr]
          exact ⟨rfl, rfl⟩
        | _ => simp [Boolean.isConstant] at h3
      | _ => simp [Boolean.isConstant] at h2
    | _ => simp [Boolean.isConstant] at h1
  · obtain ⟨rfl, -, h1, h2⟩ := ha
    obtain ⟨rfl, -, h3, h4⟩ := hb
    obtain ⟨rfl, -, h5, h6⟩ := hc
    obtain ⟨x, hx⟩ := Option.isSome_iff_exists.1 h1
    obtain ⟨y, hy⟩ := Option.isSome_iff_exists.1 h3
    obtain ⟨z, hz⟩ := Option.isSome_iff_exists.1 h5
    exact Twin.ret (known_of hbits.1 (by simp [hbits.2, h2, h4, h6]) rfl (by simp [hx, hy, hz]))

theorem weak_ch (ho : V one) (ha : Weak V a a') (hb : Weak V b b') (hc : Weak V c c') :
    Circuit.Twin V (sha256Ch one a b c : Prog F (UInt 32)) (sha256Ch one a' b' c') (Weak V) :=
  weak_triop (fun h1 h2 h3 => Boolean.twin_ch ho h1 h2 h3) ha hb hc

theorem weak_maj (ho : V one) (ha : Weak V a a') (hb : Weak V b b') (hc : Weak V c c') :
    Circuit.Twin V (sha256Maj one a b c : Prog F (UInt 32)) (sha256Maj one a' b' c') (Weak V) :=
  weak_triop (fun h1 h2 h3 => Boolean.twin_maj ho h1 h2 h3) ha hb hc

theorem known_ch (ha : Known a a') (hb : Known b b') (hc : Known c c') :
    Circuit.Twin V (sha256Ch one a b c : Prog F (UInt 32)) (sha256Ch one a' b' c') Known :=
  known_triop (fun _ _ _ => ⟨_, rfl⟩) ha hb hc

theorem known_maj (ha : Known a a') (hb : Known b b') (hc : Known c c') :
    Circuit.Twin V (sha256Maj one a b c : Prog F (UInt 32)) (sha256Maj one a' b' c') Known :=
  known_triop (fun _ _ _ => ⟨_, rfl⟩) ha hb hc

end bitwise

/-! ### Sums -/

theorem addBits_twin (ho : V one) {bs bs' : List Boolean} (h : List.Forall₂ (Boolean.Twin V) bs bs') {lc : LC F}
    (hl : lc.In V) : addBits one lc bs' = addBits one lc bs ∧ (addBits one lc bs).In V := by
  unfold addBits
  generalize (Coeff.one : Coeff F) = coeff
  induction h generalizing lc coeff with
  | nil => exact ⟨rfl, hl⟩
  | cons h _ ih =>
    simp only [List.foldl_cons]
    rw [h.lc]
    exact ih (LC.in_addLC hl (h.in ho)) _

theorem operands_twin (ho : V one) {us us' : List (UInt 32)} (h : List.Forall₂ (Weak V) us us') {lc : LC F}
    (hl : lc.In V) : us'.foldl (fun lc op => addBits one lc op.bits) lc =
      us.foldl (fun lc op => addBits one lc op.bits) lc ∧
      (us.foldl (fun lc op => addBits one lc op.bits) lc).In V := by
  induction h generalizing lc with
  | nil => exact ⟨rfl, hl⟩
  | cons h _ ih =>
    simp only [List.foldl_cons]
    have := addBits_twin ho h.1 hl
    rw [this.1]
    exact ih this.2

theorem twin_addmanyLoop (rv rv' : Option ℕ) : ∀ (m i : ℕ) (coeff : Coeff F) {bits bits' : List Boolean} {lc : LC F},
    List.Forall₂ (FreeBit V) bits bits' → lc.In V →
    Circuit.Twin V (addmanyLoop rv m i coeff bits lc) (addmanyLoop rv' m i coeff bits' lc) fun r r' =>
      List.Forall₂ (FreeBit V) r.1 r'.1 ∧ r'.1.length = bits'.length + Nat.size m ∧ r.2 = r'.2 ∧ r.2.In V := by
  intro m
  induction m using Nat.strong_induction_on with
  | _ m ih =>
    intro i coeff bits bits' lc hb hl
    rw [addmanyLoop, addmanyLoop]
    split
    · next h0 => subst h0; exact Twin.ret ⟨hb, by simp, rfl, hl⟩
    · next h0 =>
      refine twin_bitAlloc'.bind fun b b' hbb => ?_
      have hv := hbb.1.mem
      have hlt : m >>> 1 < m := by rw [Nat.shiftRight_one]; omega
      have hs : Nat.size m = Nat.size (m >>> 1) + 1 := by
        rw [Nat.shiftRight_one]
        have := Nat.size_bit (b := m.bodd) (n := m.div2) (by rw [Nat.bit_bodd_div2]; exact h0)
        rw [Nat.bit_bodd_div2, Nat.div2_val] at this
        exact this
      rw [hbb.1.var]
      refine Twin.mono ?_ (ih _ hlt (i + 1) coeff.double
        (forall₂_append hb (.cons ⟨.is hbb.1, rfl⟩ .nil)) (LC.in_add hl hv))
      rintro r r' ⟨h1, h2, h3, h4⟩
      refine ⟨h1, ?_, h3, h4⟩
      rw [h2, hs, List.length_append]
      simp
      omega

theorem foldl_addValue_known {us us' : List (UInt 32)} (h : List.Forall₂ Known us us') (n : ℕ) :
    us = us' ∧ (us'.foldl addValue (some n)).isSome = true ∧
      us'.all (fun op => op.bits.all Boolean.isConstant) = true := by
  induction h generalizing n with
  | nil => exact ⟨rfl, rfl, rfl⟩
  | cons h _ ih =>
    obtain ⟨rfl, h1, h2, -⟩ := h
    obtain ⟨x, hx⟩ := Option.isSome_iff_exists.1 h2
    obtain ⟨rfl, i2, i3⟩ := ih (n + x.toNat)
    refine ⟨rfl, ?_, ?_⟩
    · rw [List.foldl_cons, addValue, hx]
      exact i2
    · rw [List.all_cons, i3, Bool.and_true, List.all_eq_true]
      exact h1

theorem known_addmany {us us' : List (UInt 32)} (h : List.Forall₂ Known us us') (h2 : 2 ≤ us'.length)
    (h10 : us'.length ≤ 10) :
    Circuit.Twin V (addmany one us : Prog F (UInt 32)) (addmany one us') Known := by
  obtain ⟨rfl, i2, i3⟩ := foldl_addValue_known h 0
  obtain ⟨n, hn⟩ := Option.isSome_iff_exists.1 i2
  unfold addmany
  rw [if_neg (by omega), i3, hn]
  exact constant_known (by omega) _

theorem all_eq {us us' : List (UInt 32)} (h : List.Forall₂ (Weak V) us us') :
    us.all (fun op => op.bits.all Boolean.isConstant) = us'.all (fun op => op.bits.all Boolean.isConstant) := by
  induction h with
  | nil => rfl
  | cons h _ ih => rw [List.all_cons, List.all_cons, ih, map_isConstant h.1]

theorem free_addmany (ho : V one) {us us' : List (UInt 32)} (h : List.Forall₂ (Weak V) us us') (h2 : 2 ≤ us'.length)
    (h10 : us'.length ≤ 10) (hf : ∃ u ∈ us', ∃ b ∈ u.bits, b.isConstant = false) :
    Circuit.Twin V (addmany one us : Prog F (UInt 32)) (addmany one us') (Free V) := by
  have hl := h.length_eq
  have hc : us'.all (fun op => op.bits.all Boolean.isConstant) = false := by
    obtain ⟨u, hu, b, hb, e⟩ := hf
    rw [List.all_eq_false]
    refine ⟨u, hu, ?_⟩
    rw [List.all_eq_true]
    intro h
    rw [h b hb] at e
    cases e
  obtain ⟨e1, e2⟩ := operands_twin (F := F) ho h LC.in_zero
  unfold addmany
  rw [if_neg (by omega), if_neg (by omega), all_eq h, hc]
  simp only []
  rw [e1, hl]
  refine (twin_addmanyLoop _ _ _ _ _ .nil LC.in_zero).bind fun r r' hr => ?_
  obtain ⟨r1, r2⟩ := r
  obtain ⟨r1', r2'⟩ := r'
  obtain ⟨h3, h4, h5, h6⟩ := hr
  simp only at h3 h4 h5 h6 ⊢
  subst h5
  refine twin_enforce rfl (LC.in_subLC e2 h6) (Twin.ret ?_)
  refine free_of (forall₂_take h3 32) ?_ _ _
  have := (size_max h2 h10).1
  rw [List.length_take, h4]
  simp only [List.length_nil, zero_add]
  omega

/-! ### Other operations -/

theorem fromBits_known {bits bits' : List Boolean} (h : List.Forall₂ KnownBit bits bits') (hl : bits'.length = k) :
    ∃ u u', (fromBits bits : Option (UInt k)) = some u ∧ fromBits bits' = some u' ∧ Known u u' := by
  have hl' := h.length_eq
  refine ⟨_, _, if_pos (by omega), if_pos hl, ?_⟩
  have e : bits = bits' := by
    clear hl hl'
    induction h with
    | nil => rfl
    | cons h _ ih => rw [h.1, ih]
  subst e
  refine known_of h hl rfl ?_
  rcases shiftIn_reverse (k := k) bits with ⟨vs, -, e⟩ | ⟨-, b, hb, e⟩
  · rw [e]; rfl
  · exfalso
    obtain ⟨i, hi, rfl⟩ := List.mem_iff_getElem.1 hb
    have := (h.get hi hi).2
    simp only [List.get_eq_getElem] at this
    generalize bits[i] = b at *
    cases b with
    | constant c => simp [Boolean.getValue] at e
    | _ => simp [Boolean.isConstant] at this

theorem fromBits_free {bits bits' : List Boolean} (h : List.Forall₂ (FreeBit V) bits bits') (hl : bits'.length = k) :
    ∃ u u', (fromBits bits : Option (UInt k)) = some u ∧ fromBits bits' = some u' ∧ Free V u u' :=
  ⟨_, _, if_pos (by rw [h.length_eq]; exact hl), if_pos hl, free_of h hl _ _⟩

theorem fromBits_weak {bits bits' : List Boolean} (h : List.Forall₂ (Boolean.Twin V) bits bits')
    (hl : bits'.length = k) :
    ∃ u u', (fromBits bits : Option (UInt k)) = some u ∧ fromBits bits' = some u' ∧ Weak V u u' :=
  ⟨_, _, if_pos (by rw [h.length_eq]; exact hl), if_pos hl, h, hl⟩

theorem lc_twin (ho : V one) {u u' : UInt 64} (h : Weak V u u') :
    u'.lc one = (u.lc one : LC F) ∧ (u.lc one : LC F).In V := addBits_twin ho h.1 LC.in_zero

end UInt
end Circuit
end Halo
