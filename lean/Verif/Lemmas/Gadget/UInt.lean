import Verif.Lemmas.Gadget.Bits
import Mathlib.Data.Nat.Size
/-!
# The word gadgets are sound and complete
-/
namespace Halo
namespace Circuit
variable {F : Type} [Field F] {w : Var → F} {one : Var} {k : ℕ}

/-! ### Constant bits -/
namespace Boolean
variable {a b c : Boolean} {x y z : Bool}

theorem Means.fits (h : a.Means w x) : a.Fits x := by
  cases a <;> trivial

theorem fits_negate (h : a.Fits x) : a.negate.Fits !x := by
  cases a <;> first | trivial | (simp only [Fits, negate] at *; rw [h])

theorem fits_of_getValue (h : a.getValue = some x) : a.Fits x := by
  cases a
  · trivial
  · trivial
  · simpa [getValue, Fits] using h

theorem eq_of_fits_means (hc : a.isConstant = true) (h1 : a.Fits x) (h2 : a.Means w y) : x = y := by
  cases a
  · simp [isConstant] at hc
  · simp [isConstant] at hc
  · simp only [Fits] at h1; simp only [Means] at h2; rw [← h1, h2]

theorem xor_fits (ha : a.Fits x) (hb : b.Fits y) : Sound w (xor a b) fun r => r.Fits (x ^^ y) := by
  unfold xor
  split
  · simp only [Fits] at ha; subst ha; simpa using hb
  · simp only [Fits] at hb; subst hb; simpa using ha
  · simp only [Fits] at ha; subst ha; simpa using fits_negate hb
  · simp only [Fits] at hb; subst hb; simpa using fits_negate ha
  all_goals exact Sound.bind (Sound.anyway _ (Q := fun _ => True) fun _ => True.intro) fun _ _ => True.intro

theorem and_fits (ha : a.Fits x) (hb : b.Fits y) :
    Sound w (and one a b) fun r => r.Fits (x && y) := by
  unfold and
  split
  · simp only [Fits] at ha; subst ha; simp [Fits]
  · simp only [Fits] at hb; subst hb; simp [Fits]
  · simp only [Fits] at ha; subst ha; simpa using hb
  · simp only [Fits] at hb; subst hb; simpa using ha
  all_goals exact Sound.bind (Sound.anyway _ (Q := fun _ => True) fun _ => True.intro) fun _ _ => True.intro

theorem negate_fits {p : Prog F Boolean} {x y : Bool} (h : Sound w p fun r => r.Fits x) (hxy : (!x) = y) :
    Sound w (do return (← p).negate) fun r => r.Fits y :=
  Sound.bind h fun _ hr => by subst hxy; exact fits_negate hr

theorem chGeneral_fits (v) : Sound w (chGeneral one a b c v) fun r => r.Fits x := by
  unfold chGeneral
  repeat refine Sound.bind (Sound.anyway _ (Q := fun _ => True) fun _ => True.intro) fun _ _ => ?_
  exact True.intro

theorem majGeneral_fits (v) : Sound w (majGeneral one a b c v) fun r => r.Fits x := by
  unfold majGeneral
  repeat refine Sound.bind (Sound.anyway _ (Q := fun _ => True) fun _ => True.intro) fun _ _ => ?_
  exact True.intro

theorem sha256Ch_fits (ha : a.Fits x) (hb : b.Fits y) (hc : c.Fits z) :
    Sound w (sha256Ch one a b c) fun r => r.Fits ((x && y) ^^ (!x && z)) := by
  unfold sha256Ch
  simp only []
  split
  · simp only [Fits] at ha hb hc; subst ha hb hc; simp [getValue, Fits]
  · simp only [Fits] at ha; subst ha; simpa using hc
  · simp only [Fits] at hb; subst hb
    simpa using and_fits (fits_negate ha) hc
  · simp only [Fits] at hc; subst hc
    simpa using and_fits ha hb
  · simp only [Fits] at hc; subst hc
    exact negate_fits (and_fits ha (fits_negate hb)) (by cases x <;> cases y <;> rfl)
  · simp only [Fits] at hb; subst hb
    exact negate_fits (and_fits (fits_negate ha) (fits_negate hc)) (by cases x <;> cases z <;> rfl)
  · exact chGeneral_fits _

theorem sha256Maj_fits (ha : a.Fits x) (hb : b.Fits y) (hc : c.Fits z) :
    Sound w (sha256Maj one a b c) fun r => r.Fits (((x && y) ^^ (x && z)) ^^ (y && z)) := by
  unfold sha256Maj
  simp only []
  split
  · simp only [Fits] at ha hb hc; subst ha hb hc; simp [getValue, Fits]
  · simp only [Fits] at ha; subst ha; simpa using and_fits hb hc
  · simp only [Fits] at hb; subst hb; simpa using and_fits ha hc
  · simp only [Fits] at hc; subst hc; simpa using and_fits ha hb
  · simp only [Fits] at hc; subst hc
    exact negate_fits (and_fits (fits_negate ha) (fits_negate hb)) (by cases x <;> cases y <;> rfl)
  · simp only [Fits] at hb; subst hb
    exact negate_fits (and_fits (fits_negate ha) (fits_negate hc)) (by cases x <;> cases z <;> rfl)
  · simp only [Fits] at ha; subst ha
    exact negate_fits (and_fits (fits_negate hb) (fits_negate hc)) (by cases y <;> cases z <;> rfl)
  · exact majGeneral_fits _

end Boolean

/-! ### Bitwise operations -/

omit [Field F] in
theorem Logic.lift2 (L : Logic F) {B : Boolean → Bool → Prop} {f : Boolean → Boolean → Prog F Boolean}
    {g : Bool → Bool → Bool}
    (h : ∀ {a b x y}, B a x → B b y → L.holds (f a b) fun r => B r (g x y)) {as bs : List Boolean}
    {xs ys : List Bool} (ha : List.Forall₂ B as xs) (hb : List.Forall₂ B bs ys) :
    L.holds (Circuit.mapProg (fun t => f t.1 t.2) (as.zip bs)) fun rs =>
      List.Forall₂ B rs (List.zipWith g xs ys) := by
  induction ha generalizing bs ys with
  | nil => exact L.ret .nil
  | cons hx _ ih =>
    cases hb with
    | nil => exact L.ret .nil
    | cons hy hb => exact L.bind (h hx hy) fun _ hr => L.bind (ih hb) fun _ hrs => L.ret (.cons hr hrs)

omit [Field F] in
theorem Logic.lift3 (L : Logic F) {B : Boolean → Bool → Prop}
    {f : Boolean → Boolean → Boolean → Prog F Boolean} {g : Bool → Bool → Bool → Bool}
    (h : ∀ {a b c x y z}, B a x → B b y → B c z → L.holds (f a b c) fun r => B r (g x y z))
    {as bs cs : List Boolean} {xs ys zs : List Bool} (ha : List.Forall₂ B as xs)
    (hb : List.Forall₂ B bs ys) (hc : List.Forall₂ B cs zs) :
    L.holds (Circuit.mapProg (fun t => f t.1.1 t.1.2 t.2) ((as.zip bs).zip cs)) fun rs =>
      List.Forall₂ B rs (((xs.zip ys).zip zs).map fun t => g t.1.1 t.1.2 t.2) := by
  induction ha generalizing bs ys cs zs with
  | nil => exact L.ret .nil
  | cons hx _ ih =>
    cases hb with
    | nil => exact L.ret .nil
    | cons hy hb =>
      cases hc with
      | nil => exact L.ret .nil
      | cons hz hc =>
        exact L.bind (h hx hy hz) fun _ hr => L.bind (ih hb hc) fun _ hrs => L.ret (.cons hr hrs)

theorem zipWith_bitsOf (g : Bool → Bool → Bool) (x y r : BitVec k)
    (h : ∀ i < k, r.getLsbD i = g (x.getLsbD i) (y.getLsbD i)) :
    List.zipWith g (bitsOf x) (bitsOf y) = bitsOf r := by
  apply List.ext_getElem (by simp)
  intro i h1 h2
  simp only [List.getElem_zipWith, bitsOf_getElem]
  exact (h i (by simpa using h2)).symm

theorem zip_bitsOf (g : Bool → Bool → Bool → Bool) (x y z r : BitVec k)
    (h : ∀ i < k, r.getLsbD i = g (x.getLsbD i) (y.getLsbD i) (z.getLsbD i)) :
    (((bitsOf x).zip (bitsOf y)).zip (bitsOf z)).map (fun t => g t.1.1 t.1.2 t.2) = bitsOf r := by
  apply List.ext_getElem (by simp)
  intro i h1 h2
  simp only [List.getElem_map, List.getElem_zip, bitsOf_getElem]
  exact (h i (by simpa using h2)).symm

theorem rotr_bits (x : BitVec 32) {n : ℕ} (hn : n < 32) :
    ((bitsOf x).drop n ++ bitsOf x).take 32 = bitsOf (x.rotateRight n) := by
  apply List.ext_getElem (by simp)
  intro i h1 h2
  rw [length_bitsOf] at h2
  rw [List.getElem_take, List.getElem_append, bitsOf_getElem, BitVec.getLsbD_rotateRight]
  simp only [Nat.mod_eq_of_lt hn, List.length_drop, length_bitsOf]
  split
  · rename_i h; simp [bitsOf_getElem, h]
  · rename_i h; simp [bitsOf_getElem, h2, h]

theorem shr_bits (x : BitVec 32) {n : ℕ} (hn : n < 32) :
    ((bitsOf x).drop n ++ List.replicate 32 false).take 32 = bitsOf (x >>> n) := by
  apply List.ext_getElem (by simp)
  intro i h1 h2
  rw [length_bitsOf] at h2
  rw [List.getElem_take, List.getElem_append, bitsOf_getElem]
  simp only [List.length_drop, length_bitsOf]
  split
  · simp [bitsOf_getElem]
  · rename_i h
    simp only [List.getElem_replicate, BitVec.getLsbD_ushiftRight]
    exact (BitVec.getLsbD_of_ge x _ (by omega)).symm

theorem forall₂_take {α β : Type} {R : α → β → Prop} {l : List α} {l' : List β}
    (h : List.Forall₂ R l l') (n : ℕ) : List.Forall₂ R (l.take n) (l'.take n) := List.forall₂_take n h

theorem forall₂_append {α β : Type} {R : α → β → Prop} {l m : List α} {l' m' : List β}
    (h : List.Forall₂ R l l') (h' : List.Forall₂ R m m') : List.Forall₂ R (l ++ m) (l' ++ m') :=
  List.rel_append h h'

namespace UInt
variable {a b c : UInt 32} {x y z : BitVec 32}

theorem Honest.means {u : UInt k} {x : BitVec k} (h : u.Honest w x) : u.Means w x :=
  h.1.imp fun _ _ h => h.means

theorem Honest.wf {u : UInt k} {x : BitVec k} (h : u.Honest w x) : u.Wf := by
  intro v hv
  rw [h.2] at hv
  cases hv
  exact h.1.imp fun _ _ h => h.means.fits

theorem Honest.carries {u : UInt k} {x : BitVec k} (h : u.Honest w x) : u.Carries w x :=
  ⟨h.means, h.wf⟩

theorem constant_honest (hk : 0 < k) (x : BitVec k) : (constant x).Honest w x := by
  refine ⟨?_, rfl⟩
  simp only [constant, shiftBits_self hk]
  rw [List.forall₂_map_left_iff, List.forall₂_same]
  intro b _
  cases b <;> simp [Boolean.Honest]

theorem rotr_means (n : ℕ) (h : a.Means w x) : (a.rotr n).Means w (x.rotateRight (n % 32)) := by
  rw [Means, ← rotr_bits x (Nat.mod_lt n (by omega))]
  exact forall₂_take (forall₂_append (List.forall₂_drop _ h) h) 32

theorem rotr_wf (n : ℕ) (h : a.Wf) : (a.rotr n).Wf := by
  intro v hv
  obtain ⟨u, hu, rfl⟩ := Option.map_eq_some_iff.1 hv
  rw [← rotr_bits u (Nat.mod_lt n (by omega))]
  exact forall₂_take (forall₂_append (List.forall₂_drop _ (h u hu)) (h u hu)) 32

theorem rotr_honest (n : ℕ) (h : a.Honest w x) : (a.rotr n).Honest w (x.rotateRight (n % 32)) := by
  refine ⟨?_, by simp [rotr, h.2]⟩
  rw [← rotr_bits x (Nat.mod_lt n (by omega))]
  exact forall₂_take (forall₂_append (List.forall₂_drop _ h.1) h.1) 32

theorem shr_means (n : ℕ) (h : a.Means w x) : (a.shr n).Means w (x >>> (n % 32)) := by
  rw [Means, ← shr_bits x (Nat.mod_lt n (by omega))]
  refine forall₂_take (forall₂_append (List.forall₂_drop _ h) ?_) 32
  exact forall₂_replicate (by simp [Boolean.Means]) 32

theorem shr_wf (n : ℕ) (h : a.Wf) : (a.shr n).Wf := by
  intro v hv
  obtain ⟨u, hu, rfl⟩ := Option.map_eq_some_iff.1 hv
  rw [← shr_bits u (Nat.mod_lt n (by omega))]
  refine forall₂_take (forall₂_append (List.forall₂_drop _ (h u hu)) ?_) 32
  exact forall₂_replicate (by simp [Boolean.Fits]) 32

theorem shr_honest (n : ℕ) (h : a.Honest w x) : (a.shr n).Honest w (x >>> (n % 32)) := by
  refine ⟨?_, by simp [shr, h.2]⟩
  rw [← shr_bits x (Nat.mod_lt n (by omega))]
  refine forall₂_take (forall₂_append (List.forall₂_drop _ h.1) ?_) 32
  exact forall₂_replicate (by simp [Boolean.Honest]) 32

theorem triop_sound {f : BitVec 32 → BitVec 32 → BitVec 32 → BitVec 32}
    {cf : Boolean → Boolean → Boolean → Prog F Boolean} {g : Bool → Bool → Bool → Bool}
    (hf : ∀ x y z i, i < 32 → (f x y z).getLsbD i = g (x.getLsbD i) (y.getLsbD i) (z.getLsbD i))
    (h1 : ∀ {a b c : Boolean} {x y z}, a.Means w x → b.Means w y → c.Means w z →
      Sound w (cf a b c) fun r => r.Means w (g x y z))
    (h2 : ∀ {a b c : Boolean} {x y z}, a.Fits x → b.Fits y → c.Fits z →
      Sound w (cf a b c) fun r => r.Fits (g x y z))
    (ha : a.Carries w x) (hb : b.Carries w y) (hc : c.Carries w z) :
    Sound w (triop f cf a b c) fun r => r.Carries w (f x y z) := by
  refine Sound.and ?_ ?_
  · refine Logic.bind (Logic.sound w)
      ((Logic.sound w).lift3 (B := fun b v => b.Means w v) (fun h h' h'' => h1 h h' h'')
        ha.1 hb.1 hc.1) fun bits hbits => ?_
    rw [zip_bitsOf g x y z _ fun i hi => hf x y z i hi] at hbits
    exact hbits
  · unfold triop
    cases hva : a.value with
    | none => exact Sound.anyway _ (Q := fun _ => True) (fun _ => True.intro) |>.bind
                fun _ _ v hv => by simp at hv
    | some va =>
    cases hvb : b.value with
    | none => exact Sound.anyway _ (Q := fun _ => True) (fun _ => True.intro) |>.bind
                fun _ _ v hv => by simp at hv
    | some vb =>
    cases hvc : c.value with
    | none => exact Sound.anyway _ (Q := fun _ => True) (fun _ => True.intro) |>.bind
                fun _ _ v hv => by simp at hv
    | some vc =>
    refine Logic.bind (Logic.sound w)
      ((Logic.sound w).lift3 (B := Boolean.Fits) (fun h h' h'' => h2 h h' h'')
        (ha.2 _ hva) (hb.2 _ hvb) (hc.2 _ hvc)) fun bits hbits => ?_
    rw [zip_bitsOf g va vb vc _ fun i hi => hf va vb vc i hi] at hbits
    intro v hv
    cases hv
    exact hbits

theorem triop_complete {f : BitVec 32 → BitVec 32 → BitVec 32 → BitVec 32}
    {cf : Boolean → Boolean → Boolean → Prog F Boolean} {g : Bool → Bool → Bool → Bool}
    (hf : ∀ x y z i, i < 32 → (f x y z).getLsbD i = g (x.getLsbD i) (y.getLsbD i) (z.getLsbD i))
    (h1 : ∀ {a b c : Boolean} {x y z}, a.Honest w x → b.Honest w y → c.Honest w z →
      Complete w (cf a b c) fun r => r.Honest w (g x y z))
    (ha : a.Honest w x) (hb : b.Honest w y) (hc : c.Honest w z) :
    Complete w (triop f cf a b c) fun r => r.Honest w (f x y z) := by
  refine Logic.bind (Logic.complete w)
    ((Logic.complete w).lift3 (B := fun b v => b.Honest w v) (fun h h' h'' => h1 h h' h'')
      ha.1 hb.1 hc.1) fun bits hbits => ?_
  rw [zip_bitsOf g x y z _ fun i hi => hf x y z i hi] at hbits
  exact ⟨hbits, by simp [ha.2, hb.2, hc.2]⟩

theorem maj_bit (x y z : BitVec 32) (i : ℕ) (_ : i < 32) :
    (((x &&& y) ^^^ (x &&& z)) ^^^ (y &&& z)).getLsbD i =
      (((x.getLsbD i && y.getLsbD i) ^^ (x.getLsbD i && z.getLsbD i)) ^^
        (y.getLsbD i && z.getLsbD i)) := by simp

theorem ch_bit (x y z : BitVec 32) (i : ℕ) (hi : i < 32) :
    ((x &&& y) ^^^ (~~~x &&& z)).getLsbD i =
      ((x.getLsbD i && y.getLsbD i) ^^ (!x.getLsbD i && z.getLsbD i)) := by simp [hi]

theorem sha256Maj_sound (h1 : w one = 1) (ha : a.Carries w x) (hb : b.Carries w y)
    (hc : c.Carries w z) : Sound w (sha256Maj one a b c) fun r =>
      r.Carries w (((x &&& y) ^^^ (x &&& z)) ^^^ (y &&& z)) :=
  triop_sound (g := fun x y z => ((x && y) ^^ (x && z)) ^^ (y && z)) maj_bit
    (Boolean.sha256Maj_sound h1) Boolean.sha256Maj_fits ha hb hc

theorem sha256Ch_sound (h1 : w one = 1) (ha : a.Carries w x) (hb : b.Carries w y)
    (hc : c.Carries w z) : Sound w (sha256Ch one a b c) fun r =>
      r.Carries w ((x &&& y) ^^^ (~~~x &&& z)) :=
  triop_sound (g := fun x y z => (x && y) ^^ (!x && z)) ch_bit
    (Boolean.sha256Ch_sound h1) Boolean.sha256Ch_fits ha hb hc

theorem sha256Maj_complete (h1 : w one = 1) (ha : a.Honest w x) (hb : b.Honest w y)
    (hc : c.Honest w z) : Complete w (sha256Maj one a b c) fun r =>
      r.Honest w (((x &&& y) ^^^ (x &&& z)) ^^^ (y &&& z)) :=
  triop_complete (g := fun x y z => ((x && y) ^^ (x && z)) ^^ (y && z)) maj_bit
    (Boolean.sha256Maj_complete h1) ha hb hc

theorem sha256Ch_complete (h1 : w one = 1) (ha : a.Honest w x) (hb : b.Honest w y)
    (hc : c.Honest w z) : Complete w (sha256Ch one a b c) fun r =>
      r.Honest w ((x &&& y) ^^^ (~~~x &&& z)) :=
  triop_complete (g := fun x y z => (x && y) ^^ (!x && z)) ch_bit
    (Boolean.sha256Ch_complete h1) ha hb hc

theorem xor_sound (ha : a.Carries w x) (hb : b.Carries w y) :
    Sound w (xor a b) fun r => r.Carries w (x ^^^ y) := by
  refine Sound.and ?_ ?_
  · refine Logic.bind (Logic.sound w)
      ((Logic.sound w).lift2 (B := fun b v => b.Means w v) (fun h h' => Boolean.xor_sound h h')
        ha.1 hb.1) fun bits hbits => ?_
    rw [zipWith_bitsOf _ x y (x ^^^ y) fun i _ => by simp] at hbits
    exact hbits
  · unfold xor
    cases hva : a.value with
    | none => exact Sound.anyway _ (Q := fun _ => True) (fun _ => True.intro) |>.bind
                fun _ _ v hv => by simp at hv
    | some va =>
    cases hvb : b.value with
    | none => exact Sound.anyway _ (Q := fun _ => True) (fun _ => True.intro) |>.bind
                fun _ _ v hv => by simp at hv
    | some vb =>
    refine Logic.bind (Logic.sound w)
      ((Logic.sound w).lift2 (B := Boolean.Fits) (fun h h' => Boolean.xor_fits h h')
        (ha.2 _ hva) (hb.2 _ hvb)) fun bits hbits => ?_
    rw [zipWith_bitsOf _ va vb (va ^^^ vb) fun i _ => by simp] at hbits
    intro v hv
    cases hv
    exact hbits

theorem xor_complete (ha : a.Honest w x) (hb : b.Honest w y) :
    Complete w (xor a b) fun r => r.Honest w (x ^^^ y) := by
  refine Logic.bind (Logic.complete w)
    ((Logic.complete w).lift2 (B := fun b v => b.Honest w v) (fun h h' => Boolean.xor_complete h h')
      ha.1 hb.1) fun bits hbits => ?_
  rw [zipWith_bitsOf _ x y (x ^^^ y) fun i _ => by simp] at hbits
  exact ⟨hbits, by simp [ha.2, hb.2]⟩

/-! ### Words from and to bits -/

omit [Field F] in
theorem shiftIn_cons (b : Boolean) (bits : List Boolean) :
    (shiftIn (bits ++ [b]) : Option (BitVec k)) =
      (shiftIn bits).bind fun v : BitVec k => b.getValue.map fun bit =>
        if bit then v <<< 1 ||| 1#k else v <<< 1 := by
  rw [shiftIn, List.foldl_append]
  simp only [List.foldl_cons, List.foldl_nil]
  rw [← shiftIn]
  cases (shiftIn bits : Option (BitVec k)) <;> rcases b.getValue with - | - | - <;> rfl

theorem shift_or (n : ℕ) (b : Bool) :
    (if b then (BitVec.ofNat k n) <<< 1 ||| 1#k else (BitVec.ofNat k n) <<< 1) =
      BitVec.ofNat k (b.toNat + 2 * n) := by
  apply BitVec.eq_of_getLsbD_eq
  intro i hi
  cases b
  · simp only [Bool.false_eq_true, ite_false, BitVec.getLsbD_shiftLeft, BitVec.getLsbD_ofNat, hi,
      decide_true, Bool.true_and, Bool.toNat_false, zero_add]
    cases i with
    | zero => simp [Nat.testBit_zero]
    | succ i => simp [Nat.testBit_succ]; omega
  · simp only [ite_true, BitVec.getLsbD_or, BitVec.getLsbD_shiftLeft, BitVec.getLsbD_ofNat, hi,
      decide_true, Bool.true_and, Bool.toNat_true]
    cases i with
    | zero => simp [Nat.testBit_zero]
    | succ i =>
      rw [Nat.testBit_succ (1 + 2 * n), show (1 + 2 * n) / 2 = n by omega]
      simp [Nat.testBit_succ]; omega

/-- The value is computed from the bits. -/
theorem shiftIn_reverse (bits : List Boolean) :
    (∃ vs, List.Forall₂ (fun b v => b.getValue = some v) bits vs ∧
      (shiftIn bits.reverse : Option (BitVec k)) = some (BitVec.ofNat k (bitsValue vs))) ∨
    ((shiftIn bits.reverse : Option (BitVec k)) = none ∧ ∃ b ∈ bits, b.getValue = none) := by
  induction bits with
  | nil => exact .inl ⟨[], .nil, rfl⟩
  | cons b bits ih =>
    rw [List.reverse_cons, shiftIn_cons]
    rcases ih with ⟨vs, hvs, h⟩ | ⟨h, hb⟩
    · rw [h, Option.bind_some]
      cases hb : b.getValue with
      | none => exact .inr ⟨rfl, b, by simp, hb⟩
      | some v => exact .inl ⟨v :: vs, .cons hb hvs, by rw [Option.map_some, shift_or, bitsValue]⟩
    · obtain ⟨b', hb', hv⟩ := hb
      exact .inr ⟨by rw [h]; rfl, b', by simp [hb'], hv⟩

theorem forall₂_unique {α : Type} {l : List Boolean} {R : Boolean → α → Prop} {xs ys : List α}
    (hR : ∀ b x y, R b x → R b y → x = y) (h : List.Forall₂ R l xs) (h' : List.Forall₂ R l ys) :
    xs = ys := by
  induction h generalizing ys with
  | nil => cases h'; rfl
  | cons h _ ih => cases h' with
    | cons h' hs => rw [hR _ _ _ h h', ih hs]

theorem wf_ofBits {bits : List Boolean} (hl : bits.length = k) :
    (⟨bits, shiftIn bits.reverse⟩ : UInt k).Wf := by
  intro v hv
  rcases shiftIn_reverse (k := k) bits with ⟨vs, hvs, h⟩ | ⟨h, -⟩
  · rw [h] at hv
    cases hv
    have hlen := hvs.length_eq
    have : vs = bitsOf (BitVec.ofNat k (bitsValue vs)) := by
      have := eq_bitsOf_ofNat vs
      rw [← hlen, hl] at this
      exact this
    rw [← this]
    exact hvs.imp fun _ _ h => Boolean.fits_of_getValue h
  · rw [h] at hv; cases hv

theorem fromBits_carries {bits : List Boolean} {x : BitVec k}
    (h : List.Forall₂ (fun b v => b.Means w v) bits (bitsOf x)) :
    ∃ u, fromBits bits = some u ∧ u.Carries w x := by
  have hl : bits.length = k := by rw [h.length_eq, length_bitsOf]
  exact ⟨_, if_pos hl, h, wf_ofBits hl⟩

theorem fromBits_honest {bits : List Boolean} {x : BitVec k}
    (h : List.Forall₂ (fun b v => b.Honest w v) bits (bitsOf x)) :
    ∃ u, fromBits bits = some u ∧ u.Honest w x := by
  have hl : bits.length = k := by rw [h.length_eq, length_bitsOf]
  refine ⟨_, if_pos hl, h, ?_⟩
  have hg : List.Forall₂ (fun b v => b.getValue = some v) bits (bitsOf x) :=
    h.imp fun _ _ h => h.getValue
  rcases shiftIn_reverse (k := k) bits with ⟨vs, hvs, hs⟩ | ⟨-, b, hb, hn⟩
  · have : vs = bitsOf x := forall₂_unique (fun b x y h1 h2 => by
      rw [h1] at h2; exact Option.some.inj h2) hvs hg
    simp [hs, this]
  · exfalso
    obtain ⟨i, hi, rfl⟩ := List.getElem_of_mem hb
    have := hg.get hi (by simpa [hl] using hi)
    simp only [List.get_eq_getElem] at this
    rw [hn] at this
    cases this

theorem fromBitsBe_eq (bits : List Boolean) :
    (fromBitsBe bits : Option (UInt k)) = fromBits bits.reverse := by
  simp [fromBitsBe, fromBits]

theorem fromBitsBe_carries {bits : List Boolean} {x : BitVec k}
    (h : List.Forall₂ (fun b v => b.Means w v) bits (bitsOf x).reverse) :
    ∃ u, fromBitsBe bits = some u ∧ u.Carries w x := by
  rw [fromBitsBe_eq]
  exact fromBits_carries (by rw [← List.reverse_reverse (bitsOf x)]; exact List.rel_reverse h)

theorem fromBitsBe_honest {bits : List Boolean} {x : BitVec k}
    (h : List.Forall₂ (fun b v => b.Honest w v) bits (bitsOf x).reverse) :
    ∃ u, fromBitsBe bits = some u ∧ u.Honest w x := by
  rw [fromBitsBe_eq]
  exact fromBits_honest (by rw [← List.reverse_reverse (bitsOf x)]; exact List.rel_reverse h)

/-- `from_bits` fails only on lists of the wrong length. -/
theorem fromBits_none {bits : List Boolean} (h : bits.length ≠ k) :
    (fromBits bits : Option (UInt k)) = none := if_neg h

/-! ### Allocation -/

theorem allocBooleans_sound (values : List (Option Bool)) :
    Sound w (mapProg (fun v => do return Boolean.is (← AllocatedBit.alloc (orMissing v))) values)
      fun bits => ∃ vs : List Bool, List.Forall₂ (fun b v => b.Means w v) bits vs ∧
        vs.length = values.length ∧ ∀ b ∈ bits, b.isConstant = false := by
  refine Logic.mono (Logic.sound w) ((Logic.sound w).mapProg
    (f := fun v => do return Boolean.is (← AllocatedBit.alloc (orMissing v)))
    (P := fun (_ : Option Bool) (b : Boolean) => (∃ v, b.Means w v) ∧ b.isConstant = false)
    (xs := values) fun x _ => Sound.bind (AllocatedBit.alloc_sound _) fun b hb => ⟨hb, rfl⟩)
    fun bits h => ?_
  induction h with
  | nil => exact ⟨[], .nil, rfl, by simp⟩
  | cons hb _ ih =>
    obtain ⟨⟨v, hv⟩, hc⟩ := hb
    obtain ⟨vs, hvs, hl, hcs⟩ := ih
    exact ⟨v :: vs, .cons hv hvs, by simp [hl], by simpa using ⟨hc, hcs⟩⟩

theorem allocBooleans_complete (vs : List Bool) :
    Complete w (mapProg (fun v => do return Boolean.is (← AllocatedBit.alloc (orMissing v)))
      (vs.map some)) fun bits => List.Forall₂ (fun b v => b.Honest w v) bits vs := by
  refine Logic.mono (Logic.complete w) ((Logic.complete w).mapProg
    (f := fun v => do return Boolean.is (← AllocatedBit.alloc (orMissing v)))
    (P := fun (v : Option Bool) (b : Boolean) => ∀ x, v = some x → b.Honest w x)
    (xs := vs.map some) fun x hx => ?_) fun bits h => ?_
  · obtain ⟨v, -, rfl⟩ := List.mem_map.1 hx
    exact Complete.bind (AllocatedBit.alloc_complete v) fun b hb x hx => by cases hx; exact hb
  · rw [List.forall₂_map_left_iff] at h
    exact h.flip.imp fun _ _ h => h _ rfl

theorem wf_of_not_constant {u : UInt k} (h : ∀ b ∈ u.bits, b.isConstant = false)
    (hl : u.bits.length = k) : u.Wf := by
  intro v _
  rw [List.forall₂_iff_get]
  refine ⟨by simp [hl], fun i h1 h2 => ?_⟩
  have := h _ (List.get_mem u.bits ⟨i, h1⟩)
  generalize u.bits.get ⟨i, h1⟩ = b at *
  cases b
  · trivial
  · trivial
  · simp [Boolean.isConstant] at this

theorem alloc_sound (hk : 0 < k) (value : Option (BitVec k)) :
    Sound w (alloc value) fun u => ∃ x, u.Carries w x := by
  refine Sound.bind (allocBooleans_sound _) fun bits ⟨vs, hvs, hl, hc⟩ => ?_
  have hl' : vs.length = k := by
    rw [hl]; cases value <;> simp [shiftBits_self hk]
  refine ⟨BitVec.ofNat k (bitsValue vs), ?_, wf_of_not_constant hc (hvs.length_eq.trans hl')⟩
  have := eq_bitsOf_ofNat vs
  rw [hl'] at this
  rw [Means, ← this]
  exact hvs

theorem alloc_complete (hk : 0 < k) (x : BitVec k) :
    Complete w (alloc (some x)) fun u => u.Honest w x := by
  refine Complete.bind (allocBooleans_complete _) fun bits h => ⟨?_, rfl⟩
  rwa [shiftBits_self hk] at h

end UInt
end Circuit
end Halo
