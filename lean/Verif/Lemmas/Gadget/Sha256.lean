import Verif.Lemmas.Sha256
import Verif.Lemmas.Gadget.UIntArith
/-!
# The SHA-256 gadget computes SHA-256
-/
namespace Halo
namespace Circuit
variable {F : Type} [Field F] {w : Var → F} {one : Var} {k : ℕ}

/-- A logic in which words are known bit by bit -/
structure WordLogic (F : Type) [Field F] (one : Var) extends Logic F where
  B : Boolean → Bool → Prop
  R : UInt 32 → BitVec 32 → Prop
  constB : ∀ b, B (.constant b) b
  constR : ∀ x, R (.constant x) x
  rotr : ∀ {u x} n, R u x → R (u.rotr n) (x.rotateRight (n % 32))
  shr : ∀ {u x} n, R u x → R (u.shr n) (x >>> (n % 32))
  xor : ∀ {u v x y}, R u x → R v y → holds (UInt.xor u v) fun r => R r (x ^^^ y)
  ch : ∀ {u v t x y z}, R u x → R v y → R t z →
    holds (UInt.sha256Ch one u v t) fun r => R r (Fips180.ch x y z)
  maj : ∀ {u v t x y z}, R u x → R v y → R t z →
    holds (UInt.sha256Maj one u v t) fun r => R r (Fips180.maj x y z)
  addmany : ∀ {us : List (UInt 32)} {xs : List (BitVec 32)}, List.Forall₂ R us xs →
    2 ≤ us.length → us.length ≤ 10 → holds (UInt.addmany one us) fun r => R r xs.sum
  fromBits : ∀ {bits : List Boolean} {x : BitVec 32}, List.Forall₂ B bits (bitsOf x).reverse →
    ∃ u, UInt.fromBitsBe bits = some u ∧ R u x
  toBits : ∀ {u : UInt 32} {x}, R u x → List.Forall₂ B u.intoBitsBe (bitsOf x).reverse

theorem ofNat_sum (xs : List (BitVec 32)) : BitVec.ofNat 32 (xs.map BitVec.toNat).sum = xs.sum := by
  induction xs with
  | nil => rfl
  | cons x xs ih => rw [List.map_cons, List.sum_cons, List.sum_cons, BitVec.ofNat_add, ih]; simp

def WordLogic.sound [LawfulField F] (h1 : w one = 1) : WordLogic F one where
  toLogic := Logic.sound w
  B b v := b.Means w v
  R u x := u.Carries w x
  constB _ := rfl
  constR x := (UInt.constant_honest (by omega) x).carries
  rotr n h := ⟨UInt.rotr_means n h.1, UInt.rotr_wf n h.2⟩
  shr n h := ⟨UInt.shr_means n h.1, UInt.shr_wf n h.2⟩
  xor h h' := UInt.xor_sound h h'
  ch h h' h'' := UInt.sha256Ch_sound h1 h h' h''
  maj h h' h'' := UInt.sha256Maj_sound h1 h h' h''
  addmany h _ _ := by rw [← ofNat_sum]; exact UInt.addmany_sound h1 h
  fromBits h := UInt.fromBitsBe_carries h
  toBits h := List.rel_reverse h.1

def WordLogic.complete [LawfulField F] (h1 : w one = 1) : WordLogic F one where
  toLogic := Logic.complete w
  B b v := b.Honest w v
  R u x := u.Honest w x
  constB _ := rfl
  constR x := UInt.constant_honest (by omega) x
  rotr n h := UInt.rotr_honest n h
  shr n h := UInt.shr_honest n h
  xor h h' := UInt.xor_complete h h'
  ch h h' h'' := UInt.sha256Ch_complete h1 h h' h''
  maj h h' h'' := UInt.sha256Maj_complete h1 h h' h''
  addmany h h2 h10 := by rw [← ofNat_sum]; exact UInt.addmany_complete h1 h h2 h10
  fromBits h := UInt.fromBitsBe_honest h
  toBits h := List.rel_reverse h.1

namespace Sha256
open Fips180 (Vars)
set_option maxRecDepth 100000

theorem constants_eq : Fips180.constants = roundConstants := by decide +kernel
theorem initial_eq : Fips180.initial = iv := by decide +kernel
theorem start_eq : Fips180.start.toList = iv := by decide +kernel

variable (W : WordLogic F one)

theorem holds_index {α β : Type} {l : List α} {xs : List β} {R : α → β → Prop} {i : ℕ} {d : β}
    (h : List.Forall₂ R l xs) (hi : i < l.length) :
    W.holds (index l i) fun a => R a (xs.getD i d) := by
  have h' := h.length_eq
  refine W.orPanic (a := l[i]) (by simp [hi]) ?_
  have := h.get hi (by omega)
  simpa [List.getD, show i < xs.length by omega] using this

theorem holds_extend {us : List (UInt 32)} {xs : List (BitVec 32)} {i : ℕ}
    (h : List.Forall₂ W.R us xs) (hi : us.length = i) (h16 : 16 ≤ i) :
    W.holds (extend one us i) fun r => List.Forall₂ W.R r
      (xs ++ [Fips180.sigma1 (xs.getD (xs.length - 2) 0) + xs.getD (xs.length - 7) 0 +
        Fips180.sigma0 (xs.getD (xs.length - 15) 0) + xs.getD (xs.length - 16) 0]) := by
  have hl : xs.length = i := by rw [← h.length_eq, hi]
  rw [hl]
  refine W.bind (holds_index W (d := 0) h (by omega)) fun w15 h15 => ?_
  refine W.bind (W.xor (W.rotr 7 h15) (W.rotr 18 h15)) fun a ha => ?_
  refine W.bind (W.xor ha (W.shr 3 h15)) fun s0 hs0 => ?_
  refine W.bind (holds_index W (d := 0) h (by omega)) fun w2 h2 => ?_
  refine W.bind (W.xor (W.rotr 17 h2) (W.rotr 19 h2)) fun b hb => ?_
  refine W.bind (W.xor hb (W.shr 10 h2)) fun s1 hs1 => ?_
  refine W.bind (holds_index W (d := 0) h (by omega)) fun w16 h16 => ?_
  refine W.bind (holds_index W (d := 0) h (by omega)) fun w7 h7 => ?_
  refine W.bind (W.addmany (.cons h16 (.cons hs0 (.cons h7 (.cons hs1 .nil)))) (by simp) (by simp))
    fun t ht => W.ret ?_
  refine forall₂_append h (.cons ?_ .nil)
  convert ht using 1
  simp only [List.sum_cons, List.sum_nil, Fips180.sigma0, Fips180.sigma1]
  ring

theorem length_schedule (m : List (BitVec 32)) (t : ℕ) :
    (Fips180.schedule m t).length = m.length + t := by
  induction t with
  | zero => rfl
  | succ t ih => rw [Fips180.schedule]; simp [ih]; omega

theorem holds_schedule {us : List (UInt 32)} {xs : List (BitVec 32)} (h : List.Forall₂ W.R us xs)
    (hl : us.length = 16) :
    W.holds (foldProg (extend one) ((List.range 48).map (· + 16)) us) fun r =>
      List.Forall₂ W.R r (Fips180.schedule xs 48) := by
  have hx : xs.length = 16 := by rw [← h.length_eq, hl]
  have := W.foldProg (f := extend one) (xs := (List.range 48).map (· + 16)) (s := us)
    (fun t r => List.Forall₂ W.R r (Fips180.schedule xs t)) 0 h fun i x s hi hs => by
      simp only [List.getElem?_map, Option.map_eq_some_iff, List.getElem?_eq_some_iff,
        List.getElem_range, List.length_range] at hi
      obtain ⟨a, ⟨ha, rfl⟩, rfl⟩ := hi
      rw [zero_add] at hs ⊢
      have hlen := hs.length_eq
      rw [length_schedule] at hlen
      exact holds_extend W hs (by omega) (by omega)
  simpa using this

/-- What a postponed sum stands for -/
def Maybe.Rel (m : Maybe) (x : BitVec 32) : Prop :=
  match m with
  | .concrete u => W.R u x
  | .deferred us => ∃ ys : List (BitVec 32), List.Forall₂ W.R us ys ∧ ys.sum = x ∧ 2 ≤ us.length ∧
      us.length ≤ 9

def Maybe.isDeferred : Maybe → Prop
  | .concrete _ => False
  | .deferred _ => True

theorem holds_compute {m : Maybe} {x : BitVec 32} (h : m.Rel W x) :
    W.holds (m.compute one []) fun r => W.R r x := by
  cases m with
  | concrete u => exact W.ret h
  | deferred us =>
    obtain ⟨ys, h1, rfl, h2, h3⟩ := h
    refine W.addmany ?_ ?_ ?_ <;> simp only [List.append_nil]
    · exact h1
    · exact h2
    · omega

theorem holds_compute_add {m : Maybe} {x y : BitVec 32} {u : UInt 32} (h : m.Rel W x)
    (hd : m.isDeferred) (hu : W.R u y) : W.holds (m.compute one [u]) fun r => W.R r (x + y) := by
  cases m with
  | concrete u => exact hd.elim
  | deferred us =>
    obtain ⟨ys, h1, rfl, h2, h3⟩ := h
    have : ys.sum + y = (ys ++ [y]).sum := by simp
    rw [this]
    refine W.addmany (forall₂_append h1 (.cons hu .nil)) ?_ ?_ <;> simp <;> omega

structure Work.Rel (s : Work) (v : Vars) : Prop where
  a : s.a.Rel W v.a
  b : W.R s.b v.b
  c : W.R s.c v.c
  d : W.R s.d v.d
  e : s.e.Rel W v.e
  f : W.R s.f v.f
  g : W.R s.g v.g
  h : W.R s.h v.h

theorem holds_round {us : List (UInt 32)} {xs : List (BitVec 32)} (hw : List.Forall₂ W.R us xs)
    {s : Work} {v : Vars} (h : s.Rel W v) {i : ℕ} (hi : i < 64) (hl : us.length = 64) :
    W.holds (round one us s i) fun r =>
      r.Rel W (Fips180.step v (Fips180.constants.getD i 0) (xs.getD i 0)) ∧ r.a.isDeferred ∧
        r.e.isDeferred := by
  refine W.bind (holds_compute W h.e) fun e he => ?_
  refine W.bind (W.xor (W.rotr 6 he) (W.rotr 11 he)) fun a1 ha1 => ?_
  refine W.bind (W.xor ha1 (W.rotr 25 he)) fun s1 hs1 => ?_
  refine W.bind (W.ch he h.f h.g) fun ch hch => ?_
  have hc : W.holds (index roundConstants i) fun k => k = Fips180.constants.getD i 0 := by
    rw [constants_eq]
    refine W.orPanic (a := roundConstants.getD i 0) ?_ rfl
    rw [List.getD, List.getElem?_eq_getElem (by simpa [roundConstants] using hi), Option.getD_some]
  refine W.bind hc fun ki hki => ?_
  refine W.bind (holds_index W (d := 0) hw (by omega)) fun wi hwi => ?_
  refine W.bind (holds_compute W h.a) fun a ha => ?_
  refine W.bind (W.xor (W.rotr 2 ha) (W.rotr 13 ha)) fun a0 ha0 => ?_
  refine W.bind (W.xor ha0 (W.rotr 22 ha)) fun s0 hs0 => ?_
  refine W.bind (W.maj ha h.b h.c) fun mj hmj => W.ret ?_
  subst hki
  refine ⟨⟨⟨_, .cons h.h (.cons hs1 (.cons hch (.cons (W.constR _) (.cons hwi (.cons hs0
      (.cons hmj .nil)))))), ?_, by simp, by simp⟩, ha, h.b, h.c,
    ⟨_, .cons h.h (.cons hs1 (.cons hch (.cons (W.constR _) (.cons hwi (.cons h.d .nil))))), ?_,
      by simp, by simp⟩, he, h.f, h.g⟩, trivial, trivial⟩
  · simp only [List.sum_cons, List.sum_nil, Fips180.step, Fips180.bigSigma0, Fips180.bigSigma1]
    ring
  · simp only [List.sum_cons, List.sum_nil, Fips180.step, Fips180.bigSigma1]
    ring

theorem holds_rounds {us : List (UInt 32)} {xs : List (BitVec 32)} (hw : List.Forall₂ W.R us xs)
    {s : Work} {v : Vars} (h : s.Rel W v) (hl : us.length = 64) :
    W.holds (foldProg (round one us) (List.range 64) s) fun r =>
      r.Rel W (Fips180.rounds xs v 64) ∧ r.a.isDeferred ∧ r.e.isDeferred := by
  have := W.foldProg (f := round one us) (xs := List.range 64) (s := s)
    (fun t r => r.Rel W (Fips180.rounds xs v t) ∧ (0 < t → r.a.isDeferred ∧ r.e.isDeferred)) 0
    ⟨h, fun h => absurd h (lt_irrefl 0)⟩ fun i x s hi hs => by
      simp only [List.getElem?_eq_some_iff, List.getElem_range, List.length_range] at hi
      obtain ⟨ha, rfl⟩ := hi
      rw [zero_add] at hs ⊢
      exact W.mono (holds_round W hw hs.1 ha hl) fun r hr => ⟨hr.1, fun _ => hr.2⟩
  rw [zero_add, List.length_range] at this
  exact W.mono this fun r hr => ⟨hr.1, hr.2 (by omega)⟩

/-! ### Chunks -/

theorem chunks_eq {α : Type} {n : ℕ} (hn : 0 < n) (m : ℕ) : ∀ l : List α, l.length = n * m →
    chunks n l = (List.range m).map fun i => (l.drop (n * i)).take n := by
  induction m with
  | zero =>
    intro l hl
    rw [mul_zero, List.length_eq_zero_iff] at hl
    rw [chunks]; simp [hl]
  | succ m ih =>
    intro l hl
    have hl' : l.length = n * m + n := by rw [hl]; ring
    rw [chunks, dif_neg (by
      rintro (h | h)
      · omega
      · rw [h] at hl'; simp at hl'; omega),
      ih (l.drop n) (by rw [List.length_drop]; omega), List.range_succ_eq_map, List.map_cons,
      List.map_map]
    congr 1
    apply List.map_congr_left
    intro i _
    simp only [Function.comp, List.drop_drop]
    congr 2
    rw [Nat.succ_eq_add_one]; ring

theorem chunks_eq_pieces {α : Type} {n : ℕ} (hn : 0 < n) {l : List α} (h : l.length % n = 0) :
    chunks n l = Fips180.pieces n l := by
  rw [Fips180.pieces]
  exact chunks_eq hn _ l (by rw [Nat.mul_div_cancel' (Nat.dvd_of_mod_eq_zero h)])

theorem forall₂_pieces {α β : Type} {R : α → β → Prop} {l : List α} {l' : List β}
    (h : List.Forall₂ R l l') (n : ℕ) :
    List.Forall₂ (List.Forall₂ R) (Fips180.pieces n l) (Fips180.pieces n l') := by
  rw [Fips180.pieces, Fips180.pieces, h.length_eq, List.forall₂_map_left_iff,
    List.forall₂_map_right_iff, List.forall₂_same]
  exact fun i _ => forall₂_take (List.forall₂_drop _ h) n

theorem length_of_mem_pieces {α : Type} {n : ℕ} {l p : List α} (h : p ∈ Fips180.pieces n l) :
    p.length = n := by
  rw [Fips180.pieces, List.mem_map] at h
  obtain ⟨i, hi, rfl⟩ := h
  rw [List.mem_range] at hi
  have h1 : n * (i + 1) ≤ n * (l.length / n) := Nat.mul_le_mul_left n hi
  have h2 := Nat.mul_div_le l.length n
  rw [List.length_take, List.length_drop]
  rw [mul_add, mul_one] at h1
  omega

theorem number_eq (l : List Bool) : Fips180.number l = bitsValue l.reverse := by
  have : ∀ (l : List Bool) (n : ℕ), l.foldl (fun n b => 2 * n + b.toNat) n =
      bitsValue l.reverse + 2 ^ l.length * n := by
    intro l
    induction l with
    | nil => simp [bitsValue]
    | cons b l ih =>
      intro n
      rw [List.foldl_cons, ih, List.reverse_cons, bitsValue_append, List.length_reverse,
        List.length_cons, bitsValue, bitsValue]
      ring
  rw [Fips180.number, this]; simp

theorem bits_eq (x : BitVec k) : Fips180.bits x = (bitsOf x).reverse := by
  rw [Fips180.bits, bitsOf, List.map_reverse]

theorem eq_number_bits {l : List Bool} (h : l.length = 32) :
    l = (bitsOf (BitVec.ofNat 32 (Fips180.number l))).reverse := by
  rw [number_eq]
  have := eq_bitsOf_ofNat l.reverse
  rw [List.length_reverse, h] at this
  rw [← this, List.reverse_reverse]

/-! ### The compression function -/

theorem holds_words {input : List Boolean} {block : List Bool} (h : List.Forall₂ W.B input block)
    (hl : block.length = 512) :
    W.holds (mapProg (fun e => orPanic (UInt.fromBitsBe e)) (chunks 32 input)) fun us =>
      List.Forall₂ W.R us (Fips180.words block) := by
  have hl' : input.length = 512 := by rw [h.length_eq, hl]
  rw [chunks_eq_pieces (by omega) (by omega), Fips180.words]
  have hp := forall₂_pieces h 32
  have hlen : ∀ p ∈ Fips180.pieces 32 block, p.length = 32 := fun p => length_of_mem_pieces
  generalize Fips180.pieces 32 input = ps at *
  generalize Fips180.pieces 32 block = qs at *
  clear h hl hl'
  induction hp with
  | nil => exact W.ret .nil
  | @cons p q ps qs h _ ih =>
    have hq := eq_number_bits (hlen q (by simp))
    rw [hq] at h
    obtain ⟨u, hu, hr⟩ := W.fromBits h
    exact W.bind (W.orPanic hu hr) fun u hu =>
      W.bind (ih fun p hp => hlen p (by simp [hp])) fun us hus => W.ret (.cons hu hus)

theorem holds_compress {input : List Boolean} {block : List Bool} (h : List.Forall₂ W.B input block)
    (hl : block.length = 512) {cur : List (UInt 32)} {v : Vars}
    (hc : List.Forall₂ W.R cur v.toList) :
    W.holds (compress one input cur) fun r =>
      List.Forall₂ W.R r (Fips180.compress v (Fips180.words block)).toList := by
  have hl' : input.length = 512 := by rw [h.length_eq, hl]
  rw [compress, if_neg (by rw [hc.length_eq, hl']; simp [Vars.toList])]
  refine W.bind (holds_words W h hl) fun us hus => ?_
  have hlw : (Fips180.words block).length = 16 := by
    rw [Fips180.words, Fips180.pieces]; simp [hl]
  refine W.bind (holds_schedule W hus (hus.length_eq.trans hlw)) fun ws hws => ?_
  have hlws : ws.length = 64 := by rw [hws.length_eq, length_schedule, hlw]
  rw [if_neg (by omega)]
  rw [Vars.toList] at hc
  rcases hc with - | ⟨h0, hc⟩
  rcases hc with - | ⟨h1, hc⟩
  rcases hc with - | ⟨h2, hc⟩
  rcases hc with - | ⟨h3, hc⟩
  rcases hc with - | ⟨h4, hc⟩
  rcases hc with - | ⟨h5, hc⟩
  rcases hc with - | ⟨h6, hc⟩
  rcases hc with - | ⟨h7, hc⟩
  cases hc
  have add : ∀ {u u' : UInt 32} {x x' : BitVec 32}, W.R u x → W.R u' x' →
      W.holds (UInt.addmany one [u, u']) fun r => W.R r (x' + x) := fun hx hx' =>
    W.mono (W.addmany (.cons hx (.cons hx' .nil)) (by simp) (by simp)) fun r hr => by
      simpa [add_comm] using hr
  refine W.bind (holds_rounds W hws (v := v) ⟨h0, h1, h2, h3, h4, h5, h6, h7⟩ hlws)
    fun s ⟨hs, hda, hde⟩ => ?_
  refine W.bind (holds_compute_add W hs.a hda h0) fun r0 e0 => ?_
  refine W.bind (add h1 hs.b) fun r1 e1 => ?_
  refine W.bind (add h2 hs.c) fun r2 e2 => ?_
  refine W.bind (add h3 hs.d) fun r3 e3 => ?_
  refine W.bind (holds_compute_add W hs.e hde h4) fun r4 e4 => ?_
  refine W.bind (add h5 hs.f) fun r5 e5 => ?_
  refine W.bind (add h6 hs.g) fun r6 e6 => ?_
  refine W.bind (add h7 hs.h) fun r7 e7 => ?_
  exact W.ret (.cons e0 (.cons e1 (.cons e2 (.cons e3 (.cons e4 (.cons e5 (.cons e6
    (.cons e7 .nil))))))))

theorem holds_toBits {us : List (UInt 32)} {xs : List (BitVec 32)} (h : List.Forall₂ W.R us xs) :
    List.Forall₂ W.B (us.flatMap UInt.intoBitsBe) (xs.flatMap Fips180.bits) := by
  induction h with
  | nil => exact .nil
  | cons h _ ih =>
    rw [List.flatMap_cons, List.flatMap_cons, bits_eq]
    exact forall₂_append (W.toBits h) ih

theorem holds_iv : List.Forall₂ W.R getIv Fips180.start.toList := by
  rw [start_eq, getIv, List.forall₂_map_left_iff, List.forall₂_same]
  exact fun x _ => W.constR x

theorem holds_block {input : List Boolean} {block : List Bool} (h : List.Forall₂ W.B input block)
    (hl : block.length = 512) :
    W.holds (sha256BlockNoPadding one input) fun r =>
      List.Forall₂ W.B r (Fips180.hashBlock block) := by
  rw [sha256BlockNoPadding, if_neg (by rw [h.length_eq]; simpa using hl)]
  exact W.bind (holds_compress W h hl (holds_iv W)) fun r hr => W.ret (holds_toBits W hr)

/-! ### Padding -/

theorem padZeros_eq (fuel : ℕ) : ∀ l : List Boolean, (959 + 1 - l.length % 512) % 512 ≤ fuel →
    padZeros l fuel = l ++ List.replicate ((959 + 1 - l.length % 512) % 512) (.constant false) := by
  induction fuel with
  | zero =>
    intro l hl
    rw [Nat.le_zero.1 hl]; simp [padZeros]
  | succ fuel ih =>
    intro l hl
    rw [padZeros]
    split
    · rename_i h
      have hlen : (l ++ [Boolean.constant false]).length = l.length + 1 := by simp
      have hk : (959 + 1 - l.length % 512) % 512 = (959 + 1 - (l.length + 1) % 512) % 512 + 1 := by
        omega
      rw [ih _ (by rw [hlen]; omega), hlen, hk, List.replicate_succ]
      simp
    · rename_i h
      rw [show (959 + 1 - l.length % 512) % 512 = 0 by omega]; simp

theorem holds_pad {input : List Boolean} {m : List Bool} (h : List.Forall₂ W.B input m) :
    List.Forall₂ W.B (pad input) (Fips180.pad m) := by
  have hl : (input ++ [Boolean.constant true]).length = m.length + 1 := by simp [h.length_eq]
  rw [pad, Fips180.pad, padZeros_eq _ _ (by rw [hl]; omega), hl]
  refine forall₂_append (forall₂_append (forall₂_append h (.cons (W.constB _) .nil)) ?_) ?_
  · rw [show (959 + 1 - (m.length + 1) % 512) % 512 = (959 - m.length % 512) % 512 by omega]
    exact forall₂_replicate (W.constB _) _
  · rw [Fips180.bits, List.forall₂_map_left_iff, List.forall₂_map_right_iff, List.forall₂_same]
    intro i hi
    have hbit : ∀ x : BitVec 64, ((x >>> i) &&& 1 == 1) = x.getLsbD i := by
      intro x
      rw [show (1 : BitVec 64) = 1#64 from rfl]
      have h1 := shiftBits_eq (k := 64) (by omega) 1 (x >>> i)
      simp only [shiftBits, List.range_one, List.map_cons, List.map_nil, List.cons.injEq, and_true] at h1
      rw [h1]; simp
    rw [h.length_eq, ← hbit]
    exact W.constB _

theorem length_pad (m : List Bool) : (Fips180.pad m).length % 512 = 0 := by
  rw [Fips180.pad]
  simp [Fips180.bits]
  omega

theorem holds_blocks {inputs : List (List Boolean)} {blocks : List (List Bool)}
    (h : List.Forall₂ (List.Forall₂ W.B) inputs blocks) (hl : ∀ b ∈ blocks, b.length = 512) :
    ∀ {cur : List (UInt 32)} {v : Vars}, List.Forall₂ W.R cur v.toList →
      W.holds (foldProg (fun cur block => compress one block cur) inputs cur) fun r =>
        List.Forall₂ W.R r
          (blocks.foldl (fun h block => Fips180.compress h (Fips180.words block)) v).toList := by
  induction h with
  | nil => exact fun hc => W.ret hc
  | cons h _ ih =>
    exact fun hc => W.bind (holds_compress W h (hl _ (by simp)) hc) fun r hr =>
      ih (fun b hb => hl b (by simp [hb])) hr

theorem holds_sha256 {input : List Boolean} {m : List Bool} (h : List.Forall₂ W.B input m)
    (h8 : m.length % 8 = 0) :
    W.holds (sha256 one input) fun r => List.Forall₂ W.B r (Fips180.hash m) := by
  have hp := holds_pad W h
  have hpl : (pad input).length % 512 = 0 := by rw [hp.length_eq, length_pad]
  rw [sha256, if_neg (by rw [h.length_eq]; omega)]
  simp only []
  rw [if_neg (by omega), chunks_eq_pieces (by omega) hpl]
  exact W.bind (holds_blocks W (forall₂_pieces hp 512) (fun _ => length_of_mem_pieces)
    (holds_iv W)) fun r hr => W.ret (holds_toBits W hr)

end Sha256
end Circuit
end Halo
