import Verif.Model.Example.Bitcoin
import Verif.Lemmas.Gadget.Sha256
import Verif.Lemmas.Gadget.UIntArith
import Verif.Lemmas.Example.Twin
/-!
# The multiplication of 256-bit numbers in the Bitcoin example
-/
set_option linter.unusedSectionVars false
namespace Halo
namespace Example
open Circuit Recursion
variable {F : Type} [Field F] [LawfulField F] {w : Var → F} {one : Var}

/-- A logic in which words are known -/
structure LimbLogic (F : Type) [Field F] [FieldApi F] (one : Var) extends Logic F where
  B : Boolean → Bool → Prop
  R : UInt 64 → BitVec 64 → Prop
  constB : ∀ b, B (.constant b) b
  constR : ∀ x, R (.constant x) x
  fromBits : ∀ {bits : List Boolean} {x : BitVec 64}, List.Forall₂ B bits (bitsOf x) →
    ∃ u, UInt.fromBits bits = some u ∧ R u x
  mulAcc2 : ∀ {a b c d x y z t}, R a x → R b y → R c z → R d t →
    holds (UInt.mulAcc2 one a b c d) fun r => ∃ lo hi : BitVec 64, R r.1 lo ∧ R r.2 hi ∧
      lo.toNat + 2 ^ 64 * hi.toNat = x.toNat * y.toNat + z.toNat + t.toNat

def LimbLogic.sound (h1 : w one = 1) : LimbLogic F one where
  toLogic := Logic.sound w
  B b v := b.Means w v
  R u x := u.Carries w x
  constB _ := rfl
  constR x := (UInt.constant_honest (by omega) x).carries
  fromBits h := UInt.fromBits_carries h
  mulAcc2 ha hb hc hd := UInt.mulAcc2_sound h1 ha.1 hb.1 hc.1 hd.1

def LimbLogic.complete (h1 : w one = 1) : LimbLogic F one where
  toLogic := Logic.complete w
  B b v := b.Honest w v
  R u x := u.Honest w x
  constB _ := rfl
  constR x := UInt.constant_honest (by omega) x
  fromBits h := UInt.fromBits_honest h
  mulAcc2 ha hb hc hd := UInt.mulAcc2_complete h1 ha hb hc hd

/-- The number with these limbs, least significant first -/
def limbsValue : List (BitVec 64) → ℕ
  | [] => 0
  | x :: xs => x.toNat + 2 ^ 64 * limbsValue xs

theorem limbsValue_set {xs : List (BitVec 64)} {i : ℕ} {x : BitVec 64} (h : xs[i]? = some x) (y : BitVec 64) :
    limbsValue (xs.set i y) + 2 ^ (64 * i) * x.toNat = limbsValue xs + 2 ^ (64 * i) * y.toNat := by
  induction xs generalizing i with
  | nil => simp at h
  | cons a xs ih =>
    cases i with
    | zero =>
      simp only [List.getElem?_cons_zero, Option.some.injEq] at h
      subst h
      simp only [List.set_cons_zero, limbsValue]
      ring
    | succ i =>
      have := ih (i := i) (by simpa using h)
      simp only [List.set_cons_succ, limbsValue]
      rw [show 64 * (i + 1) = 64 * i + 64 by ring, pow_add]
      have h64 : (0 : ℕ) < 2 ^ 64 := by norm_num
      generalize (2 : ℕ) ^ 64 = k at *
      linear_combination k * this

theorem limbsValue_inj : ∀ {xs ys : List (BitVec 64)}, xs.length = ys.length → limbsValue xs = limbsValue ys → xs = ys
  | [], [], _, _ => rfl
  | x :: xs, y :: ys, hl, h => by
    simp only [limbsValue] at h
    have hx := x.isLt
    have hy := y.isLt
    have h1 : x.toNat = y.toNat := by omega
    have h2 : xs = ys := limbsValue_inj (by simpa using hl) (by omega)
    rw [BitVec.eq_of_toNat_eq h1, h2]

theorem limbsValue_append (xs ys : List (BitVec 64)) :
    limbsValue (xs ++ ys) = limbsValue xs + 2 ^ (64 * xs.length) * limbsValue ys := by
  induction xs with
  | nil => simp [limbsValue]
  | cons x xs ih =>
    simp only [List.cons_append, limbsValue, ih, List.length_cons, Nat.mul_add, pow_add]
    ring

theorem limbsValue_lt (xs : List (BitVec 64)) : limbsValue xs < 2 ^ (64 * xs.length) := by
  induction xs with
  | nil => simp [limbsValue]
  | cons x xs ih =>
    have := x.isLt
    simp only [limbsValue, List.length_cons, Nat.mul_add, pow_add]
    have h64 : (2 : ℕ) ^ (64 * 1) = 2 ^ 64 := by norm_num
    rw [h64]
    generalize limbsValue xs = a at *
    generalize 2 ^ (64 * xs.length) = b at *
    have : 2 ^ 64 * (a + 1) ≤ 2 ^ 64 * b := Nat.mul_le_mul_left _ ih
    omega

variable (L : LimbLogic F one)

theorem holds_slice {α : Type} {l : List α} {a b : ℕ} (hab : a ≤ b) (hb : b ≤ l.length) {Q : List α → Prop}
    (h : Q ((l.drop a).take (b - a))) : L.holds (slice l a b : Prog F _) Q := by
  rw [slice, if_pos ⟨hab, hb⟩]
  exact L.ret (by rwa [← List.drop_take] at h)

theorem holds_limbs {bits : List Boolean} {vs : List Bool} (h : List.Forall₂ L.B bits vs) (hl : vs.length = 256) :
    L.holds (limbs bits : Prog F _) fun us => ∃ xs, List.Forall₂ L.R us xs ∧ xs.length = 4 ∧
      limbsValue xs = bitsValue vs := by
  have hl' := h.length_eq
  refine L.mono (L.mapProg (P := fun i u => L.R u (BitVec.ofNat 64 (bitsValue ((vs.drop (64 * i)).take 64))))
    fun i hi => ?_) fun us hus => ?_
  · rw [List.mem_range] at hi
    refine L.bind (P := fun s => s = (bits.drop (64 * i)).take 64) (holds_slice L (by omega) (by omega) ?_) ?_
    · rw [Nat.add_sub_cancel_left]
    · rintro _ rfl
      have hb := forall₂_take (List.forall₂_drop (64 * i) h) 64
      have h2 := eq_bitsOf_ofNat ((vs.drop (64 * i)).take 64)
      rw [show ((vs.drop (64 * i)).take 64).length = 64 by rw [List.length_take, List.length_drop]; omega] at h2
      rw [h2] at hb
      obtain ⟨u, e, hu⟩ := L.fromBits hb
      exact L.orPanic e hu
  · refine ⟨(List.range 4).map fun i => BitVec.ofNat 64 (bitsValue ((vs.drop (64 * i)).take 64)), ?_, by simp, ?_⟩
    · rw [List.forall₂_map_right_iff]
      exact hus.flip
    · have key : ∀ (n : ℕ) (l : List Bool), l.length = 64 * n → limbsValue ((List.range n).map fun i =>
          BitVec.ofNat 64 (bitsValue ((l.drop (64 * i)).take 64))) = bitsValue l := by
        intro n
        induction n with
        | zero =>
          intro l hl
          obtain rfl : l = [] := by simpa using hl
          rfl
        | succ n ih =>
          intro l hl
          rw [List.range_succ_eq_map, List.map_cons, List.map_map, limbsValue]
          have := ih (l.drop 64) (by rw [List.length_drop]; omega)
          have e : ((fun i => BitVec.ofNat 64 (bitsValue ((l.drop (64 * i)).take 64))) ∘ Nat.succ) = fun i =>
              BitVec.ofNat 64 (bitsValue (((l.drop 64).drop (64 * i)).take 64)) := by
            funext i
            simp only [Function.comp, List.drop_drop]
            rw [show 64 * i.succ = 64 + 64 * i by simp only [Nat.succ_eq_add_one]; ring]
          rw [e, this, Nat.mul_zero, List.drop_zero, BitVec.toNat_ofNat, Nat.mod_eq_of_lt]
          · conv_rhs => rw [← List.take_append_drop 64 l, bitsValue_append]
            rw [List.length_take, Nat.min_eq_left (by omega)]
          · exact lt_of_lt_of_le (bitsValue_lt _) (Nat.pow_le_pow_right (by omega) (by rw [List.length_take]; omega))
      exact key 4 vs hl

variable {tl wl : List (UInt 64)} {ts ws : List (BitVec 64)}

theorem holds_index {us : List (UInt 64)} {xs : List (BitVec 64)} (h : List.Forall₂ L.R us xs) {i : ℕ}
    {x : BitVec 64} (hx : xs[i]? = some x) : L.holds (Sha256.index us i : Prog F _) fun u => L.R u x := by
  have hl := h.length_eq
  obtain ⟨hi, rfl⟩ := List.getElem?_eq_some_iff.1 hx
  rw [Sha256.index]
  refine L.orPanic (List.getElem?_eq_getElem (by omega)) ?_
  exact (List.forall₂_iff_get.1 h).2 i (by omega) hi

theorem limbsValue_take_succ {xs : List (BitVec 64)} {i : ℕ} {x : BitVec 64} (hx : xs[i]? = some x) :
    limbsValue (xs.take (i + 1)) = limbsValue (xs.take i) + 2 ^ (64 * i) * x.toNat := by
  obtain ⟨hi, rfl⟩ := List.getElem?_eq_some_iff.1 hx
  rw [List.take_succ_eq_append_getElem hi, limbsValue_append, List.length_take, Nat.min_eq_left hi.le]
  simp [limbsValue]

theorem holds_mulOuter (ht : List.Forall₂ L.R tl ts) (htl : ts.length = 4) (hw : List.Forall₂ L.R wl ws)
    (hwl : ws.length = 4) {j : ℕ} (hj : j < 4) {us : List (UInt 64)} {xs : List (BitVec 64)}
    (hu : List.Forall₂ L.R us xs) (hxl : xs.length = 8) (hz : ∀ m : ℕ, 4 + j ≤ m → m < 8 → xs[m]? = some 0) :
    L.holds (mulOuter one tl wl us j : Prog F _) fun r => ∃ ys, List.Forall₂ L.R r ys ∧ ys.length = 8 ∧
      (∀ m : ℕ, 4 + (j + 1) ≤ m → m < 8 → ys[m]? = some 0) ∧
      limbsValue ys + limbsValue ts * limbsValue (ws.take j) =
        limbsValue xs + limbsValue ts * limbsValue (ws.take (j + 1)) := by
  obtain ⟨wj, hwj⟩ : ∃ x, ws[j]? = some x := ⟨_, List.getElem?_eq_getElem (by omega)⟩
  unfold mulOuter
  refine L.bind (P := fun s => ∃ ys k, List.Forall₂ L.R s.1 ys ∧ L.R s.2 k ∧ ys.length = 8 ∧
      (∀ m : ℕ, 4 + j ≤ m → m < 8 → ys[m]? = some 0) ∧
      limbsValue ys + 2 ^ (64 * (4 + j)) * k.toNat =
        limbsValue xs + limbsValue ts * (2 ^ (64 * j) * wj.toNat)) ?_ ?_
  · have key := L.foldProg (f := mulInner one tl wl j) (xs := List.range 4) (s := (us, .constant 0))
      (fun i s => ∃ ys k, List.Forall₂ L.R s.1 ys ∧ L.R s.2 k ∧ ys.length = 8 ∧
        (∀ m : ℕ, 4 + j ≤ m → m < 8 → ys[m]? = some 0) ∧
        limbsValue ys + 2 ^ (64 * (i + j)) * k.toNat =
          limbsValue xs + limbsValue (ts.take i) * (2 ^ (64 * j) * wj.toNat)) 0
      ⟨xs, 0, hu, L.constR 0, hxl, hz, by simp [limbsValue]⟩ ?_
    · rw [List.length_range, Nat.zero_add] at key
      rwa [List.take_of_length_le (by omega)] at key
    · rintro i x ⟨vs, kk⟩ hx ⟨ys, k, h1, h2, h3, h4, h5⟩
      have hi : i < 4 := by
        have := (List.getElem?_eq_some_iff.1 hx).1
        rwa [List.length_range] at this
      rw [List.getElem?_range hi] at hx
      cases hx
      rw [Nat.zero_add] at h5 ⊢
      obtain ⟨ti, hti⟩ : ∃ x, ts[i]? = some x := ⟨_, List.getElem?_eq_getElem (by omega)⟩
      obtain ⟨yi, hyi⟩ : ∃ x, ys[i + j]? = some x := ⟨_, List.getElem?_eq_getElem (by omega)⟩
      unfold mulInner
      refine L.bind (holds_index L ht hti) fun a ha => ?_
      refine L.bind (holds_index L hw hwj) fun b hb => ?_
      refine L.bind (holds_index L h1 hyi) fun c hc => ?_
      refine L.bind (L.mulAcc2 ha hb hc h2) ?_
      rintro ⟨low, high⟩ ⟨lo, hi', hlo, hhi, heq⟩
      refine L.ret ⟨ys.set (i + j) lo, hi', RescueGadget.forall₂_set h1 hlo _, hhi, by simp [h3], ?_, ?_⟩
      · intro m hm1 hm2
        rw [List.getElem?_set_ne (by omega)]
        exact h4 m hm1 hm2
      · have hs := limbsValue_set hyi lo
        rw [limbsValue_take_succ hti]
        have e1 : 2 ^ (64 * (i + 1 + j)) = 2 ^ (64 * (i + j)) * 2 ^ 64 := by
          rw [← pow_add]; congr 1; ring
        have e2 : 2 ^ (64 * (i + j)) = 2 ^ (64 * i) * 2 ^ (64 * j) := by
          rw [← pow_add]; congr 1; ring
        rw [e1]
        have h5' : (limbsValue ys : ℤ) + 2 ^ (64 * (i + j)) * k.toNat =
          limbsValue xs + limbsValue (ts.take i) * (2 ^ (64 * j) * wj.toNat) := by exact_mod_cast h5
        have hs' : (limbsValue (ys.set (i + j) lo) : ℤ) + 2 ^ (64 * (i + j)) * yi.toNat =
          limbsValue ys + 2 ^ (64 * (i + j)) * lo.toNat := by exact_mod_cast hs
        have heq' : (lo.toNat : ℤ) + 2 ^ 64 * hi'.toNat = ti.toNat * wj.toNat + yi.toNat + k.toNat := by
          exact_mod_cast heq
        have e2' : (2 : ℤ) ^ (64 * (i + j)) = 2 ^ (64 * i) * 2 ^ (64 * j) := by exact_mod_cast e2
        zify
        generalize (2 : ℤ) ^ (64 * (i + j)) = A at *
        generalize (2 : ℤ) ^ 64 = K at *
        linear_combination hs' + h5' + A * heq' + ti.toNat * wj.toNat * e2'
  · rintro ⟨vs, kk⟩ ⟨ys, k, h1, h2, h3, h4, h5⟩
    refine L.ret ⟨ys.set (j + 4) k, RescueGadget.forall₂_set h1 h2 _, by simp [h3], ?_, ?_⟩
    · intro m hm1 hm2
      rw [List.getElem?_set_ne (by omega)]
      exact h4 m (by omega) hm2
    · have hs := limbsValue_set (h4 (j + 4) (by omega) (by omega)) k
      have e0 : (0 : BitVec 64).toNat = 0 := rfl
      rw [e0, Nat.mul_zero, Nat.add_zero, Nat.add_comm j 4, h5] at hs
      rw [Nat.add_comm j 4, hs, limbsValue_take_succ hwj]
      ring

/-- The product -/
theorem holds_product (ht : List.Forall₂ L.R tl ts) (htl : ts.length = 4) (hw : List.Forall₂ L.R wl ws)
    (hwl : ws.length = 4) {rl : List (UInt 64)} {rs : List (BitVec 64)} (hr : List.Forall₂ L.R rl rs)
    (hrl : rs.length = 4) :
    L.holds (Sha256.foldProg (mulOuter one tl wl) (List.range 4)
      (rl ++ [.constant 0, .constant 0, .constant 0, .constant 0]) : Prog F _) fun r =>
      ∃ ys, List.Forall₂ L.R r ys ∧ ys.length = 8 ∧
        limbsValue ys = limbsValue ts * limbsValue ws + limbsValue rs := by
  have key := L.foldProg (f := mulOuter one tl wl) (xs := List.range 4)
    (s := rl ++ [.constant 0, .constant 0, .constant 0, .constant 0])
    (fun j r => ∃ ys, List.Forall₂ L.R r ys ∧ ys.length = 8 ∧
      (∀ m : ℕ, 4 + j ≤ m → m < 8 → ys[m]? = some 0) ∧
      limbsValue ys = limbsValue ts * limbsValue (ws.take j) + limbsValue rs) 0 ?_ ?_
  · rw [List.length_range, Nat.zero_add, List.take_of_length_le (by omega)] at key
    exact L.mono key fun r ⟨ys, h1, h2, _, h3⟩ => ⟨ys, h1, h2, h3⟩
  · refine ⟨rs ++ [0, 0, 0, 0], List.rel_append hr (.cons (L.constR 0) (.cons (L.constR 0)
      (.cons (L.constR 0) (.cons (L.constR 0) .nil)))), by simp [hrl], ?_, ?_⟩
    · intro m h1 h2
      rw [List.getElem?_append_right (by omega), hrl]
      obtain rfl | rfl | rfl | rfl : m = 4 ∨ m = 5 ∨ m = 6 ∨ m = 7 := by omega
      all_goals rfl
    · rw [limbsValue_append]
      simp [limbsValue]
  · rintro j x us hx ⟨xs, h1, h2, h3, h4⟩
    have hj : j < 4 := by
      have := (List.getElem?_eq_some_iff.1 hx).1
      rwa [List.length_range] at this
    rw [List.getElem?_range hj] at hx
    cases hx
    rw [Nat.zero_add] at h3 h4 ⊢
    refine L.mono (holds_mulOuter L ht htl hw hwl hj h1 h2 h3) fun r ⟨ys, g1, g2, g3, g4⟩ => ⟨ys, g1, g2, g3, ?_⟩
    omega

theorem limbs_eq_twoPow256 {xs : List (BitVec 64)} (hl : xs.length = 8) :
    limbsValue xs = 2 ^ 256 ↔ xs = [0, 0, 0, 0, 1, 0, 0, 0] := by
  have : limbsValue [0, 0, 0, 0, 1, 0, 0, 0] = 2 ^ 256 := by decide +kernel
  constructor
  · intro h
    exact limbsValue_inj (by simpa using hl) (h.trans this.symm)
  · rintro rfl
    exact this

end Example
end Halo
