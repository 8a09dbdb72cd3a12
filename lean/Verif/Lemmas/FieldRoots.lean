import Verif.Lemmas.FieldBytes
/-!
# `invert`, `sqrt` and `batch_invert`
-/
namespace Halo

/-! ## Tonelli–Shanks over an abstract field -/
namespace TS
variable {F : Type*} [Field F] [DecidableEq F]

structure Inner (F : Type*) where
  k : ℕ
  tmp : F
  jlt : Bool
  z : F

def innerStep (v : ℕ) (s : Inner F) (j : ℕ) : Inner F :=
  let sq := (if s.tmp = 1 then s.z else s.tmp) * (if s.tmp = 1 then s.z else s.tmp)
  let jlt := s.jlt && !(j == v)
  ⟨if s.tmp = 1 then s.k else j, if s.tmp = 1 then s.tmp else sq, jlt,
    if jlt then (if s.tmp = 1 then sq else s.z) else s.z⟩

structure State (F : Type*) where
  v : ℕ
  x : F
  b : F
  z : F

def inner (v maxV : ℕ) (b z : F) : Inner F :=
  (List.range' 2 (maxV - 2)).foldl (innerStep v) ⟨1, b * b, true, z⟩

def step (s : State F) (maxV : ℕ) : State F :=
  let i := inner s.v maxV s.b s.z
  ⟨i.k, if s.b = 1 then s.x else s.x * i.z, s.b * (i.z * i.z), i.z * i.z⟩

/-- the inner `z` is always an iterated square of the initial one -/
theorem inner_z (v maxV : ℕ) (b z : F) : ∃ i, (inner v maxV b z).z = z ^ 2 ^ i := by
  unfold inner
  have : ∀ (l : List ℕ) (s : Inner F), (∃ i, s.z = z ^ 2 ^ i) →
      ∃ i, (l.foldl (innerStep v) s).z = z ^ 2 ^ i := by
    intro l
    induction l with
    | nil => intro s h; simpa
    | cons j l ih =>
      intro s ⟨i, h⟩
      apply ih
      simp only [innerStep]
      split_ifs
      · exact ⟨i + 1, by rw [h, pow_succ, pow_mul, pow_two]⟩
      · exact ⟨i, h⟩
      · exact ⟨i, h⟩
  exact this _ _ ⟨0, by simp⟩

/-- invariant of the inner loop after `j = 2 .. n+1` -/
theorem inner_inv {v k0 : ℕ} {b z : F} (hk : 1 ≤ k0) (hkv : k0 ≤ v - 1)
    (h1 : b ^ 2 ^ k0 = 1) (hne : ∀ k, 1 ≤ k → k < k0 → b ^ 2 ^ k ≠ 1) (n : ℕ) :
    let s := (List.range' 2 n).foldl (innerStep v) ⟨1, b * b, true, z⟩
    s.jlt = decide (n + 1 < v) ∧
    (if n + 1 ≤ k0 then s.tmp = b ^ 2 ^ (n + 1) ∧ s.k = n + 1 ∧ s.z = z
      else s.tmp = 1 ∧ s.k = k0 ∧ s.z = z ^ 2 ^ (min (n + 1) (v - 1) - k0)) := by
  induction n with
  | zero =>
    simp only [List.range'_zero, List.foldl_nil, Nat.zero_add]
    refine ⟨by symm; rw [decide_eq_true_iff]; omega, ?_⟩
    rw [if_pos hk]; simp [pow_two]
  | succ n ih =>
    simp only [List.range'_1_concat, List.foldl_append, List.foldl_cons, List.foldl_nil] at ih ⊢
    generalize (List.range' 2 n).foldl (innerStep v) ⟨1, b * b, true, z⟩ = s at ih
    obtain ⟨hj, hs⟩ := ih
    have hj' : (innerStep v s (2 + n)).jlt = decide (n + 1 + 1 < v) := by
      simp only [innerStep, hj]
      by_cases hh : n + 1 + 1 < v
      · rw [decide_eq_true hh, decide_eq_true (by omega)]
        simp only [Bool.true_and, Bool.not_eq_true', beq_eq_false_iff_ne]; omega
      · rw [decide_eq_false hh]
        by_cases h2 : n + 1 < v
        · have : 2 + n = v := by omega
          simp [this]
        · simp [h2]
    refine ⟨hj', ?_⟩
    have hz : (innerStep v s (2 + n)).z = if n + 1 + 1 < v then
        (if s.tmp = 1 then s.z * s.z else s.z) else s.z := by
      have : (innerStep v s (2 + n)).z = if (innerStep v s (2 + n)).jlt then
        (if s.tmp = 1 then s.z * s.z else s.z) else s.z := by
        by_cases hA : (innerStep v s (2 + n)).jlt = true
        · have hA' : (s.jlt && !(2 + n == v)) = true := hA
          rw [if_pos hA]
          simp only [innerStep, hA']
          split_ifs <;> rfl
        · have hA' : ¬ (s.jlt && !(2 + n == v)) = true := hA
          rw [if_neg hA]
          simp only [innerStep, if_neg hA']
      rw [this, hj']; simp
    rw [hz]
    simp only [innerStep]
    by_cases hc : n + 1 ≤ k0
    · rw [if_pos hc] at hs
      obtain ⟨ht, hk', hzz⟩ := hs
      by_cases he : n + 1 = k0
      · have hone : s.tmp = 1 := by rw [ht, he, h1]
        rw [if_neg (by omega), if_pos hone, if_pos hone, if_pos hone]
        refine ⟨hone, by omega, ?_⟩
        rw [hzz]
        split_ifs with hv
        · have : min (n + 1 + 1) (v - 1) - k0 = 1 := by omega
          rw [this]; ring
        · have : min (n + 1 + 1) (v - 1) - k0 = 0 := by omega
          rw [this]; simp
      · have hnone : s.tmp ≠ 1 := by rw [ht]; exact hne _ (by omega) (by omega)
        rw [if_pos (by omega), if_neg hnone, if_neg hnone, if_neg hnone, if_neg hnone]
        refine ⟨?_, by omega, by rw [hzz]; split_ifs <;> rfl⟩
        rw [ht, ← pow_add, ← two_mul, ← pow_succ']
    · rw [if_neg hc] at hs
      obtain ⟨ht, hk', hzz⟩ := hs
      rw [if_neg (by omega), if_pos ht, if_pos ht, if_pos ht]
      refine ⟨ht, hk', ?_⟩
      rw [hzz]
      split_ifs with hv
      · have e1 : min (n + 1 + 1) (v - 1) - k0 = (min (n + 1) (v - 1) - k0) + 1 := by omega
        rw [e1, pow_succ, pow_mul, pow_two]
      · have e1 : min (n + 1 + 1) (v - 1) - k0 = min (n + 1) (v - 1) - k0 := by omega
        rw [e1]

/-- the working phase: `x² = a·b`, `z` has order exactly `2^v`, `b` has order dividing `2^(v-1)` -/
def Phase1 (a : F) (maxV : ℕ) (s : State F) : Prop :=
  s.x * s.x = a * s.b ∧ s.z ^ 2 ^ (s.v - 1) = -1 ∧ s.b ^ 2 ^ (s.v - 1) = 1 ∧ 1 ≤ s.v ∧ s.v ≤ maxV

/-- the root has been found -/
def Phase2 (a : F) (s : State F) : Prop := s.x * s.x = a ∧ s.z * s.z = 1

theorem step_phase2 {a : F} {s : State F} (h : Phase2 a s) (maxV : ℕ) : Phase2 a (step s maxV) := by
  obtain ⟨i, hi⟩ := inner_z s.v maxV s.b s.z
  have hzz : (inner s.v maxV s.b s.z).z * (inner s.v maxV s.b s.z).z = 1 := by
    rw [hi, ← mul_pow, h.2, one_pow]
  simp only [Phase2, step]
  rw [hzz]
  refine ⟨?_, by simp⟩
  split_ifs
  · exact h.1
  · calc s.x * (inner s.v maxV s.b s.z).z * (s.x * (inner s.v maxV s.b s.z).z)
        = s.x * s.x * ((inner s.v maxV s.b s.z).z * (inner s.v maxV s.b s.z).z) := by ring
      _ = a := by rw [hzz, h.1, mul_one]

theorem step_phase1 {a : F} {s : State F} {maxV : ℕ} (h : Phase1 a maxV s) :
    Phase2 a (step s maxV) ∨ Phase1 a (maxV - 1) (step s maxV) := by
  obtain ⟨hx, hz, hb, hv1, hv⟩ := h
  by_cases hb1 : s.b = 1
  · left
    simp only [Phase2, step]
    rw [if_pos hb1]
    refine ⟨by rw [hx, hb1, mul_one], ?_⟩
    by_cases hv2 : 2 ≤ s.v
    · have key := inner_inv (v := s.v) (k0 := 1) (b := s.b) (z := s.z) le_rfl (by omega)
        (by simp [hb1]) (by intro k h1 h2; omega) (maxV - 2)
      simp only at key
      have hzz : (inner s.v maxV s.b s.z).z = s.z ^ 2 ^ (s.v - 2) := by
        unfold inner
        have := key.2
        split_ifs at this with hc
        · rw [this.2.2, show s.v - 2 = 0 by omega]; simp
        · rw [this.2.2]; congr 2; omega
      have : (inner s.v maxV s.b s.z).z * (inner s.v maxV s.b s.z).z = -1 := by
        rw [hzz, ← hz, ← pow_add, ← two_mul, ← pow_succ']; congr 2; omega
      rw [this]; ring
    · have : s.v = 1 := by omega
      rw [this] at hz
      simp only [Nat.sub_self, pow_zero, pow_one] at hz
      obtain ⟨i, hi⟩ := inner_z s.v maxV s.b s.z
      have e : (inner s.v maxV s.b s.z).z * (inner s.v maxV s.b s.z).z = 1 := by
        rw [hi, ← mul_pow, hz]; simp
      rw [e]; simp
  · right
    have hv2 : 2 ≤ s.v := by
      by_contra hh
      have : s.v = 1 := by omega
      rw [this] at hb
      simp at hb
      exact hb1 hb
    have hex : ∃ k, 1 ≤ k ∧ s.b ^ 2 ^ k = 1 := ⟨s.v - 1, by omega, hb⟩
    obtain ⟨k0, ⟨hk1, hk2⟩, hmin⟩ : ∃ k0, (1 ≤ k0 ∧ s.b ^ 2 ^ k0 = 1) ∧
        ∀ k, k < k0 → ¬ (1 ≤ k ∧ s.b ^ 2 ^ k = 1) := by
      classical
      exact ⟨Nat.find hex, Nat.find_spec hex, fun k hk => Nat.find_min hex hk⟩
    have hk0v : k0 ≤ s.v - 1 := by
      by_contra hh
      exact hmin (s.v - 1) (by omega) ⟨by omega, hb⟩
    have key := inner_inv (v := s.v) (k0 := k0) (b := s.b) (z := s.z) hk1 hk0v hk2
      (fun k h1 h2 hh => hmin k h2 ⟨h1, hh⟩) (maxV - 2)
    simp only at key
    have hin : (inner s.v maxV s.b s.z).k = k0 ∧
        (inner s.v maxV s.b s.z).z = s.z ^ 2 ^ (s.v - 1 - k0) := by
      unfold inner
      have := key.2
      split_ifs at this with hc
      · refine ⟨by rw [this.2.1]; omega, ?_⟩
        rw [this.2.2, show s.v - 1 - k0 = 0 by omega]; simp
      · refine ⟨this.2.1, ?_⟩
        rw [this.2.2]; congr 2; omega
    have hzz : (inner s.v maxV s.b s.z).z * (inner s.v maxV s.b s.z).z = s.z ^ 2 ^ (s.v - k0) := by
      rw [hin.2, ← pow_add, ← two_mul, ← pow_succ']; congr 2; omega
    have hzk : (s.z ^ 2 ^ (s.v - k0)) ^ 2 ^ (k0 - 1) = -1 := by
      rw [← pow_mul, ← pow_add, ← hz]; congr 2; omega
    simp only [Phase1, step]
    rw [if_neg hb1, hin.1, hzz]
    refine ⟨?_, hzk, ?_, hk1, by omega⟩
    · have : s.x * (inner s.v maxV s.b s.z).z * (s.x * (inner s.v maxV s.b s.z).z)
        = s.x * s.x * ((inner s.v maxV s.b s.z).z * (inner s.v maxV s.b s.z).z) := by ring
      rw [this, hx, hzz]; ring
    · rw [mul_pow, hzk]
      have hm : s.b ^ 2 ^ (k0 - 1) = -1 := by
        have hsq : s.b ^ 2 ^ (k0 - 1) * s.b ^ 2 ^ (k0 - 1) = 1 := by
          rw [← pow_add, ← two_mul, ← pow_succ', show k0 - 1 + 1 = k0 by omega, hk2]
        rcases mul_self_eq_one_iff.1 hsq with h | h
        · exfalso
          by_cases h0 : k0 = 1
          · rw [h0] at h; simp at h; exact hb1 h
          · exact hmin (k0 - 1) (by omega) ⟨by omega, h⟩
        · exact h
      rw [hm]; ring

theorem loop_correct {a : F} (n : ℕ) (s : State F) (h : Phase2 a s ∨ Phase1 a n s) :
    Phase2 a ((List.range' 1 n).reverse.foldl step s) := by
  induction n generalizing s with
  | zero =>
    rcases h with h | h
    · simpa
    · have := h.2.2.2; omega
  | succ n ih =>
    rw [List.range'_1_concat, List.reverse_append]
    simp only [List.reverse_cons, List.reverse_nil, List.nil_append, List.singleton_append,
      List.foldl_cons]
    apply ih
    rcases h with h | h
    · exact Or.inl (step_phase2 h _)
    · have := step_phase1 h
      rw [Nat.add_comm 1 n]
      exact this

theorem loop_zero (l : List ℕ) (s : State F) (h : s.x = 0) : (l.foldl step s).x = 0 := by
  induction l generalizing s with
  | nil => simpa
  | cons j l ih => apply ih; simp [step, h]

end TS

namespace Fe
variable {C : Consts}

/-! ## invert -/

theorem invert_spec (ok : C.OK) (hp : C.m.Prime) (he : C.invertExp.toNat = C.m - 2)
    {a : Limbs} {x : ZMod C.m} (ha : Represents C a x) :
    (x = 0 → invert C a = none) ∧
    (x ≠ 0 → ∃ b y, invert C a = some b ∧ Represents C b y ∧ x * y = 1) := by
  have : Fact C.m.Prime := ⟨hp⟩
  have hz := ctEq_rep ok ha (rep_zero ok)
  constructor
  · intro h
    simp [invert, hz.2 h]
  · intro h
    have hf : ctEq a zero = false := by
      rw [← Bool.not_eq_true]; rw [hz]; exact h
    refine ⟨_, _, by simp only [invert, hf]; rfl, rep_powVartime ok ha C.invertExp, ?_⟩
    rw [he, ← pow_succ']
    have : C.m - 2 + 1 = C.m - 1 := by have := hp.two_le; omega
    rw [this]
    exact ZMod.pow_card_sub_one_eq_one h

/-! ## sqrt -/

def SRep (C : Consts) (s : SqrtState) (t : TS.State (ZMod C.m)) : Prop :=
  s.v = t.v ∧ Represents C s.x t.x ∧ Represents C s.b t.b ∧ Represents C s.z t.z
def IRep (C : Consts) (s : SqrtInner) (t : TS.Inner (ZMod C.m)) : Prop :=
  s.k = t.k ∧ Represents C s.tmp t.tmp ∧ s.jLessThanV = t.jlt ∧ Represents C s.z t.z

variable [Fact C.m.Prime]

theorem ctEq_one_eq (ok : C.OK) {a : Limbs} {x : ZMod C.m} (ha : Represents C a x) :
    ctEq a (one C) = decide (x = 1) := by
  rw [Bool.eq_iff_iff, ctEq_rep ok ha (rep_one ok)]; simp

theorem innerStep_rep (ok : C.OK) (v j : ℕ) {s : SqrtInner} {t : TS.Inner (ZMod C.m)}
    (h : IRep C s t) : IRep C (sqrtInnerStep C v s j) (TS.innerStep v t j) := by
  obtain ⟨hk, ht, hj, hz⟩ := h
  simp only [IRep, sqrtInnerStep, TS.innerStep, ctEq_one_eq ok ht]
  have hsel := rep_select ht hz (decide (t.tmp = 1))
  simp only [decide_eq_true_eq] at hsel
  have hsq := rep_square ok hsel
  refine ⟨by simp [hk], ?_, by rw [hj], ?_⟩
  · simpa using rep_select hsq ht (decide (t.tmp = 1))
  · rw [hj]
    simpa using rep_select hz (rep_select hz hsq (decide (t.tmp = 1))) (t.jlt && !(j == v))

theorem step_rep (ok : C.OK) (maxV : ℕ) {s : SqrtState} {t : TS.State (ZMod C.m)}
    (h : SRep C s t) : SRep C (sqrtStep C s maxV) (TS.step t maxV) := by
  obtain ⟨hv, hx, hb, hz⟩ := h
  have hin : IRep C ((List.range' 2 (maxV - 2)).foldl (sqrtInnerStep C s.v)
      ⟨1, square C s.b, true, s.z⟩) (TS.inner t.v maxV t.b t.z) := by
    unfold TS.inner
    rw [hv]
    have gen : ∀ (l : List ℕ) (a : SqrtInner) (b : TS.Inner (ZMod C.m)), IRep C a b →
        IRep C (l.foldl (sqrtInnerStep C t.v) a) (l.foldl (TS.innerStep t.v) b) := by
      intro l
      induction l with
      | nil => intro a b h; exact h
      | cons j l ih => intro a b h; exact ih _ _ (innerStep_rep ok _ _ h)
    exact gen _ _ _ ⟨rfl, rep_square ok hb, rfl, hz⟩
  obtain ⟨hk, _, _, hiz⟩ := hin
  simp only [SRep, sqrtStep, TS.step]
  refine ⟨hk, ?_, rep_mul ok hb (rep_square ok hiz), rep_square ok hiz⟩
  rw [ctEq_one_eq ok hb]
  simpa using rep_select (rep_mul ok hx hiz) hx (decide (t.b = 1))

/-- the field-level value computed by the loop of `sqrt` -/
def sqrtVal (C : Consts) [Fact C.m.Prime] (x root : ZMod C.m) : ZMod C.m :=
  ((List.range' 1 32).reverse.foldl TS.step
    ⟨32, x * x ^ C.sqrtExp.toNat, x * x ^ C.sqrtExp.toNat * x ^ C.sqrtExp.toNat, root⟩).x

theorem sqrt_val (ok : C.OK) {a : Limbs} {x root : ZMod C.m} (ha : Represents C a x)
    (hr : Represents C C.rootOfUnity root) :
    ∃ r, Represents C r (sqrtVal C x root) ∧
      sqrt C a = if sqrtVal C x root * sqrtVal C x root = x then some r else none := by
  have gen : ∀ (l : List ℕ) (s : SqrtState) (t : TS.State (ZMod C.m)), SRep C s t →
      SRep C (l.foldl (sqrtStep C) s) (l.foldl TS.step t) := by
    intro l
    induction l with
    | nil => intro a b h; exact h
    | cons j l ih => intro a b h; exact ih _ _ (step_rep ok _ h)
  have hw := rep_powVartime ok ha C.sqrtExp
  have hx := rep_mul ok ha hw
  have hb := rep_mul ok hx hw
  have hfin := gen (List.range' 1 32).reverse ⟨32, _, _, C.rootOfUnity⟩ ⟨32, _, _, root⟩
    ⟨rfl, hx, hb, hr⟩
  obtain ⟨_, hfx, _, _⟩ := hfin
  refine ⟨_, hfx, ?_⟩
  simp only [sqrt]
  have := ctEq_rep ok (rep_mul ok hfx hfx) ha
  unfold sqrtVal
  split_ifs with h1 h2 h2
  · rfl
  · exact absurd (this.1 h1) h2
  · exact absurd (this.2 h2) h1
  · rfl

theorem sqrt_correct (ok : C.OK) {t : ℕ} (hm : C.m = 2 ^ 32 * (2 * t + 1) + 1)
    (he : C.sqrtExp.toNat = t) {root : ZMod C.m} (hr : Represents C C.rootOfUnity root)
    (hroot : root ^ 2 ^ 31 = -1)
    {a : Limbs} {x : ZMod C.m} (ha : Represents C a x) :
    (IsSquare x → ∃ r y, sqrt C a = some r ∧ Represents C r y ∧ y * y = x) ∧
    (¬ IsSquare x → sqrt C a = none) := by
  obtain ⟨r, hrep, hs⟩ := sqrt_val ok ha hr
  constructor
  · intro hsq
    have hval : sqrtVal C x root * sqrtVal C x root = x := by
      by_cases hx0 : x = 0
      · have : sqrtVal C x root = 0 := by
          unfold sqrtVal
          apply TS.loop_zero
          simp [hx0]
        rw [this, hx0, mul_zero]
      · obtain ⟨y, hy⟩ := hsq
        have hy0 : y ≠ 0 := by rintro rfl; simp at hy; exact hx0 hy
        refine (TS.loop_correct (a := x) 32 _ (Or.inr ⟨?_, hroot, ?_, ?_, ?_⟩)).1
        · ring
        · show (x * x ^ C.sqrtExp.toNat * x ^ C.sqrtExp.toNat) ^ 2 ^ 31 = 1
          have e : x * x ^ C.sqrtExp.toNat * x ^ C.sqrtExp.toNat = x ^ (2 * t + 1) := by
            rw [he]; ring
          have h1 : y ^ (C.m - 1) = 1 := ZMod.pow_card_sub_one_eq_one hy0
          rw [e, ← pow_mul, hy, ← pow_two, ← pow_mul, ← h1]
          congr 1
          omega
        · show 1 ≤ 32; omega
        · show 32 ≤ 32; omega
    exact ⟨r, _, by rw [hs, if_pos hval], hrep, hval⟩
  · intro hns
    rw [hs, if_neg]
    intro h
    exact hns ⟨_, h.symm⟩

/-! ## batch_invert -/

omit [Fact C.m.Prime] in
theorem batchForward_length (v : List Limbs) (acc : Limbs) :
    (batchForward C v acc).1.length = v.length := by
  induction v generalizing acc with
  | nil => rfl
  | cons p v ih => simp [batchForward, ih]

/-- accumulator after the backward loop -/
def accAfter (C : Consts) (l : List (Limbs × Limbs)) (acc : Limbs) : Limbs :=
  l.foldl (fun acc pt => conditionalSelect (mul C acc pt.1) acc (isZero pt.1)) acc

omit [Fact C.m.Prime] in
theorem batchBackward_append (l1 l2 : List (Limbs × Limbs)) (acc : Limbs) :
    batchBackward C (l1 ++ l2) acc =
      batchBackward C l1 acc ++ batchBackward C l2 (accAfter C l1 acc) := by
  induction l1 generalizing acc with
  | nil => rfl
  | cons a l1 ih =>
    obtain ⟨p, t⟩ := a
    simp only [List.cons_append, batchBackward, accAfter, List.foldl_cons]
    rw [ih]; rfl

/-- product of the non-zero entries -/
def prodNZ {F : Type*} [Field F] [DecidableEq F] (xs : List F) : F :=
  (xs.filter (· ≠ 0)).prod

theorem isZero_eq (ok : C.OK) {a : Limbs} {x : ZMod C.m} (ha : Represents C a x) :
    isZero a = decide (x = 0) := by
  rw [Bool.eq_iff_iff, isZero_rep ok ha]; simp

theorem prodNZ_cons (x : ZMod C.m) (xs : List (ZMod C.m)) :
    prodNZ (x :: xs) = (if x = 0 then 1 else x) * prodNZ xs := by
  unfold prodNZ
  by_cases h : x = 0 <;> simp [h]

theorem prodNZ_ne (xs : List (ZMod C.m)) : prodNZ xs ≠ 0 := by
  unfold prodNZ
  rw [Ne, List.prod_eq_zero_iff]
  intro h
  have := (List.mem_filter.1 h).2
  simp at this

theorem accStep_rep (ok : C.OK) {acc p : Limbs} {A x : ZMod C.m} (hA : Represents C acc A)
    (hp : Represents C p x) :
    Represents C (conditionalSelect (mul C acc p) acc (isZero p)) (A * if x = 0 then 1 else x) := by
  rw [isZero_eq ok hp]
  have := rep_select (rep_mul ok hA hp) hA (decide (x = 0))
  by_cases h : x = 0
  · simpa [h] using this
  · simpa [h] using this

theorem batchForward_acc (ok : C.OK) {v : List Limbs} {xs : List (ZMod C.m)}
    (hv : List.Forall₂ (Represents C) v xs) {acc : Limbs} {A : ZMod C.m}
    (hA : Represents C acc A) : Represents C (batchForward C v acc).2 (A * prodNZ xs) := by
  induction hv generalizing acc A with
  | nil => simpa [batchForward, prodNZ]
  | cons hp _ ih =>
    have := ih (accStep_rep ok hA hp)
    rw [prodNZ_cons, ← mul_assoc]
    exact this

theorem batchBackward_rep (ok : C.OK) {v : List Limbs} {xs : List (ZMod C.m)}
    (hv : List.Forall₂ (Represents C) v xs) {acc E : Limbs} {A : ZMod C.m}
    (hA : Represents C acc A) (hA0 : A ≠ 0) (hE : Represents C E (A * prodNZ xs)⁻¹) :
    Represents C (accAfter C (v.reverse.zip (batchForward C v acc).1.reverse) E) A⁻¹ ∧
    List.Forall₂ (Represents C)
      (batchBackward C (v.reverse.zip (batchForward C v acc).1.reverse) E).reverse
      (xs.map (·⁻¹)) := by
  induction hv generalizing acc A with
  | nil => simpa [batchForward, prodNZ, accAfter, batchBackward] using hE
  | @cons p x v xs hp hv ih =>
    have hacc := accStep_rep ok hA hp
    have hne : (A * if x = 0 then 1 else x) ≠ 0 := by
      split_ifs with h
      · simpa
      · exact mul_ne_zero hA0 h
    rw [prodNZ_cons, ← mul_assoc] at hE
    obtain ⟨i1, i2⟩ := ih hacc hne hE
    simp only [batchForward, List.reverse_cons]
    rw [List.zip_append (by simp [batchForward_length])]
    generalize hL : v.reverse.zip (batchForward C v
      (conditionalSelect (mul C acc p) acc (isZero p))).1.reverse = L at i1 i2 ⊢
    have hinv : (A * if x = 0 then 1 else x)⁻¹ * (if x = 0 then 1 else x) = A⁻¹ := by
      split_ifs with h
      · simp
      · field_simp
    refine ⟨?_, ?_⟩
    · have := accStep_rep ok i1 hp
      rw [hinv] at this
      simpa [accAfter, List.foldl_append] using this
    · rw [batchBackward_append, List.reverse_append]
      simp only [List.zip_cons_cons, List.zip_nil_right, batchBackward, List.reverse_cons,
        List.reverse_nil, List.nil_append, List.singleton_append, List.map_cons]
      refine List.Forall₂.cons ?_ i2
      rw [isZero_eq ok hp]
      have := rep_select (rep_mul ok hA i1) hp (decide (x = 0))
      by_cases h : x = 0
      · simpa [h] using this
      · have e : A * (A * x)⁻¹ = x⁻¹ := by field_simp
        rw [if_neg h, decide_eq_false h, e] at this
        rw [decide_eq_false h]
        simpa using this

theorem batchInvert_spec (ok : C.OK) (he : C.invertExp.toNat = C.m - 2)
    {v : List Limbs} {xs : List (ZMod C.m)} (hv : List.Forall₂ (Represents C) v xs) :
    ∃ v' r, batchInvert C v = some (v', r) ∧
      List.Forall₂ (Represents C) v' (xs.map (·⁻¹)) ∧ Represents C r (prodNZ xs)⁻¹ := by
  have hfwd := batchForward_acc ok hv (rep_one ok)
  rw [one_mul] at hfwd
  obtain ⟨E, y, hE, hEr, hxy⟩ := (invert_spec ok Fact.out he hfwd).2 (prodNZ_ne xs)
  have hy : y = (prodNZ xs)⁻¹ := (DivisionMonoid.inv_eq_of_mul _ _ hxy).symm
  rw [hy] at hEr
  have hb := batchBackward_rep ok hv (rep_one ok) one_ne_zero (by rwa [one_mul])
  refine ⟨_, E, ?_, hb.2, hEr⟩
  simp only [batchInvert, hE]

end Fe
end Halo
