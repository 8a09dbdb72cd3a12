import Verif.Lemmas.Recursion.Scalars
import Verif.Lemmas.Proofs.Deferred
import Verif.Spec.Recursion
/-!
# The deferred checks in the circuit
-/
namespace Halo
namespace Recursion
open Circuit Proofs
open Circuit.Sha256 (foldProg index)
variable {F : Type} [Field F] {w : Var → F} {one : Var} {hon : Bool}

/-- The number is on the wire, and known to honest provers. -/
def NumIs (hon : Bool) (w : Var → F) (n : AllocatedNum F) (v : F) : Prop := n.Ok hon w ∧ w n.var = v

/-! ### Reading the record -/

theorem bitsOk_take {bits : List AllocatedBit} {vs : List Bool} (n : ℕ) (h : BitsOk hon w bits vs) :
    BitsOk hon w (bits.take n) (vs.take n) := List.forall₂_take n h

theorem bitsOk_drop {bits : List AllocatedBit} {vs : List Bool} (n : ℕ) (h : BitsOk hon w bits vs) :
    BitsOk hon w (bits.drop n) (vs.drop n) := List.forall₂_drop n h

/-- The bits of the input from a position on -/
def From (hon : Bool) (w : Var → F) (vs : List Bool) (i : ℕ) (bits : List AllocatedBit) : Prop :=
  i ≤ vs.length ∧ BitsOk hon w bits (vs.drop i)

theorem takeScalar_holds {vs : List Bool} {i : ℕ} {bits : List AllocatedBit} (n : ℕ)
    (h : From hon w vs i bits) (hl : hon = true → i + n ≤ vs.length) :
    Holds hon w (takeScalar n bits : Prog F (AllocatedNum F × List AllocatedBit)) fun r =>
      NumIs hon w r.1 (bitsAt vs i n) ∧ From hon w vs (i + n) r.2 := by
  have hle := h.2.length_eq
  rw [List.length_drop] at hle
  refine Holds.bind (split_holds fun hh => ?_) fun r hr => ?_
  · have := hl hh; omega
  · obtain ⟨hn, rfl⟩ := hr
    refine Holds.bind (obtainScalarFromBits_holds (bitsOk_take n h.2)) fun v hv => Holds.ret ⟨hv, ?_, ?_⟩
    · have := h.1
      rw [hle] at hn
      omega
    · have := bitsOk_drop n h.2
      rwa [List.drop_drop] at this

section
variable [LawfulField F]

theorem challenge_of_bits {vs : List Bool} (h : vs.length = 128) : ∃ c : BitVec 128, vs = bitsOf c ∧
    (Util.expandChallenge c : F) = Util.getChallengeScalar (bitsValue vs : F) := by
  refine ⟨(BitVec.ofNat _ (bitsValue vs)).cast h, ?_, ?_⟩
  · apply eq_bitsOf h
    rw [BitVec.toNat_cast, BitVec.toNat_ofNat, Nat.mod_eq_of_lt (bitsValue_lt vs)]
  · rw [Util.getChallengeScalar]
    congr 1
    apply BitVec.eq_of_toNat_eq
    have hb := bitsValue_lt vs
    have hm := (LawfulField.modulus_bound (F := F)).1
    rw [h] at hb
    have hv : LawfulField.val (bitsValue vs : F) = bitsValue vs := LawfulField.val_of_lt (by
      clear * - hb hm
      have : (2 : ℕ) ^ 128 < 2 ^ 254 := by norm_num
      omega)
    rw [BitVec.toNat_cast, BitVec.toNat_ofNat, Nat.mod_eq_of_lt (bitsValue_lt vs), LawfulField.lower128_val, hv,
      Nat.mod_eq_of_lt hb]

theorem takeChallenges_holds (h1 : w one = 1) {vs : List Bool} : ∀ (k i : ℕ) (bits : List AllocatedBit),
    From hon w vs i bits → (hon = true → i + 128 * k ≤ vs.length) →
    Holds hon w (takeChallenges one k bits : Prog F (List (AllocatedNum F) × List AllocatedBit)) fun r =>
      List.Forall₂ (fun n (p : F) => NumIs hon w n (Util.getChallengeScalar p)) r.1
        ((List.range k).map fun j => bitsAt vs (i + 128 * j) 128) ∧
      From hon w vs (i + 128 * k) r.2
  | 0, i, bits, h, _ => Holds.ret ⟨.nil, h⟩
  | k + 1, i, bits, h, hl => by
    have hle := h.2.length_eq
    rw [List.length_drop] at hle
    refine Holds.bind (split_holds fun hh => ?_) fun r hr => ?_
    · have := hl hh; omega
    obtain ⟨hn, rfl⟩ := hr
    have ht := bitsOk_take 128 h.2
    obtain ⟨c, hc, hcs⟩ := challenge_of_bits (F := F) (vs := (vs.drop i).take 128) (by simp; omega)
    have hd := bitsOk_drop 128 h.2
    rw [List.drop_drop] at hd
    rw [hc] at ht
    refine Holds.bind (getChallengeScalar_holds h1 ht) fun v hv => ?_
    refine Holds.bind (takeChallenges_holds h1 k (i + 128) _ ⟨by omega, hd⟩ fun hh => ?_) fun r hr => ?_
    · have := hl hh; omega
    refine Holds.ret ⟨?_, ?_⟩
    · rw [List.range_succ_eq_map, List.map_cons, List.map_map]
      refine .cons ⟨hv.1, by rw [hv.2, hcs]; simp [bitsAt]⟩ ?_
      have : ((fun j => bitsAt vs (i + 128 * j) 128) ∘ Nat.succ : ℕ → F) =
          fun j => bitsAt vs (i + 128 + 128 * j) 128 := by
        funext j
        show bitsAt vs (i + 128 * (j + 1)) 128 = _
        congr 1
        ring
      rw [this]
      exact hr.1
    · rw [show i + 128 * (k + 1) = i + 128 + 128 * k by ring]
      exact hr.2

/-- The numbers are those of the record. -/
structure NumsAre (hon : Bool) (w : Var → F) (n : DeferredNums F) (d : Deferred F) : Prop where
  x : NumIs hon w n.x d.x
  yOld : NumIs hon w n.yOld d.yOld
  yCur : NumIs hon w n.yCur d.yCur
  yNew : NumIs hon w n.yNew d.yNew
  kyOpening : NumIs hon w n.kyOpening d.kyOpening
  txPositiveOpening : NumIs hon w n.txPositiveOpening d.txPositiveOpening
  txNegativeOpening : NumIs hon w n.txNegativeOpening d.txNegativeOpening
  sxCurOpening : NumIs hon w n.sxCurOpening d.sxCurOpening
  rxOpening : NumIs hon w n.rxOpening d.rxOpening
  rxyOpening : NumIs hon w n.rxyOpening d.rxyOpening
  challengesSqOld : List.Forall₂ (fun n (p : F) => NumIs hon w n (Util.getChallengeScalar p))
    n.challengesSqOld d.challengesSqPackedOld
  gxOldOpening : NumIs hon w n.gxOldOpening d.gxOldOpening
  challengesSqNew : List.Forall₂ (fun n (p : F) => NumIs hon w n (Util.getChallengeScalar p))
    n.challengesSqNew d.challengesSqPackedNew
  bX : NumIs hon w n.bX d.bX
  bXy : NumIs hon w n.bXy d.bXy
  bYOld : NumIs hon w n.bYOld d.bYOld
  bYCur : NumIs hon w n.bYCur d.bYCur
  bYNew : NumIs hon w n.bYNew d.bYNew

theorem unpackDeferred_holds (h1 : w one = 1) {k : ℕ} {bits : List AllocatedBit} {vs : List Bool}
    (h : BitsOk hon w bits vs) (hl : hon = true → vs.length = deferredSize k) :
    Holds hon w (unpackDeferred one k bits) fun n =>
      vs.length = deferredSize k ∧ NumsAre hon w n (deferredOf k vs) := by
  rw [deferredSize] at *
  have h0 : From hon w vs 0 bits := ⟨by omega, by simpa using h⟩
  refine Holds.bind (takeScalar_holds 128 h0 fun hh => by have := hl hh; omega) fun r1 ⟨a1, h1'⟩ => ?_
  refine Holds.bind (takeScalar_holds 128 h1' fun hh => by have := hl hh; omega) fun r2 ⟨a2, h2⟩ => ?_
  refine Holds.bind (takeScalar_holds 128 h2 fun hh => by have := hl hh; omega) fun r3 ⟨a3, h3⟩ => ?_
  refine Holds.bind (takeScalar_holds 128 h3 fun hh => by have := hl hh; omega) fun r4 ⟨a4, h4⟩ => ?_
  refine Holds.bind (takeScalar_holds 256 h4 fun hh => by have := hl hh; omega) fun r5 ⟨a5, h5⟩ => ?_
  refine Holds.bind (takeScalar_holds 256 h5 fun hh => by have := hl hh; omega) fun r6 ⟨a6, h6⟩ => ?_
  refine Holds.bind (takeScalar_holds 256 h6 fun hh => by have := hl hh; omega) fun r7 ⟨a7, h7⟩ => ?_
  refine Holds.bind (takeScalar_holds 256 h7 fun hh => by have := hl hh; omega) fun r8 ⟨a8, h8⟩ => ?_
  refine Holds.bind (takeScalar_holds 256 h8 fun hh => by have := hl hh; omega) fun r9 ⟨a9, h9⟩ => ?_
  refine Holds.bind (takeScalar_holds 256 h9 fun hh => by have := hl hh; omega) fun r10 ⟨a10, h10⟩ => ?_
  refine Holds.bind (takeChallenges_holds h1 k _ _ h10 fun hh => by have := hl hh; omega) fun r11 ⟨a11, h11⟩ => ?_
  refine Holds.bind (takeScalar_holds 256 h11 fun hh => by have := hl hh; omega) fun r12 ⟨a12, h12⟩ => ?_
  refine Holds.bind (takeChallenges_holds h1 k _ _ h12 fun hh => by have := hl hh; omega) fun r13 ⟨a13, h13⟩ => ?_
  refine Holds.bind (takeScalar_holds 256 h13 fun hh => by have := hl hh; omega) fun r14 ⟨a14, h14⟩ => ?_
  refine Holds.bind (takeScalar_holds 256 h14 fun hh => by have := hl hh; omega) fun r15 ⟨a15, h15⟩ => ?_
  refine Holds.bind (takeScalar_holds 256 h15 fun hh => by have := hl hh; omega) fun r16 ⟨a16, h16⟩ => ?_
  refine Holds.bind (takeScalar_holds 256 h16 fun hh => by have := hl hh; omega) fun r17 ⟨a17, h17⟩ => ?_
  refine Holds.bind (takeScalar_holds 256 h17 fun hh => by have := hl hh; omega) fun r18 ⟨a18, h18⟩ => ?_
  have hlen := h18.2.length_eq
  have hle := h18.1
  rw [List.length_drop] at hlen
  refine Holds.guard (fun hh => ?_) fun hc => Holds.ret ⟨?_, ?_⟩
  · have := hl hh; omega
  · omega
  · have e1 : 2048 + 128 * k + 256 = 2304 + 128 * k := by ring
    have e2 : 2304 + 128 * k + 128 * k = 2304 + 256 * k := by ring
    have e3 : 2304 + 256 * k + 256 = 2560 + 256 * k := by ring
    have e4 : 2560 + 256 * k + 256 = 2816 + 256 * k := by ring
    have e5 : 2816 + 256 * k + 256 = 3072 + 256 * k := by ring
    have e6 : 3072 + 256 * k + 256 = 3328 + 256 * k := by ring
    simp only [zero_add, Nat.reduceAdd, e1, e2, e3, e4, e5, e6] at *
    exact ⟨a1, a2, a3, a4, a5, a6, a7, a8, a9, a10, a11, a12, a13, a14, a15, a16, a17, a18⟩

end
/-! ### The relation between the openings -/

theorem NumIs.mul {n m : AllocatedNum F} {u v : F} (hn : NumIs hon w n u) (hm : NumIs hon w m v) :
    Holds hon w (n.mul m) fun r => NumIs hon w r (u * v) :=
  (AllocatedNum.mul_holds hn.1 hm.1).mono fun _ hr => ⟨hr.1, by rw [hr.2, hn.2, hm.2]⟩

theorem NumIs.invert [LawfulField F] (h1 : w one = 1) {n : AllocatedNum F} {u : F} (hn : NumIs hon w n u)
    (h0 : hon = true → u ≠ 0) :
    Holds hon w (n.invert one) fun r => u ≠ 0 ∧ NumIs hon w r u⁻¹ :=
  (AllocatedNum.invert_holds h1 hn.1 (by rwa [hn.2])).mono fun r hr => by
    rw [hn.2] at hr
    exact ⟨hr.2.1, hr.1, hr.2.2⟩

theorem squareTimes_holds {n : AllocatedNum F} {u : F} (hn : NumIs hon w n u) (m : ℕ) :
    Holds hon w (squareTimes m n) fun r => NumIs hon w r (u ^ 2 ^ m) := by
  rw [squareTimes]
  have : ∀ (l : List ℕ) (n : AllocatedNum F) (u : F), NumIs hon w n u →
      Holds hon w (foldProg (fun (x : AllocatedNum F) (_ : ℕ) => x.mul x) l n) fun r =>
        NumIs hon w r (u ^ 2 ^ l.length) := by
    intro l
    induction l with
    | nil => exact fun n u hn => Holds.ret (by simpa using hn)
    | cons a l ih =>
      intro n u hn
      refine Holds.bind (hn.mul hn) fun r hr => (ih r _ hr).mono fun r hr => ?_
      rw [List.length_cons, pow_succ', pow_mul, pow_two]
      exact hr
  simpa using this (List.range m) n u hn

/-- The combination stands for the number, and is known to honest provers. -/
def CombIs (hon : Bool) (w : Var → F) (n : Combination F) (v : F) : Prop := n.Ok hon w ∧ n.wire w = v

theorem NumIs.comb {n : AllocatedNum F} {u : F} (hn : NumIs hon w n u) :
    CombIs hon w (.ofAllocated n) u :=
  ⟨Combination.ok_ofAllocated hn.1, by rw [Combination.wire_ofAllocated, hn.2]⟩

theorem CombIs.addAllocated {a : Combination F} {n : AllocatedNum F} {u v : F} (ha : CombIs hon w a u)
    (hn : NumIs hon w n v) : CombIs hon w (a.addAllocated n) (u + v) :=
  ⟨Combination.ok_addAllocated ha.1 hn.1, by rw [Combination.wire_addAllocated, ha.2, hn.2]⟩

theorem CombIs.subAllocated {a : Combination F} {n : AllocatedNum F} {u v : F} (ha : CombIs hon w a u)
    (hn : NumIs hon w n v) : CombIs hon w (a.subAllocated n) (u - v) :=
  ⟨Combination.ok_subAllocated ha.1 hn.1, by rw [Combination.wire_subAllocated, ha.2, hn.2]⟩

theorem CombIs.add {a b : Combination F} {u v : F} (ha : CombIs hon w a u)
    (hb : CombIs hon w b v) : CombIs hon w (a.add b) (u + v) :=
  ⟨Combination.ok_add ha.1 hb.1, by rw [Combination.wire_add, ha.2, hb.2]⟩

theorem CombIs.mul (h1 : w one = 1) {a b : Combination F} {u v : F} (ha : CombIs hon w a u)
    (hb : CombIs hon w b v) : Holds hon w (a.mul one b) fun r => NumIs hon w r (u * v) :=
  (Combination.mul_holds h1 ha.1 hb.1).mono fun _ hr => ⟨hr.1, by rw [hr.2, ha.2, hb.2]⟩

theorem computeThing_holds (h1 : w one = 1) {n : AllocatedNum F} {u : F} (hn : NumIs hon w n u) (m : ℕ) :
    Holds hon w (computeThing one n m) fun r => CombIs hon w r (Proofs.computeThing u m) := by
  rw [computeThing, Proofs.computeThing]
  have : ∀ (l : List ℕ) (a : Combination F) (n : AllocatedNum F) (t : F × F), CombIs hon w a t.1 →
      NumIs hon w n t.2 →
      Holds hon w (foldProg (fun (s : Combination F × AllocatedNum F) (_ : ℕ) => do
        let tmp ← s.1.mul one (.ofAllocated s.2)
        let cur ← s.2.mul s.2
        return (s.1.addAllocated tmp, cur)) l (a, n)) fun r =>
        CombIs hon w r.1 (l.foldl (fun (s : F × F) (_ : ℕ) => (s.1 + s.1 * s.2, s.2 ^ 2)) t).1 := by
    intro l
    induction l with
    | nil => exact fun a n t ha hn => Holds.ret ha
    | cons i l ih =>
      intro a n t ha hn
      refine Holds.bind (P := fun r => CombIs hon w r.1 (t.1 + t.1 * t.2) ∧ NumIs hon w r.2 (t.2 ^ 2)) ?_
        fun r hr => ih r.1 r.2 _ hr.1 hr.2
      refine Holds.bind (ha.mul h1 hn.comb) fun tmp ht => ?_
      refine Holds.bind (hn.mul hn) fun c hc => Holds.ret ⟨ha.addAllocated ht, ?_⟩
      rw [pow_two]
      exact hc
  exact Holds.bind (this _ _ _ (u, u) hn.comb hn) fun r hr => Holds.ret hr

variable [LawfulField F]

/-- the condition that the circuit enforces -/
theorem deferredSides_holds (h1 : w one = 1) {k : ℕ} {n : DeferredNums F} {d : Deferred F}
    (hn : NumsAre hon w n d) (hh : hon = true → d.x ≠ 0 ∧ d.yCur ≠ 0 ∧ 2 ≤ k) :
    Holds hon w (deferredSides one k n) fun r => d.x ≠ 0 ∧ d.yCur ≠ 0 ∧ 2 ≤ k ∧
      NumIs hon w r.2.2 (d.x * d.yCur) ∧ ∃ lhs rhs, CombIs hon w r.1 lhs ∧ CombIs hon w r.2.1 rhs ∧
      (lhs = rhs ↔ DeferredRelation (2 ^ (k - 2)) d) := by
  refine Holds.bind (hn.x.invert h1 fun h => (hh h).1) fun xinv ⟨hx0, a1⟩ => ?_
  refine Holds.bind (hn.yCur.invert h1 fun h => (hh h).2.1) fun yinv ⟨hy0, a2⟩ => ?_
  refine Holds.bind (a1.mul a2) fun xyinv a3 => ?_
  refine Holds.bind (hn.x.mul hn.yCur) fun xy a4 => ?_
  refine Holds.bind (hn.x.mul a2) fun xInvy a5 => ?_
  refine Holds.guard (fun h => by have := hh h; omega) fun hk => ?_
  refine Holds.bind (squareTimes_holds a1 _) fun xinvn a6 => ?_
  refine Holds.bind (squareTimes_holds a6 _) fun xinvd a7 => ?_
  refine Holds.bind (squareTimes_holds hn.yCur _) fun yn a8 => ?_
  refine Holds.bind (squareTimes_holds hn.x _) fun xn a9 => ?_
  refine Holds.bind (squareTimes_holds a3 _) fun b1 a10 => ?_
  refine Holds.bind (a10.mul a10) fun b2 a11 => ?_
  refine Holds.bind (a10.mul a11) fun b3 a12 => ?_
  refine Holds.bind (a12.mul a4) fun xyinvn31 a13 => ?_
  refine Holds.bind (a6.mul a6) fun b4 a14 => ?_
  refine Holds.bind (a14.mul a6) fun b5 a15 => ?_
  refine Holds.bind (a15.mul hn.x) fun xinvn31 a16 => ?_
  refine Holds.bind (hn.txPositiveOpening.mul hn.x) fun rhs a17 => ?_
  refine Holds.bind (hn.txNegativeOpening.mul a7) fun tmp a18 => ?_
  refine Holds.bind (hn.sxCurOpening.mul a6) fun lhs a19 => ?_
  refine Holds.bind (a19.mul a8) fun lhs a20 => ?_
  refine Holds.bind (computeThing_holds h1 a4 _) fun thing a21 => ?_
  refine Holds.bind (computeThing_holds h1 a5 _) fun thing2 a22 => ?_
  refine Holds.bind ((a21.add a22).mul h1 a9.comb) fun thing3 a23 => ?_
  refine Holds.bind (hn.rxyOpening.mul a13) fun tmp a24 => ?_
  refine Holds.bind (hn.rxOpening.mul a16) fun tmp a25 => ?_
  refine Holds.bind (((a20.comb.addAllocated a24).subAllocated a23).mul h1 a25.comb) fun lhs a26 => ?_
  refine Holds.bind (hn.kyOpening.mul a8) fun ky a27 => ?_
  refine Holds.ret ⟨hx0, hy0, by omega, a4, _, _, a26.comb.subAllocated a27, a17.comb.addAllocated a18, ?_⟩
  rw [DeferredRelation, computeThing_eq, computeThing_eq]
  have h1 : 1 ≤ 2 ^ (k - 2) := Nat.one_le_two_pow
  generalize 2 ^ (k - 2) = m at *
  rw [← Finset.sum_add_distrib]
  generalize ∑ i ∈ Finset.range m, ((d.x * d.yCur) ^ (i + 1) + (d.x * d.yCur⁻¹) ^ (i + 1)) = σ
  have key : ∀ t : F, t ≠ 0 → t⁻¹ ^ m * (t⁻¹ ^ m * t⁻¹ ^ m) * t = t⁻¹ ^ (3 * m - 1) := by
    intro t ht
    obtain ⟨j, hj⟩ : ∃ j, 3 * m = j + 1 := ⟨3 * m - 1, by omega⟩
    rw [← pow_add, ← pow_add, show m + (m + m) = j + 1 by omega, hj, Nat.add_sub_cancel, pow_succ,
      mul_assoc, inv_mul_cancel₀ ht, mul_one]
  have e1 := key d.x hx0
  have e2 : (d.x⁻¹ ^ m) ^ 2 ^ 2 = d.x⁻¹ ^ (4 * m) := by
    rw [← pow_mul]; congr 1; ring
  have e3 := key (d.x * d.yCur) (mul_ne_zero hx0 hy0)
  rw [mul_inv] at e3
  rw [mul_inv, ← e3, ← e2, ← e1]
  constructor
  · intro h; linear_combination h
  · intro h; linear_combination h

/-! ### The roots and `compute_b` -/

/-- Some square roots of the scalars of packed challenges -/
def AnyRoots (packed us : List F) : Prop :=
  List.Forall₂ (fun p u => u * u = (Util.getChallengeScalar p : F)) packed us

theorem AnyRoots.ne {packed us : List F} (h : AnyRoots packed us) : ∀ u ∈ us, u ≠ 0 := by
  induction h with
  | nil => simp
  | @cons p u ps us h1 _ ih =>
    intro x hx
    rcases List.mem_cons.1 hx with rfl | hx
    · rintro rfl
      rw [mul_zero] at h1
      exact Circuit.CurvePoint.expandChallenge_ne_zero _ h1.symm
    · exact ih x hx

theorem rootsOf_holds (h1 : w one = 1) {ns : List (AllocatedNum F)} {packed : List F}
    (h : List.Forall₂ (fun n (p : F) => NumIs hon w n (Util.getChallengeScalar p)) ns packed)
    (hs : hon = true → ∀ p ∈ packed, IsSquare (Util.getChallengeScalar p : F)) :
    Holds hon w (rootsOf one ns) fun r => ∃ us, AnyRoots packed us ∧ (hon = true → Roots packed us) ∧
      List.Forall₂ (NumIs hon w) r.1 us ∧ List.Forall₂ (NumIs hon w) r.2 (us.map (·⁻¹)) := by
  have step1 : Holds hon w (mapProg (fun c => AllocatedNum.sqrt c) ns) fun rs => ∃ us,
      AnyRoots packed us ∧ (hon = true → Roots packed us) ∧ List.Forall₂ (NumIs hon w) rs us := by
    clear h1
    induction h with
    | nil => exact Holds.ret ⟨[], .nil, fun _ => .nil, .nil⟩
    | @cons n p ns ps hn _ ih =>
      refine Holds.bind (AllocatedNum.sqrt_holds hn.1 fun hh => ?_) fun r hr => ?_
      · rw [hn.2]; exact hs hh p (by simp)
      refine Holds.bind (ih fun hh q hq => hs hh q (by simp [hq])) fun rs ⟨us, a1, a2, a3⟩ => ?_
      rw [hn.2] at hr
      exact Holds.ret ⟨w r.var :: us, .cons hr.2.1 a1, fun hh => .cons (hr.2.2 hh) (a2 hh),
        .cons ⟨hr.1, rfl⟩ a3⟩
  refine Holds.bind step1 fun rs ⟨us, a1, a2, a3⟩ => ?_
  have step2 : Holds hon w (mapProg (fun c => AllocatedNum.invert one c) rs) fun is =>
      List.Forall₂ (NumIs hon w) is (us.map (·⁻¹)) := by
    have hne := a1.ne
    clear a1 a2 h hs step1
    revert hne
    clear * - a3 h1
    intro hne
    induction a3 with
    | nil => exact Holds.ret .nil
    | @cons n u ns us hn _ ih =>
      refine Holds.bind (hn.invert h1 fun _ => hne u (by simp)) fun r hr => ?_
      refine Holds.bind (ih fun v hv => hne v (by simp [hv])) fun rs h => Holds.ret (.cons hr.2 h)
  exact Holds.bind step2 fun is h => Holds.ret ⟨us, a1, a2, a3, h⟩

omit [LawfulField F] [Field F] in
theorem map_of_numIs {ns : List (AllocatedNum F)} {us : List F} (h : List.Forall₂ (NumIs hon w) ns us) :
    (ns.map fun n => w n.var) = us ∧ ∀ n ∈ ns, n.Ok hon w := by
  induction h with
  | nil => simp
  | cons h _ ih => simp [ih.1, h.2, h.1]; exact ih.2

omit [LawfulField F] in
theorem collapse_holds (h1 : w one = 1) {us : List F} {rs is : List (AllocatedNum F)} (hne : us ≠ [])
    (hr : List.Forall₂ (NumIs hon w) rs us) (hi : List.Forall₂ (NumIs hon w) is (us.map (·⁻¹)))
    {n : AllocatedNum F} {x : F} (hn : NumIs hon w n x) :
    Holds hon w (computeB one n rs is) fun r => CombIs hon w r (collapse us (x ^ ·)) := by
  obtain ⟨e1, o1⟩ := map_of_numIs hr
  obtain ⟨e2, o2⟩ := map_of_numIs hi
  have hl1 := hr.length_eq
  have hl2 := hi.length_eq
  rw [List.length_map] at hl2
  refine (computeB_holds h1 ?_ (by omega) o1 o2 hn.1).mono fun r h => ⟨h.1, ?_⟩
  · rintro rfl
    exact hne (List.length_eq_zero_iff.1 hl1.symm)
  · have := h.2
    rw [e1, e2, hn.2, Util.computeB_eq us x hne] at this
    exact (Option.some.inj this).symm

omit [LawfulField F] in
theorem enforceIs_holds (h1 : w one = 1) {a : Combination F} {n : AllocatedNum F} {u v : F}
    (ha : CombIs hon w a u) (hn : NumIs hon w n v) (h : hon = true → v = u) :
    Holds hon w (enforceIs one a n) fun _ => v = u := by
  refine (Holds.enforce fun hh => ?_).mono fun _ he => ?_
  · rw [LC.eval_subVar, Combination.eval_lc h1, ha.2, hn.2, h hh, sub_self]
  · rw [LC.eval_subVar, Combination.eval_lc h1, ha.2, hn.2, sub_eq_zero] at he
    exact he.symm

/-- What the circuit checks: the claims hold with some choice of the square roots. -/
structure LooseDeferred (k : ℕ) (d : Deferred F) : Prop where
  relation : DeferredRelation (2 ^ (k - 2)) d
  old : ∃ us, AnyRoots d.challengesSqPackedOld us ∧ d.gxOldOpening = collapse us (d.x ^ ·)
  new : ∃ us, AnyRoots d.challengesSqPackedNew us ∧ d.bX = collapse us (d.x ^ ·) ∧
    d.bXy = collapse us ((d.x * d.yCur) ^ ·) ∧ d.bYOld = collapse us (d.yOld ^ ·) ∧
    d.bYCur = collapse us (d.yCur ^ ·) ∧ d.bYNew = collapse us (d.yNew ^ ·)

theorem verifyDeferred_holds (h1 : w one = 1) {k : ℕ} {bits : List AllocatedBit} {vs : List Bool}
    (h : BitsOk hon w bits vs) (hv : hon = true → vs.length = deferredSize k ∧
      WellFormedDeferred k (deferredOf k vs : Deferred F) ∧ TrueDeferred k (deferredOf k vs : Deferred F)) :
    Holds hon w (verifyDeferred one k bits : Prog F Unit) fun _ => vs.length = deferredSize k ∧
      2 ≤ k ∧ (deferredOf k vs : Deferred F).x ≠ 0 ∧ (deferredOf k vs : Deferred F).yCur ≠ 0 ∧
      LooseDeferred k (deferredOf k vs : Deferred F) := by
  refine Holds.bind (unpackDeferred_holds h1 h fun hh => (hv hh).1) fun n ⟨hlen, hn⟩ => ?_
  have hlo : (deferredOf k vs : Deferred F).challengesSqPackedOld.length = k := by simp [deferredOf]
  have hln : (deferredOf k vs : Deferred F).challengesSqPackedNew.length = k := by simp [deferredOf]
  revert hv hn hlo hln
  generalize (deferredOf k vs : Deferred F) = d
  intro hv hn hlo hln
  refine Holds.bind (deferredSides_holds h1 hn fun hh => ⟨(hv hh).2.1.x_ne, (hv hh).2.1.y_ne, (hv hh).2.1.k_ge⟩)
    fun r ⟨hx0, hy0, hk, hxy, lhs, rhs, hl, hr, hrel⟩ => ?_
  refine Holds.bind (Holds.enforce fun hh => ?_) fun _ he => ?_
  · rw [LC.eval_subLC, Combination.eval_lc h1, Combination.eval_lc h1, hl.2, hr.2, sub_eq_zero, hrel]
    exact (hv hh).2.2.relation
  rw [LC.eval_subLC, Combination.eval_lc h1, Combination.eval_lc h1, hl.2, hr.2, sub_eq_zero, hrel] at he
  refine Holds.bind (rootsOf_holds h1 hn.challengesSqOld fun hh => (hv hh).2.1.old_sq)
    fun ro ⟨uo, o1, o2, o3, o4⟩ => ?_
  have huo : uo ≠ [] := by
    rintro rfl
    have := List.Forall₂.length_eq o1
    rw [List.length_nil] at this
    omega
  refine Holds.bind (collapse_holds h1 huo o3 o4 hn.x) fun gx hgx => ?_
  refine Holds.bind (enforceIs_holds h1 hgx hn.gxOldOpening fun hh => ?_) fun _ egx => ?_
  · obtain ⟨us, hus, e⟩ := (hv hh).2.2.old
    cases (o2 hh).unique hus
    exact e
  refine Holds.bind (rootsOf_holds h1 hn.challengesSqNew fun hh => (hv hh).2.1.new_sq)
    fun rn ⟨un, n1, n2, n3, n4⟩ => ?_
  have hun : un ≠ [] := by
    rintro rfl
    have := List.Forall₂.length_eq n1
    rw [List.length_nil] at this
    omega
  have hnew : hon = true → d.bX = collapse un (d.x ^ ·) ∧
    d.bXy = collapse un ((d.x * d.yCur) ^ ·) ∧ d.bYOld = collapse un (d.yOld ^ ·) ∧
    d.bYCur = collapse un (d.yCur ^ ·) ∧ d.bYNew = collapse un (d.yNew ^ ·) := fun hh => by
    obtain ⟨us, hus, e⟩ := (hv hh).2.2.new
    cases (n2 hh).unique hus
    exact e
  refine Holds.bind (collapse_holds h1 hun n3 n4 hn.x) fun c1 b1 => ?_
  refine Holds.bind (collapse_holds h1 hun n3 n4 hxy) fun c2 b2 => ?_
  refine Holds.bind (collapse_holds h1 hun n3 n4 hn.yOld) fun c3 b3 => ?_
  refine Holds.bind (collapse_holds h1 hun n3 n4 hn.yCur) fun c4 b4 => ?_
  refine Holds.bind (collapse_holds h1 hun n3 n4 hn.yNew) fun c5 b5 => ?_
  refine Holds.bind (enforceIs_holds h1 b1 hn.bX fun hh => (hnew hh).1) fun _ f1 => ?_
  refine Holds.bind (enforceIs_holds h1 b2 hn.bXy fun hh => (hnew hh).2.1) fun _ f2 => ?_
  refine Holds.bind (enforceIs_holds h1 b3 hn.bYOld fun hh => (hnew hh).2.2.1) fun _ f3 => ?_
  refine Holds.bind (enforceIs_holds h1 b4 hn.bYCur fun hh => (hnew hh).2.2.2.1) fun _ f4 => ?_
  refine (enforceIs_holds h1 b5 hn.bYNew fun hh => (hnew hh).2.2.2.2).mono fun _ f5 => ?_
  exact ⟨hlen, hk, hx0, hy0, he, ⟨uo, o1, egx⟩, un, n1, f1, f2, f3, f4, f5⟩

end Recursion
end Halo
