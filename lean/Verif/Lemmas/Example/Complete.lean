import Verif.Lemmas.Example.Sound
/-!
# Values that satisfy the constraints of the Bitcoin example
-/
set_option linter.unusedSectionVars false
namespace Halo
namespace Example
open Circuit Recursion
open Circuit.Sha256 (foldProg index)
variable {F : Type} [Field F] [LawfulField F] {w : Var → F} {one : Var}

theorem Complete.andThen {α : Type} {p : Prog F α} {P Q : α → Prop} (h : Complete w p P) (f : ∀ a, P a → Q a) :
    Complete w p Q := Complete.mono f h

theorem means_honest {b : Boolean} {v : Bool} (h : b.Honest w v) : b.Means w v := by
  cases b with
  | is _ => exact h.1
  | not _ => exact h.1
  | constant _ => exact h

theorem getValue_honest {b : Boolean} {v : Bool} (h : b.Honest w v) : b.getValue = some v := by
  cases b with
  | is b => exact h.2
  | not b => simp only [Boolean.getValue, h.2, Option.map_some, Bool.not_not]
  | constant _ => exact congrArg some h

theorem means_all {l : List Boolean} {vs : List Bool} (h : List.Forall₂ (Boolean.Honest w) l vs) :
    List.Forall₂ (Boolean.Means w) l vs := h.imp fun _ _ h => means_honest h

theorem knows_all {l : List Boolean} {vs : List Bool} (h : List.Forall₂ (Boolean.Honest w) l vs) : Knows l vs :=
  h.imp fun _ _ h => getValue_honest h

theorem complete_bitsToNum (h1 : w one = 1) {bits : List Boolean} {vs : List Bool}
    (h : List.Forall₂ (Boolean.Honest w) bits vs) :
    Complete w (bitsToNum one bits) fun n => w n.var = (bitsValue vs : F) := by
  have key : ∀ {l : List Boolean} {vs : List Bool}, Knows l vs → l.reverse.foldl (fun acc b => match acc, b.getValue with
      | some acc, some bit => some (acc + acc + ofBool bit)
      | _, _ => none) (some (0 : F)) = some (bitsValue vs : F) := by
    intro l vs h
    rw [List.foldl_reverse]
    induction h with
    | nil => simp [bitsValue]
    | @cons b v l vs hb _ ih =>
      rw [List.foldr_cons, ih, hb]
      simp only [bitsValue]
      push_cast
      cases v <;> simp [ofBool] <;> ring
  simp only [bitsToNum, AllocatedNum.alloc, AllocatedNum.lc, Prog.pure_eq, complete_bind, complete_doAlloc,
    complete_enforce, complete_pure, LC.eval_subLC, LC.eval_ofVar, sub_eq_zero, eval_lcFromBits h1 (means_all h)]
  exact ⟨_, congrArg orMissing (key (knows_all h)), fun x hx => ⟨hx.symm, hx⟩⟩

theorem complete_unpackPayloadBits (h1 : w one = 1) {l : List AllocatedBit} {vs : List Bool}
    (h : List.Forall₂ (AllocatedBit.Honest w) l vs) (hl : vs.length = Bitcoin.payloadBits) :
    Complete w (unpackPayloadBits one l) fun r => w r.1.var = (Bitcoin.height vs : F) ∧
      w r.2.1.var = (Bitcoin.chainWork vs : F) ∧ List.Forall₂ (Boolean.Honest w) r.2.2 (Bitcoin.header vs) := by
  have hm : List.Forall₂ (Boolean.Honest w) (l.map Boolean.is) vs := by
    rw [List.forall₂_map_left_iff]; exact h
  have hl' := hm.length_eq
  rw [Bitcoin.payloadBits] at hl
  unfold unpackPayloadBits
  generalize l.map Boolean.is = m at *
  refine Complete.bind (holds_piece (Logic.complete w) (by omega) (by omega)) ?_
  rintro _ rfl
  refine Complete.bind (holds_piece (Logic.complete w) (by omega) (by omega)) ?_
  rintro _ rfl
  refine Complete.bind (holds_piece (Logic.complete w) (by omega) (by omega)) ?_
  rintro _ rfl
  refine Complete.bind (complete_bitsToNum h1 (forall₂_take (List.forall₂_drop _ hm) _)) fun x hx => ?_
  refine Complete.bind (complete_bitsToNum h1 (forall₂_take (List.forall₂_drop _ hm) _)) fun y hy => ?_
  exact ⟨hx, hy, forall₂_take (List.forall₂_drop _ hm) _⟩

theorem complete_enforceEquality (h1 : w one = 1) {a b : List Boolean} {va vb : List Bool}
    (ha : List.Forall₂ (Boolean.Honest w) a va) (hb : List.Forall₂ (Boolean.Honest w) b vb)
    (hl : va.length = vb.length) (h : (bitsValue va : F) = bitsValue vb) :
    Complete w (enforceEquality one a b) fun _ => True := by
  unfold enforceEquality
  rw [if_neg (by rw [ha.length_eq, hb.length_eq]; simpa using hl)]
  simp only [complete_enforce, LC.eval_subLC, sub_eq_zero, eval_lcFromBits h1 (means_all ha), eval_lcFromBits h1 (means_all hb)]
  exact ⟨h, trivial⟩

/-- The bits of `nBits`, with their values -/
structure CompactBits.Honest (w : Var → F) (c : CompactBits) (p : List Bool) : Prop where
  mantissaBits : List.Forall₂ (Boolean.Honest w) c.mantissaBits (Bitcoin.field (Bitcoin.header p) 576 23)
  mantissaSignBit : c.mantissaSignBit.Honest w (Bitcoin.negative p)
  sizeBits : List.Forall₂ (Boolean.Honest w) c.sizeBits (Bitcoin.field (Bitcoin.header p) 600 8)
  mantissa : c.mantissa = mantissaBytes c.mantissaBits
  size : c.size = some (Bitcoin.size p)

theorem complete_fromHeader {p : List Bool} (hl : p.length = Bitcoin.payloadBits) (h4 : 4 ≤ Bitcoin.size p)
    {l : List Boolean} (h : List.Forall₂ (Boolean.Honest w) l (Bitcoin.header p)) :
    Complete w (CompactBits.fromHeader l) fun c => c.Honest w p := by
  have hl' := length_header hl
  have hl2 := h.length_eq
  unfold CompactBits.fromHeader
  refine Complete.bind (holds_piece (Logic.complete w) (by omega) (by omega)) ?_
  rintro _ rfl
  have hs : (Bitcoin.header p)[8 * (4 + 32 + 32 + 4) + 23]? = some (Bitcoin.negative p) := by
    rw [Bitcoin.negative, List.getD_eq_getElem?_getD]
    show (Bitcoin.header p)[599]? = _
    rw [List.getElem?_eq_getElem (by omega)]; rfl
  refine Complete.bind (holds_at (Logic.complete w) h hs) fun b hb => ?_
  refine Complete.bind (holds_piece (Logic.complete w) (by omega) (by omega)) ?_
  rintro _ rfl
  have hsb := forall₂_take (List.forall₂_drop 600 h) 8
  have hsv : sumBits ((l.drop 600).take 8) = some (Bitcoin.size p) := sumBits_eq (knows_all hsb)
  simp only []
  rw [if_neg]
  · exact ⟨forall₂_take (List.forall₂_drop _ h) _, hb, hsb, rfl, hsv⟩
  · rintro ⟨s, hs, hlt⟩
    have : some (Bitcoin.size p) = some s := hsv.symm.trans hs
    cases this
    omega

theorem complete_powStep (h1 : w one = 1) {base p : AllocatedNum F} (hb0 : base.Honest w) (hbase : w base.var = 256)
    (hp : p.Honest w) {b : Boolean} {v : Bool} (hb : b.Honest w v) :
    Complete w (powStep one base p b) fun r => r.Honest w ∧ w r.var = w p.var ^ 2 * 256 ^ (if v then 1 else 0) := by
  unfold powStep
  refine Complete.bind (AllocatedNum.mul_complete hp hp) fun sq ⟨hsq, esq⟩ => ?_
  refine Complete.bind (AllocatedNum.mul_complete hsq hb0) fun sm ⟨hsm, esm⟩ => ?_
  have hv := getValue_honest hb
  rw [AllocatedNum.Honest] at hsq hsm
  simp only [AllocatedNum.alloc, AllocatedNum.lc, Prog.pure_eq, complete_bind, complete_doAlloc, complete_doMultiply,
    complete_enforce, complete_pure, LC.eval_subLC, LC.eval_subVar, LC.eval_ofVar, sub_eq_zero,
    Boolean.eval_lc h1 (means_honest hb), hv, hsq, hsm, AllocatedNum.Honest]
  refine ⟨_, rfl, fun x hx => ?_⟩
  refine ⟨_, rfl, ?_, fun l r o hl hr ho => ⟨?_, ?_, ?_, ?_, ?_⟩⟩
  · cases v <;> simp [ofBool]
  · rw [hl]; cases v <;> simp [ofBool, Coeff.value_one]
  · rw [hr]
  · rw [ho, hx]
  · rw [hx]; rfl
  · rw [hx, esm, esq, hbase]
    cases v <;> simp only [if_true, Bool.false_eq_true, if_false] <;> ring

theorem complete_powLoop (h1 : w one = 1) {base : AllocatedNum F} (hb0 : base.Honest w) (hbase : w base.var = 256)
    {bits : List Boolean} {vs : List Bool} (h : List.Forall₂ (Boolean.Honest w) bits vs) {p : AllocatedNum F}
    (hp : p.Honest w) : Complete w (foldProg (powStep one base) bits p) fun r =>
      w r.var = w p.var ^ 2 ^ vs.length * 256 ^ bitsValue vs.reverse := by
  induction h generalizing p with
  | nil => simp [foldProg, bitsValue]
  | @cons b v bits vs hb _ ih =>
    rw [foldProg]
    refine Complete.bind (complete_powStep h1 hb0 hbase hp hb) fun r ⟨hr0, hr⟩ => ?_
    refine (ih hr0).mono fun s hs => ?_
    rw [hs, hr, List.reverse_cons, bitsValue_append, List.length_reverse, List.length_cons, pow_succ (2 : ℕ), mul_pow,
      ← pow_mul, ← pow_mul, pow_add, Nat.mul_comm 2]
    cases v
    · simp [bitsValue]
    · simp [bitsValue]; ring

theorem complete_allocBits {bit : ℕ → Except SynthesisError Bool} {n : ℕ} {ts : List Bool} (hl : ts.length = n * 8)
    (hbit : ∀ i < n * 8, bit i = .ok (ts.getD i false)) :
    Complete w (allocBits bit n) fun t => List.Forall₂ (Boolean.Honest w) t ts := by
  unfold allocBits
  refine Complete.andThen ((Logic.complete w).mapProg (P := fun i (b : Boolean) => b.Honest w (ts.getD i false)) fun i hi => ?_)
    fun bits h => ?_
  · rw [hbit i (List.mem_range.1 hi)]
    exact Complete.bind (AllocatedBit.alloc_complete _) fun b hb => hb
  · have e : ts = (List.range (n * 8)).map fun i => ts.getD i false := by
      apply List.ext_getElem
      · simp [hl]
      · intro i h1 h2
        simp [List.getD_eq_getElem?_getD, h1]
    rw [e, List.forall₂_map_right_iff]
    exact h.flip

attribute [local irreducible] allocBits

theorem zero_of_means {b : Boolean} {v : Bool} (h1 : w one = 1) (hb : b.Means w v) (h : v = false) :
    (b.lc one .one : LC F).eval w = 0 := by
  rw [Boolean.eval_lc h1 hb, h]
  rfl

theorem complete_constrain (h1 : w one = 1) {c : CompactBits} {p : List Bool} (hl : p.length = Bitcoin.payloadBits)
    (hc : c.Honest w p) (hs : Bitcoin.size p < 32) {bit : ℕ → Except SynthesisError Bool} {ts : List Bool}
    (htl : ts.length = 256) (hbit : ∀ i < 256, bit i = .ok (ts.getD i false)) (x b : F)
    (hab : (Bitcoin.mantissa p : F) * b = bitsValue ts) (hbf : b * 256 ^ 3 = x ^ 32 * 256 ^ Bitcoin.size p) :
    Complete w (c.constrain one bit x (.ok (Bitcoin.mantissa p, b, bitsValue ts))
      (.ok (b, 256 ^ 3, x ^ 32 * 256 ^ Bitcoin.size p))) fun t => List.Forall₂ (Boolean.Honest w) t ts := by
  have hl' := length_header hl
  have hsl : (Bitcoin.field (Bitcoin.header p) 600 8).length = 8 := by
    rw [Bitcoin.field, List.length_take, List.length_drop]; omega
  have hz : ∀ i, 5 ≤ i → i < 8 → (Bitcoin.field (Bitcoin.header p) 600 8)[i]? = some false := by
    intro i h5 h8
    have := testBit_bitsValue (Bitcoin.field (Bitcoin.header p) 600 8) i
    have hs' : bitsValue (Bitcoin.field (Bitcoin.header p) 600 8) < 2 ^ i :=
      lt_of_lt_of_le hs (Nat.pow_le_pow_right (n := 2) (i := 5) (by omega) h5)
    rw [Nat.testBit_lt_two_pow hs', List.getD_eq_getElem?_getD,
      List.getElem?_eq_getElem (by omega)] at this
    rw [List.getElem?_eq_getElem (by omega), this]
    rfl
  unfold CompactBits.constrain
  refine Complete.bind (complete_allocBits htl hbit) ?_
  rintro t hts
  have hsb := hc.sizeBits
  have hsm := means_all hsb
  refine Complete.bind (AllocatedNum.alloc_complete _) fun base ⟨hb0, hbase⟩ => ?_
  rw [fromU64_256] at hbase
  simp only [Prog.pure_eq, complete_bind, complete_enforce, AllocatedNum.lc, LC.eval_sub, LC.eval_ofVar, h1, mul_one,
    Coeff.value_full, sub_eq_zero, fromU64_256]
  refine ⟨hbase, ?_⟩
  rw [if_neg (by rw [hsb.length_eq, hsl]; simp)]
  refine Complete.bind (holds_at (Logic.complete w) hsm (hz 5 (by omega) (by omega))) fun b5 hb5 => ?_
  simp only [complete_bind, complete_enforce, LC.eval_subVar, LC.eval_ofVar,
    LC.eval_sub, sub_eq_zero, h1, mul_one, Coeff.value_full, fromU64_pow3, eval_lcFromBits h1 (means_all hts),
    eval_lcFromBits h1 (means_all hc.mantissaBits)]
  refine ⟨zero_of_means h1 hb5 rfl, ?_⟩
  refine Complete.andThen (holds_at (Logic.complete w) hsm (hz 6 (by omega) (by omega))) fun b6 hb6 => ?_
  refine ⟨zero_of_means h1 hb6 rfl, ?_⟩
  refine Complete.andThen (holds_at (Logic.complete w) hsm (hz 7 (by omega) (by omega))) fun b7 hb7 => ?_
  refine ⟨zero_of_means h1 hb7 rfl, ?_⟩
  refine Complete.andThen (AllocatedNum.alloc_complete x) fun first ⟨hf0, hf⟩ => ?_
  refine Complete.andThen (complete_powLoop h1 hb0 hbase (List.forall₂_drop 3 (List.rel_reverse hsb)) hf0) fun pw hpw => ?_
  obtain ⟨hs1, -⟩ := small_size hsl (hz 5 (by omega) (by omega)) (hz 6 (by omega) (by omega)) (hz 7 (by omega) (by omega))
  simp only [List.length_drop, List.length_reverse, hsl, hs1, hf] at hpw
  simp only [complete_doMultiply]
  refine ⟨_, rfl, hab, fun a b' c ha hb hc => ⟨_, rfl, hbf, fun d e f hd he hf => ⟨?_, ?_, ?_, ?_, ?_, hts⟩⟩⟩
  · rw [ha]; rfl
  · rw [hc]
  · rw [hb, hd]
  · rw [he]
  · rw [hf, hpw]; rfl

/-! ### The work -/

/-- The end of the constraints for the work -/
theorem complete_final (h1 : w one = 1) {us : List (UInt 64)} {xs : List (BitVec 64)}
    (h : List.Forall₂ (UInt.Honest w) us xs) (hl : xs.length = 8) {p : Prog F Unit} {Q : Unit → Prop}
    (hv : limbsValue xs = 2 ^ 256) (hp : Complete w p Q) : Complete w (do
      .enforce ((← index us 0).lc one)
      .enforce ((← index us 1).lc one)
      .enforce ((← index us 2).lc one)
      .enforce ((← index us 3).lc one)
      .enforce (((← index us 4).lc one).subVar one)
      .enforce ((← index us 5).lc one)
      .enforce ((← index us 6).lc one)
      .enforce ((← index us 7).lc one)
      p) Q := by
  rw [limbs_eq_twoPow256 hl] at hv
  subst hv
  have hz : ∀ {u : UInt 64}, u.Honest w 0 → (u.lc one : LC F).eval w = 0 := by
    intro u hu
    rw [UInt.eval_lc64 h1 hu.carries.1]
    exact Nat.cast_zero
  refine Complete.bind (holds_at (Logic.complete w) h (i := 0) rfl) fun u0 h0 => ?_
  simp only [complete_bind, complete_enforce, LC.eval_subVar, h1, sub_eq_zero]
  refine ⟨hz h0, Complete.andThen (holds_at (Logic.complete w) h (i := 1) rfl) fun u1 h0 => ?_⟩
  refine ⟨hz h0, Complete.andThen (holds_at (Logic.complete w) h (i := 2) rfl) fun u1 h0 => ?_⟩
  refine ⟨hz h0, Complete.andThen (holds_at (Logic.complete w) h (i := 3) rfl) fun u1 h0 => ?_⟩
  refine ⟨hz h0, Complete.andThen (holds_at (Logic.complete w) h (i := 4) rfl) fun u1 h0 => ?_⟩
  refine ⟨?_, Complete.andThen (holds_at (Logic.complete w) h (i := 5) rfl) fun u1 h0 => ?_⟩
  · rw [UInt.eval_lc64 h1 h0.carries.1]
    exact Nat.cast_one
  refine ⟨hz h0, Complete.andThen (holds_at (Logic.complete w) h (i := 6) rfl) fun u1 h0 => ?_⟩
  refine ⟨hz h0, Complete.andThen (holds_at (Logic.complete w) h (i := 7) rfl) fun u1 h0 => ?_⟩
  exact ⟨hz h0, hp⟩

theorem complete_unpackWith (h1 : w one = 1) {num : Num F} {bits : List Bool} (h : num.wire w = bitsValue bits) :
    Complete w (unpackWith one num bits) fun r => List.Forall₂ (fun b v => b.Honest w v) r bits := by
  unfold unpackWith
  refine Complete.bind (allocBits_complete _) fun r hr => ?_
  simp only [Prog.pure_eq, complete_bind, complete_enforce, LC.eval_subLC, Num.eval_lc h1, sub_eq_zero, complete_pure,
    eval_packBits (hr.imp fun _ _ h => h.1), h]
  exact ⟨trivial, hr⟩

theorem complete_workBy (h1 : w one = 1) {t : List Boolean} {ts : List Bool}
    (ht : List.Forall₂ (Boolean.Honest w) t ts) (htl : ts.length = 256) {p c : AllocatedNum F}
    {unpackW unpackR : AllocatedNum F → Prog F (List AllocatedBit)} {wv rv : List Bool}
    (hwl : wv.length = 256) (hrl : rv.length = 256)
    (hW : ∀ n : AllocatedNum F, n.Honest w → w n.var = bitsValue wv → Complete w (unpackW n) fun r =>
      List.Forall₂ (fun b v => b.Honest w v) r wv)
    (hR : ∀ n : AllocatedNum F, n.Honest w → w n.var = bitsValue rv → Complete w (unpackR n) fun r =>
      List.Forall₂ (fun b v => b.Honest w v) r rv)
    (he : (2 * (bitsValue ts / 2) + 1) * bitsValue wv + bitsValue rv = 2 ^ 256)
    (hc : w c.var = w p.var + bitsValue wv) :
    Complete w (workBy unpackW unpackR one t p c (.ok (bitsValue wv)) (.ok (bitsValue rv))) fun _ => True := by
  have hmap : ∀ {l : List AllocatedBit} {vs : List Bool}, List.Forall₂ (fun b v => b.Honest w v) l vs →
      List.Forall₂ (Boolean.Honest w) (l.map Boolean.is) vs := by
    intro l vs h
    rw [List.forall₂_map_left_iff]
    exact h
  unfold workBy
  refine Complete.bind (holds_limbs (LimbLogic.complete h1) (.cons rfl (List.forall₂_drop 1 ht)) (vs := true :: ts.drop 1)
    (by simp [htl])) fun tl ⟨txs, h1t, h2t, h3t⟩ => ?_
  rw [bitsValue_drop_one (by rintro rfl; simp at htl)] at h3t
  refine Complete.bind (AllocatedNum.alloc_complete _) fun bw ⟨hbw0, hbw⟩ => ?_
  refine Complete.bind (hW bw hbw0 hbw) fun wb hwb => ?_
  refine Complete.bind (holds_limbs (LimbLogic.complete h1) (hmap hwb) hwl) fun wl ⟨wxs, h1w, h2w, h3w⟩ => ?_
  refine Complete.bind (AllocatedNum.alloc_complete _) fun rm ⟨hrm0, hrm⟩ => ?_
  refine Complete.bind (hR rm hrm0 hrm) fun rb hrb => ?_
  refine Complete.bind (holds_limbs (LimbLogic.complete h1) (hmap hrb) hrl) fun rl ⟨rxs, h1r, h2r, h3r⟩ => ?_
  refine Complete.bind (holds_product (LimbLogic.complete h1) h1t h2t h1w h2w h1r h2r) fun us ⟨ys, hus, hys, hval⟩ => ?_
  rw [h3t, h3w, h3r, he] at hval
  refine complete_final h1 hus hys hval ?_
  simp only [complete_enforce, AllocatedNum.lc, LC.eval_subLC, LC.eval_ofVar, hc, hbw]
  exact ⟨by ring, trivial⟩

/-! ### The whole circuit with values of our choice -/

theorem complete_bitcoinBy (h1 : w one = 1) {old new : List AllocatedBit} {vo vn : List Bool}
    (ho : List.Forall₂ (AllocatedBit.Honest w) old vo) (hn : List.Forall₂ (AllocatedBit.Honest w) new vn)
    (hlo : vo.length = Bitcoin.payloadBits) (hln : vn.length = Bitcoin.payloadBits)
    {rest : List Boolean → AllocatedNum F → AllocatedNum F → Prog F Unit}
    (hh : Bitcoin.height vn = Bitcoin.height vo + 1)
    (hp : (bitsValue (Bitcoin.prevHash vn) : F) = bitsValue (Bitcoin.hash (Bitcoin.header vo)))
    (hr : ∀ (l : List Boolean) (p c : AllocatedNum F), List.Forall₂ (Boolean.Honest w) l (Bitcoin.header vn) →
      w p.var = (Bitcoin.chainWork vo : F) → w c.var = (Bitcoin.chainWork vn : F) → Complete w (rest l p c) fun _ => True) :
    Complete w (bitcoinBy rest one old new) fun _ => True := by
  unfold bitcoinBy
  refine Complete.bind (complete_unpackPayloadBits h1 ho hlo) ?_
  rintro ⟨ph, pw, pb⟩ ⟨hph, hpw, hpb⟩
  refine Complete.bind (complete_unpackPayloadBits h1 hn hln) ?_
  rintro ⟨nh, nw, nb⟩ ⟨hnh, hnw, hnb⟩
  simp only at hph hpw hpb hnh hnw hnb ⊢
  simp only [complete_bind, complete_enforce, AllocatedNum.lc, LC.eval_subLC, LC.eval_subVar, LC.eval_ofVar, h1, hnh, hph]
  refine ⟨by rw [hh]; push_cast; ring, ?_⟩
  refine Complete.andThen (holds_sha256d (WordLogic.complete h1) hpb (by rw [length_header hlo])) fun d hd => ?_
  have hlen := hnb.length_eq
  rw [length_header hln] at hlen
  refine Complete.andThen (holds_piece (Logic.complete w) (by omega) (by omega)) ?_
  rintro _ rfl
  refine Complete.andThen (complete_enforceEquality h1 (forall₂_take (List.forall₂_drop 32 hnb) 256) hd ?_ hp) fun _ _ => ?_
  · rw [length_bitcoinHash, List.length_take, List.length_drop, length_header hln]
    rfl
  refine Complete.andThen (holds_sha256d (WordLogic.complete h1) hnb (by rw [length_header hln])) fun _ _ => ?_
  exact hr nb pw nw hnb hpw hnw

theorem complete_bitcoinWith (h1 : w one = 1) {old new : List AllocatedBit} {vo vn : List Bool}
    (ho : List.Forall₂ (AllocatedBit.Honest w) old vo) (hn : List.Forall₂ (AllocatedBit.Honest w) new vn)
    (hlo : vo.length = Bitcoin.payloadBits) (hln : vn.length = Bitcoin.payloadBits)
    (hh : Bitcoin.height vn = Bitcoin.height vo + 1)
    (hp : (bitsValue (Bitcoin.prevHash vn) : F) = bitsValue (Bitcoin.hash (Bitcoin.header vo)))
    (hneg : Bitcoin.negative vn = false) (h4 : 4 ≤ Bitcoin.size vn) (h32 : Bitcoin.size vn < 32)
    {ts wv rv : List Bool} (htl : ts.length = 256) (hwl : wv.length = 256) (hrl : rv.length = 256) {x b : F}
    (hab : (Bitcoin.mantissa vn : F) * b = bitsValue ts) (hbf : b * 256 ^ 3 = x ^ 32 * 256 ^ Bitcoin.size vn)
    (he : (2 * (bitsValue ts / 2) + 1) * bitsValue wv + bitsValue rv = 2 ^ 256)
    (hcw : (Bitcoin.chainWork vn : F) = Bitcoin.chainWork vo + bitsValue wv) :
    Complete w (bitcoinWith vn ts x b wv rv one old new) fun _ => True := by
  unfold bitcoinWith
  refine complete_bitcoinBy h1 ho hn hlo hln hh hp fun l p c hl hpv hcv => ?_
  refine Complete.bind (complete_fromHeader hln h4 hl) fun cb hcb => ?_
  refine Complete.bind (P := fun r => List.Forall₂ (Boolean.Honest w) r.1 ts) ?_ ?_
  · unfold CompactBits.unpackBy
    simp only [complete_bind, complete_enforce]
    refine ⟨zero_of_means h1 (means_honest hcb.mantissaSignBit) hneg, ?_⟩
    exact Complete.andThen (complete_constrain h1 hln hcb h32 htl (fun _ _ => rfl) x b hab hbf) fun t ht => ht
  rintro ⟨t, _⟩ ht
  refine complete_workBy h1 ht htl hwl hrl ?_ ?_ he (by rw [hcv, hpv, hcw])
  · intro n _ hn
    exact complete_unpackWith h1 (by rw [Num.wire_ofAllocated, hn])
  · intro n _ hn
    exact complete_unpackWith h1 (by rw [Num.wire_ofAllocated, hn])

end Example
end Halo
