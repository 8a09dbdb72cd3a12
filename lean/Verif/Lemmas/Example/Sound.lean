import Verif.Lemmas.Example.Mul
/-!
# What the constraints of the Bitcoin example enforce
-/
set_option linter.unusedSectionVars false
namespace Halo
namespace Example
open Circuit Recursion
open Circuit.Sha256 (foldProg index)
variable {F : Type} [Field F] [LawfulField F] {w : Var → F} {one : Var}

/-! ### Pieces that are the same for soundness and completeness -/

theorem Sound.andThen {α : Type} {p : Prog F α} {P Q : α → Prop} (h : Sound w p P) (f : ∀ a, P a → Q a) : Sound w p Q :=
  Sound.mono f h

theorem length_hash (m : List Bool) : (Fips180.hash m).length = 256 := by
  rw [Fips180.hash, List.length_flatMap]
  generalize ((Fips180.pieces 512 (Fips180.pad m)).foldl (fun h block => Fips180.compress h (Fips180.words block)) Fips180.start) = v
  have : v.toList.map (fun a => (Fips180.bits a).length) = v.toList.map fun _ => 32 :=
    List.map_congr_left fun p _ => by simp [Fips180.bits]
  rw [this, List.map_const', List.sum_replicate, Fips180.Vars.toList]
  simp

theorem holds_piece (L : Logic F) {α : Type} {l : List α} {a b : ℕ} (hab : a ≤ b) (hb : b ≤ l.length) :
    L.holds (slice l a b : Prog F _) fun r => (l.drop a).take (b - a) = r := by
  rw [slice, if_pos ⟨hab, hb⟩]
  exact L.ret (by rw [← List.drop_take])

theorem holds_at (L : Logic F) {α β : Type} {R : α → β → Prop} {us : List α} {xs : List β} (h : List.Forall₂ R us xs)
    {i : ℕ} {x : β} (hx : xs[i]? = some x) : L.holds (index us i : Prog F _) fun u => R u x := by
  have hl := h.length_eq
  obtain ⟨hi, rfl⟩ := List.getElem?_eq_some_iff.1 hx
  rw [index]
  refine L.orPanic (List.getElem?_eq_getElem (by omega)) ?_
  exact (List.forall₂_iff_get.1 h).2 i (by omega) hi

theorem flip_rel {R : Boolean → Bool → Prop} {l : List Boolean} {vs : List Bool} (h : List.Forall₂ R l vs)
    (h8 : vs.length % 8 = 0) : List.Forall₂ R (flipBytes l) (Bitcoin.flip vs) := by
  have hl := h.length_eq
  rw [flipBytes, Bitcoin.flip, Sha256.chunks_eq_pieces (by omega) (by omega)]
  exact List.rel_flatMap (Sha256.forall₂_pieces h 8) fun _ _ h => List.rel_reverse h

theorem length_flip {vs : List Bool} (h8 : vs.length % 8 = 0) : (Bitcoin.flip vs).length = vs.length := by
  have := length_flipBytes h8
  rwa [flipBytes, Sha256.chunks_eq_pieces (by omega) h8] at this

theorem holds_sha256d (W : WordLogic F one) {l : List Boolean} {vs : List Bool} (h : List.Forall₂ W.B l vs)
    (h8 : vs.length % 8 = 0) : W.holds (sha256d one l) fun r => List.Forall₂ W.B r (Bitcoin.hash vs) := by
  unfold sha256d
  refine W.bind (Sha256.holds_sha256 W (flip_rel h h8) (by rw [length_flip h8]; exact h8)) fun m hm => ?_
  refine W.bind (Sha256.holds_sha256 W hm (by rw [length_hash])) fun r hr => W.ret ?_
  exact flip_rel hr (by rw [length_hash])

theorem length_bitcoinHash (vs : List Bool) : (Bitcoin.hash vs).length = 256 := by
  rw [Bitcoin.hash, length_flip, length_hash]
  rw [length_hash]

theorem eval_lcFromBits (h1 : w one = 1) {bits : List Boolean} {vs : List Bool}
    (h : List.Forall₂ (Boolean.Means w) bits vs) : (lcFromBits one bits : LC F).eval w = (bitsValue vs : F) := by
  have := eval_addBits h1 h LC.zero
  rw [LC.eval_zero, zero_add] at this
  exact this

theorem bitsValue_drop_one {vs : List Bool} (h : vs ≠ []) :
    bitsValue (true :: vs.drop 1) = 2 * (bitsValue vs / 2) + 1 := by
  cases vs with
  | nil => exact (h rfl).elim
  | cons v vs =>
    simp only [List.drop_succ_cons, List.drop_zero, bitsValue]
    cases v <;> simp <;> omega

/-! ### Soundness -/

theorem sound_bitsToNum (h1 : w one = 1) {bits : List Boolean} {vs : List Bool}
    (h : List.Forall₂ (Boolean.Means w) bits vs) :
    Sound w (bitsToNum one bits) fun n => w n.var = (bitsValue vs : F) := by
  simp only [bitsToNum, AllocatedNum.alloc, AllocatedNum.lc, Prog.pure_eq, sound_bind, sound_doAlloc, sound_enforce, sound_pure, LC.eval_subLC,
    LC.eval_ofVar, sub_eq_zero, eval_lcFromBits h1 h]
  exact fun _ _ h => h.symm

theorem sound_unpackPayloadBits (h1 : w one = 1) {l : List AllocatedBit} {vs : List Bool}
    (h : List.Forall₂ (AllocatedBit.Means w) l vs) (hl : vs.length = Bitcoin.payloadBits) :
    Sound w (unpackPayloadBits one l) fun r => w r.1.var = (Bitcoin.height vs : F) ∧
      w r.2.1.var = (Bitcoin.chainWork vs : F) ∧ List.Forall₂ (Boolean.Means w) r.2.2 (Bitcoin.header vs) := by
  have hm : List.Forall₂ (Boolean.Means w) (l.map Boolean.is) vs := by
    rw [List.forall₂_map_left_iff]; exact h
  have hl' := hm.length_eq
  rw [Bitcoin.payloadBits] at hl
  unfold unpackPayloadBits
  generalize l.map Boolean.is = m at *
  refine Sound.bind (holds_piece (Logic.sound w) (by omega) (by omega)) ?_
  rintro _ rfl
  refine Sound.bind (holds_piece (Logic.sound w) (by omega) (by omega)) ?_
  rintro _ rfl
  refine Sound.bind (holds_piece (Logic.sound w) (by omega) (by omega)) ?_
  rintro _ rfl
  refine Sound.bind (sound_bitsToNum h1 (forall₂_take (List.forall₂_drop _ hm) _)) fun x hx => ?_
  refine Sound.bind (sound_bitsToNum h1 (forall₂_take (List.forall₂_drop _ hm) _)) fun y hy => ?_
  exact ⟨hx, hy, forall₂_take (List.forall₂_drop _ hm) _⟩

theorem sound_enforceEquality (h1 : w one = 1) {a b : List Boolean} {va vb : List Bool}
    (ha : List.Forall₂ (Boolean.Means w) a va) (hb : List.Forall₂ (Boolean.Means w) b vb) :
    Sound w (enforceEquality one a b) fun _ => (bitsValue va : F) = bitsValue vb := by
  unfold enforceEquality
  split
  · trivial
  · simp only [sound_enforce, LC.eval_subLC, sub_eq_zero, eval_lcFromBits h1 ha, eval_lcFromBits h1 hb]
    exact id

/-- The bits of `nBits` -/
structure CompactBits.Means (w : Var → F) (c : CompactBits) (p : List Bool) : Prop where
  mantissaBits : List.Forall₂ (Boolean.Means w) c.mantissaBits (Bitcoin.field (Bitcoin.header p) 576 23)
  mantissaSignBit : c.mantissaSignBit.Means w (Bitcoin.negative p)
  sizeBits : List.Forall₂ (Boolean.Means w) c.sizeBits (Bitcoin.field (Bitcoin.header p) 600 8)

theorem length_header {p : List Bool} (hl : p.length = Bitcoin.payloadBits) : (Bitcoin.header p).length = 640 := by
  rw [Bitcoin.header, Bitcoin.field, List.length_take, List.length_drop, hl]; rfl

theorem sound_fromHeader {p : List Bool} (hl : p.length = Bitcoin.payloadBits) {l : List Boolean}
    (h : List.Forall₂ (Boolean.Means w) l (Bitcoin.header p)) :
    Sound w (CompactBits.fromHeader l) fun c => c.Means w p := by
  have hl' := length_header hl
  have hl2 := h.length_eq
  unfold CompactBits.fromHeader
  refine Sound.bind (holds_piece (Logic.sound w) (by omega) (by omega)) ?_
  rintro _ rfl
  have hs : (Bitcoin.header p)[8 * (4 + 32 + 32 + 4) + 23]? = some (Bitcoin.negative p) := by
    rw [Bitcoin.negative, List.getD_eq_getElem?_getD]
    show (Bitcoin.header p)[599]? = _
    rw [List.getElem?_eq_getElem (by omega)]; rfl
  refine Sound.bind (holds_at (Logic.sound w) h hs) fun b hb => ?_
  refine Sound.bind (holds_piece (Logic.sound w) (by omega) (by omega)) ?_
  rintro _ rfl
  simp only []
  split
  · trivial
  · exact ⟨forall₂_take (List.forall₂_drop _ h) _, hb, forall₂_take (List.forall₂_drop _ h) _⟩

theorem sound_powStep (h1 : w one = 1) {base p : AllocatedNum F} (hbase : w base.var = 256) {b : Boolean} {v : Bool}
    (hb : b.Means w v) : Sound w (powStep one base p b) fun r => w r.var = w p.var ^ 2 * 256 ^ (if v then 1 else 0) := by
  unfold powStep
  refine Sound.bind (AllocatedNum.mul_sound _ _) fun sq hsq => ?_
  refine Sound.bind (AllocatedNum.mul_sound _ _) fun sm hsm => ?_
  simp only [AllocatedNum.alloc, AllocatedNum.lc, Prog.pure_eq, sound_bind, sound_doAlloc, sound_doMultiply, sound_enforce, sound_pure,
    LC.eval_subLC, LC.eval_subVar, LC.eval_ofVar, sub_eq_zero, Boolean.eval_lc h1 hb]
  intro x _ l r o _ hg e1 e2 e3
  have hx : w x = w sq.var + w l * (w sm.var - w sq.var) := by rw [e2, hg, ← e3]; ring
  rw [hx, ← e1, hsm, hsq, hbase]
  cases v <;> simp only [Coeff.value_one, if_true, Bool.false_eq_true, if_false] <;> ring

theorem sound_powLoop (h1 : w one = 1) {base : AllocatedNum F} (hbase : w base.var = 256) {bits : List Boolean}
    {vs : List Bool} (h : List.Forall₂ (Boolean.Means w) bits vs) (p : AllocatedNum F) :
    Sound w (foldProg (powStep one base) bits p) fun r =>
      w r.var = w p.var ^ 2 ^ vs.length * 256 ^ bitsValue vs.reverse := by
  induction h generalizing p with
  | nil => simp [foldProg, bitsValue]
  | @cons b v bits vs hb _ ih =>
    rw [foldProg]
    refine Sound.bind (sound_powStep h1 hbase hb) fun r hr => ?_
    refine (ih r).mono fun s hs => ?_
    rw [hs, hr, List.reverse_cons, bitsValue_append, List.length_reverse, List.length_cons, pow_succ (2 : ℕ), mul_pow,
      ← pow_mul, ← pow_mul, pow_add, Nat.mul_comm 2]
    cases v
    · simp [bitsValue]
    · simp [bitsValue]; ring

/-- Eight bits of which the last three are zero -/
theorem small_size {vs : List Bool} (hl : vs.length = 8) (h5 : vs[5]? = some false) (h6 : vs[6]? = some false)
    (h7 : vs[7]? = some false) : bitsValue (vs.reverse.drop 3).reverse = bitsValue vs ∧ bitsValue vs < 32 := by
  match vs, hl with
  | [a, b, c, d, e, f, g, h], _ =>
    simp only [List.getElem?_cons_succ, List.getElem?_cons_zero, Option.some.injEq] at h5 h6 h7
    subst h5 h6 h7
    revert a b c d e
    decide

theorem means_of_zero {b : Boolean} {v : Bool} (h1 : w one = 1) (hb : b.Means w v) (h : (b.lc one .one : LC F).eval w = 0) :
    v = false := by
  rw [Boolean.eval_lc h1 hb] at h
  cases v
  · rfl
  · simp [Coeff.value_one] at h

theorem fromU64_256 : (FieldApi.fromU64 256 : F) = 256 := by
  rw [LawfulField.fromU64_eq]
  have : BitVec.toNat (256 : BitVec 64) = 256 := rfl
  rw [this]; norm_num

theorem fromU64_pow3 : (FieldApi.fromU64 0x01000000 : F) = 256 ^ 3 := by
  rw [LawfulField.fromU64_eq]
  have : BitVec.toNat (0x01000000 : BitVec 64) = 256 ^ 3 := rfl
  rw [this]; norm_num

theorem sound_allocBits (bit : ℕ → Except SynthesisError Bool) (n : ℕ) :
    Sound w (allocBits bit n) fun t => ∃ ts : List Bool, List.Forall₂ (Boolean.Means w) t ts ∧ ts.length = n * 8 := by
  unfold allocBits
  refine Sound.andThen ((Logic.sound w).mapProg (P := fun _ (b : Boolean) => ∃ v, b.Means w v) fun i _ => ?_)
    fun bits h => ?_
  · exact Sound.bind (AllocatedBit.alloc_sound _) fun b hb => hb
  · have : ∀ {xs : List ℕ} {bits : List Boolean}, List.Forall₂ (fun _ (b : Boolean) => ∃ v, b.Means w v) xs bits →
        ∃ ts : List Bool, List.Forall₂ (Boolean.Means w) bits ts ∧ ts.length = xs.length := by
      intro xs bits h
      induction h with
      | nil => exact ⟨[], .nil, rfl⟩
      | cons hb _ ih =>
        obtain ⟨v, hv⟩ := hb
        obtain ⟨vs, hvs, hl⟩ := ih
        exact ⟨v :: vs, .cons hv hvs, by simp [hl]⟩
    obtain ⟨ts, a, b⟩ := this h
    exact ⟨ts, a, b.trans List.length_range⟩

attribute [local irreducible] allocBits

theorem sound_constrain (h1 : w one = 1) {c : CompactBits} {p : List Bool} (hl : p.length = Bitcoin.payloadBits)
    (hc : c.Means w p) (bit : ℕ → Except SynthesisError Bool) (first : F)
    (product power : Except SynthesisError (F × F × F)) :
    Sound w (c.constrain one bit first product power) fun t => ∃ ts : List Bool,
      List.Forall₂ (Boolean.Means w) t ts ∧ ts.length = 256 ∧ Bitcoin.size p < 32 ∧
      ∃ x : F, (bitsValue ts : F) * 256 ^ 3 = Bitcoin.mantissa p * (x ^ 32 * 256 ^ Bitcoin.size p) := by
  have hl' := length_header hl
  have hsl : (Bitcoin.field (Bitcoin.header p) 600 8).length = 8 := by
    rw [Bitcoin.field, List.length_take, List.length_drop]; omega
  unfold CompactBits.constrain
  refine Sound.bind (sound_allocBits bit 32) ?_
  rintro t ⟨ts, hts, htl⟩
  have hsb := hc.sizeBits
  obtain ⟨v5, e5⟩ : ∃ v, (Bitcoin.field (Bitcoin.header p) 600 8)[5]? = some v := ⟨_, List.getElem?_eq_getElem (by omega)⟩
  obtain ⟨v6, e6⟩ : ∃ v, (Bitcoin.field (Bitcoin.header p) 600 8)[6]? = some v := ⟨_, List.getElem?_eq_getElem (by omega)⟩
  obtain ⟨v7, e7⟩ : ∃ v, (Bitcoin.field (Bitcoin.header p) 600 8)[7]? = some v := ⟨_, List.getElem?_eq_getElem (by omega)⟩
  rw [AllocatedNum.alloc]
  simp only [Prog.pure_eq, sound_bind, sound_enforce, AllocatedNum.lc, LC.eval_sub, LC.eval_ofVar, h1, mul_one, Coeff.value_full, sub_eq_zero, fromU64_256]
  intro base _ hbase
  split
  · trivial
  refine Sound.bind (holds_at (Logic.sound w) hsb e5) fun b5 hb5 => ?_
  simp only [sound_bind, sound_enforce, sound_doAlloc, sound_pure, sound_doMultiply, LC.eval_subVar, LC.eval_ofVar,
    LC.eval_sub, sub_eq_zero, h1, mul_one, Coeff.value_full, fromU64_pow3,
    eval_lcFromBits h1 hts, eval_lcFromBits h1 hc.mantissaBits]
  intro z5
  refine Sound.andThen (holds_at (Logic.sound w) hsb e6) fun b6 hb6 => ?_
  intro z6
  refine Sound.andThen (holds_at (Logic.sound w) hsb e7) fun b7 hb7 => ?_
  intro z7 x _
  obtain ⟨hs1, hs2⟩ := small_size hsl (means_of_zero h1 hb5 z5 ▸ e5) (means_of_zero h1 hb6 z6 ▸ e6)
    (means_of_zero h1 hb7 z7 ▸ e7)
  refine Sound.andThen (sound_powLoop h1 (base := ⟨_, base⟩) hbase (List.forall₂_drop 3 (List.rel_reverse hsb)) _)
    fun pw hpw => ?_
  simp only [List.length_drop, List.length_reverse, hsl, hs1] at hpw
  intro a b c _ g1 d e f _ g2 k1 k2 k3 k4 k5
  refine ⟨ts, hts, htl, hs2, w x, ?_⟩
  rw [k2, ← g1, ← k1, k3]
  have : w d * 256 ^ 3 = w f := by rw [← g2, k4]
  rw [mul_assoc, this, ← k5, hpw]
  rfl

theorem sound_unpack (h1 : w one = 1) {c : CompactBits} {p : List Bool} (hl : p.length = Bitcoin.payloadBits)
    (hc : c.Means w p) : Sound w (c.unpack one) fun r => Bitcoin.negative p = false ∧ ∃ ts : List Bool,
      List.Forall₂ (Boolean.Means w) r.1 ts ∧ ts.length = 256 ∧ Bitcoin.size p < 32 ∧
      ∃ x : F, (bitsValue ts : F) * 256 ^ 3 = Bitcoin.mantissa p * (x ^ 32 * 256 ^ Bitcoin.size p) := by
  unfold CompactBits.unpack
  simp only [Prog.pure_eq, sound_bind, sound_enforce]
  intro h
  have h0 := means_of_zero h1 hc.mantissaSignBit h
  have key := fun tv : Option (List ℕ) => sound_constrain h1 hl hc (bitOfBytes tv) 1 (c.productValues tv) c.powerValues
  refine Sound.anyway _ ?_
  intro tv
  exact Sound.andThen (key tv) fun t ht => ⟨h0, ht⟩

/-- What the gates after the multiplication say -/
theorem sound_final (h1 : w one = 1) {us : List (UInt 64)} {xs : List (BitVec 64)}
    (h : List.Forall₂ (UInt.Carries w) us xs) (hl : xs.length = 8) {p : Prog F Unit} {Q : Unit → Prop}
    (hp : limbsValue xs = 2 ^ 256 → Sound w p Q) : Sound w (do
      .enforce ((← index us 0).lc one)
      .enforce ((← index us 1).lc one)
      .enforce ((← index us 2).lc one)
      .enforce ((← index us 3).lc one)
      .enforce (((← index us 4).lc one).subVar one)
      .enforce ((← index us 5).lc one)
      .enforce ((← index us 6).lc one)
      .enforce ((← index us 7).lc one)
      p) Q := by
  have hz : ∀ {u : UInt 64} {x : BitVec 64} {n : ℕ}, u.Carries w x → n < 2 ^ 64 → (u.lc one : LC F).eval w = n →
      x = BitVec.ofNat 64 n := by
    intro u x n hu hn h
    rw [UInt.eval_lc64 h1 hu.1] at h
    have := UInt.cast_inj_of_lt (F := F) (lt_of_lt_of_le x.isLt (by norm_num)) (lt_of_lt_of_le hn (by norm_num)) h
    exact BitVec.eq_of_toNat_eq (by rw [this, BitVec.toNat_ofNat, Nat.mod_eq_of_lt hn])
  match xs, hl with
  | [x0, x1, x2, x3, x4, x5, x6, x7], _ =>
    rw [limbs_eq_twoPow256 rfl] at hp
    refine Sound.bind (holds_at (Logic.sound w) h (i := 0) rfl) fun u0 h0 => ?_
    simp only [sound_bind, sound_enforce, LC.eval_subVar, h1, sub_eq_zero]; intro e0
    refine Sound.andThen (holds_at (Logic.sound w) h (i := 1) rfl) fun u1 h1' => ?_
    intro e1
    refine Sound.andThen (holds_at (Logic.sound w) h (i := 2) rfl) fun u2 h2 => ?_
    intro e2
    refine Sound.andThen (holds_at (Logic.sound w) h (i := 3) rfl) fun u3 h3 => ?_
    intro e3
    refine Sound.andThen (holds_at (Logic.sound w) h (i := 4) rfl) fun u4 h4 => ?_
    intro e4
    refine Sound.andThen (holds_at (Logic.sound w) h (i := 5) rfl) fun u5 h5 => ?_
    intro e5
    refine Sound.andThen (holds_at (Logic.sound w) h (i := 6) rfl) fun u6 h6 => ?_
    intro e6
    refine Sound.andThen (holds_at (Logic.sound w) h (i := 7) rfl) fun u7 h7 => ?_
    intro e7
    apply hp
    rw [hz (n := 0) h0 (by norm_num) (by simpa using e0), hz (n := 0) h1' (by norm_num) (by simpa using e1),
      hz (n := 0) h2 (by norm_num) (by simpa using e2), hz (n := 0) h3 (by norm_num) (by simpa using e3),
      hz (n := 1) h4 (by norm_num) (by simpa using e4), hz (n := 0) h5 (by norm_num) (by simpa using e5),
      hz (n := 0) h6 (by norm_num) (by simpa using e6), hz (n := 0) h7 (by norm_num) (by simpa using e7)]
    rfl

theorem sound_constrainWork (h1 : w one = 1) {t : List Boolean} {ts : List Bool}
    (ht : List.Forall₂ (Boolean.Means w) t ts) (htl : ts.length = 256) (p c : AllocatedNum F)
    (work rem : Except SynthesisError F) :
    Sound w (constrainWork one t p c work rem) fun _ => ∃ k r : ℕ, k < 2 ^ 256 ∧ r < 2 ^ 256 ∧
      (2 * (bitsValue ts / 2) + 1) * k + r = 2 ^ 256 ∧ w c.var = w p.var + k := by
  have L := LimbLogic.sound h1
  have hmap : ∀ {l : List AllocatedBit} {vs : List Bool}, List.Forall₂ (fun b v => b.Means w v) l vs →
      List.Forall₂ (Boolean.Means w) (l.map Boolean.is) vs := by
    intro l vs h
    rw [List.forall₂_map_left_iff]
    exact h
  unfold constrainWork
  refine Sound.bind (holds_limbs (LimbLogic.sound h1) (.cons rfl (List.forall₂_drop 1 ht)) (vs := true :: ts.drop 1)
    (by simp [htl])) fun tl ⟨txs, h1t, h2t, h3t⟩ => ?_
  rw [bitsValue_drop_one (by rintro rfl; simp at htl)] at h3t
  simp only [AllocatedNum.alloc, Prog.pure_eq, sound_bind, sound_doAlloc, sound_pure]
  intro bw _
  refine (unpackFe_sound h1 _).mono fun wb ⟨wvs, hwb, hwl, hwv⟩ => ?_
  refine Sound.andThen (holds_limbs (LimbLogic.sound h1) (hmap hwb) hwl) fun wl ⟨wxs, h1w, h2w, h3w⟩ => ?_
  intro rm _
  refine (unpackFe_sound h1 _).mono fun rb ⟨rvs, hrb, hrl, hrv⟩ => ?_
  refine Sound.andThen (holds_limbs (LimbLogic.sound h1) (hmap hrb) hrl) fun rl ⟨rxs, h1r, h2r, h3r⟩ => ?_
  refine Sound.andThen (holds_product (LimbLogic.sound h1) h1t h2t h1w h2w h1r h2r) fun us ⟨ys, hus, hys, hval⟩ => ?_
  rw [h3t, h3w, h3r] at hval
  have fin := sound_final h1 hus hys (p := .enforce ((c.lc.subLC p.lc).subLC (AllocatedNum.lc ⟨work.toOption, bw⟩)))
    (Q := fun _ => ∃ k r : ℕ, k < 2 ^ 256 ∧ r < 2 ^ 256 ∧
      (2 * (bitsValue ts / 2) + 1) * k + r = 2 ^ 256 ∧ w c.var = w p.var + k) fun h => by
    simp only [sound_enforce, AllocatedNum.lc, LC.eval_subLC, LC.eval_ofVar]
    intro e
    refine ⟨bitsValue wvs, bitsValue rvs, hwl ▸ bitsValue_lt wvs, hrl ▸ bitsValue_lt rvs, hval ▸ h, ?_⟩
    rw [hwv, Num.wire_ofAllocated]
    linear_combination e
  simpa only [sound_bind] using fin

/-- What the circuit of the Bitcoin example enforces -/
theorem sound_bitcoin (h1 : w one = 1) {old new : List AllocatedBit} {vo vn : List Bool}
    (ho : List.Forall₂ (AllocatedBit.Means w) old vo) (hn : List.Forall₂ (AllocatedBit.Means w) new vn)
    (hlo : vo.length = Bitcoin.payloadBits) (hln : vn.length = Bitcoin.payloadBits) :
    Sound w ((bitcoin : RecursiveCircuit F).synthesize one old new) fun _ =>
      Bitcoin.Follows F vo vn ∧ Bitcoin.WorkChecked F vo vn := by
  unfold bitcoin
  simp only []
  refine Sound.bind (sound_unpackPayloadBits h1 ho hlo) ?_
  rintro ⟨ph, pw, pb⟩ ⟨hph, hpw, hpb⟩
  refine Sound.bind (sound_unpackPayloadBits h1 hn hln) ?_
  rintro ⟨nh, nw, nb⟩ ⟨hnh, hnw, hnb⟩
  simp only at hph hpw hpb hnh hnw hnb ⊢
  simp only [sound_bind, sound_enforce, AllocatedNum.lc, LC.eval_subLC, LC.eval_subVar, LC.eval_ofVar, h1, hnh, hph]
  intro eh
  have hlt : ∀ p, Bitcoin.height p < 2 ^ 32 := fun p => lt_of_lt_of_le (bitsValue_lt _)
    (Nat.pow_le_pow_right (by omega) (by rw [Bitcoin.field, List.length_take]; omega))
  have eh : Bitcoin.height vn = Bitcoin.height vo + 1 := by
    have a := hlt vn
    have b := hlt vo
    refine UInt.cast_inj_of_lt (F := F) (lt_of_lt_of_le a (by norm_num))
      (lt_of_lt_of_le (b := 2 ^ 33) (by omega) (by norm_num)) ?_
    push_cast
    linear_combination eh
  refine Sound.andThen (holds_sha256d (WordLogic.sound h1) hpb (by rw [length_header hlo])) fun d hd => ?_
  have hlen := hnb.length_eq
  rw [length_header hln] at hlen
  refine Sound.andThen (holds_piece (Logic.sound w) (by omega) (by omega)) ?_
  rintro _ rfl
  refine (sound_enforceEquality h1 (forall₂_take (List.forall₂_drop 32 hnb) 256) hd).mono fun _ eq => ?_
  refine Sound.anyway _ fun _ => ?_
  refine (sound_fromHeader hln hnb).mono fun c hc => ?_
  refine (sound_unpack h1 hln hc).mono ?_
  rintro ⟨t, tv⟩ ⟨hneg, ts, hts, htl, hsz, x, hx⟩
  simp only at hts ⊢
  unfold checkWork
  simp only [sound_bind]
  refine Sound.anyway _ fun _ => ?_
  refine Sound.anyway _ fun _ => ?_
  refine (sound_constrainWork h1 hts htl _ _ _ _).mono ?_
  rintro _ ⟨k, r, hk, hr, e1, e2⟩
  refine ⟨⟨eh, eq, hneg, hsz⟩, bitsValue ts, k, r, x, htl ▸ bitsValue_lt ts, hk, hr, hx, e1, ?_⟩
  rw [← hnw, ← hpw, e2]

end Example
end Halo
