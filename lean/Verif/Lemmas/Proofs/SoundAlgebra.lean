import Verif.Lemmas.Proofs.SoundCircuit
/-!
# From the openings to the circuit

The part of the soundness of proofs that is about polynomials only.
-/
namespace Halo
namespace Proofs
open Circuit
variable {S : Type} [Field S]

/-- What the extractor knows: the polynomials that the prover has committed to, and the relations between
them and the openings that it has claimed. Every polynomial has `4n` coefficients. -/
structure Known (n : ℕ) (lcs : List (LC S)) (ky gx : S → S) (yOld : S) (o : S → S → S → Openings S)
    (ch : Challenges S) (r so go : ℕ → S) (sc tp tn : S → ℕ → S) (c : S → S → ℕ → S) : Prop where
  ne : ∀ y ∈ ch.ys, ∀ x ∈ ch.xs y, ∀ yNew ∈ ch.yNews y x, x ≠ 0 ∧ y ≠ 0
  opened : ∀ y ∈ ch.ys, ∀ x ∈ ch.xs y, ∀ yNew ∈ ch.yNews y x, (sxVec n lcs yNew).getD (n - 1) 0 ≠ 0 →
    value (4 * n) r x = (o y x yNew).rx ∧ value (4 * n) so x = (o y x yNew).sxOld ∧
    value (4 * n) (sc y) x = (o y x yNew).sxCur ∧ value (4 * n) (tp y) x = (o y x yNew).txPositive ∧
    value (4 * n) (tn y) x = (o y x yNew).txNegative ∧ opening (sxVec n lcs yNew) x = (o y x yNew).sxNew ∧
    value (4 * n) go x = gx x
  rxy : (∀ m < 4 * n, r m = 0) ∨ ∀ y ∈ ch.ys, ∀ x ∈ ch.xs y, ∀ yNew ∈ ch.yNews y x,
    value (4 * n) r (x * y) = (o y x yNew).rxy
  cur : ∀ y ∈ ch.ys, ∀ x ∈ ch.xs y, ∀ yNew ∈ ch.yNews y x, value (4 * n) (c y x) y = (o y x yNew).sxCur
  other : ∀ y ∈ ch.ys, ∀ x ∈ ch.xs y, (∀ m < 4 * n, c y x m = 0) ∨ ∀ yNew ∈ ch.yNews y x,
    value (4 * n) (c y x) yOld = (o y x yNew).sxOld ∧ value (4 * n) (c y x) yNew = (o y x yNew).sxNew
  rel : ∀ y ∈ ch.ys, ∀ x ∈ ch.xs y, ∀ yNew ∈ ch.yNews y x,
    (o y x yNew).rx * x⁻¹ ^ (3 * n - 1) *
      ((o y x yNew).rxy * (x * y)⁻¹ ^ (3 * n - 1) +
        (y ^ n * (o y x yNew).sxCur * x⁻¹ ^ n - x ^ n *
          ∑ i ∈ Finset.range n, ((x * y) ^ (i + 1) + (x * y⁻¹) ^ (i + 1)))) =
      (o y x yNew).txPositive * x + ky y * y ^ n + (o y x yNew).txNegative * x⁻¹ ^ (4 * n)

/-- `s(x, Y)·x^n`, as a vector -/
theorem value_sy {n : ℕ} {lcs : List (LC S)} (hl : InScope n lcs) (hq : lcs.length < 4 * n) {x : S} (hx : x ≠ 0)
    (y : S) : opening (sxVec n lcs y) x = value (4 * n) (fun m => x ^ n * (syVec n lcs x).getD m 0) y := by
  rw [opening_sxVec hl hx, ← opening_syVec, ← value_getD (d := 4 * n) (by simp [syVec]; omega), value, value,
    Finset.mul_sum]
  exact Finset.sum_congr rfl fun m _ => by ring

theorem value_sx {n : ℕ} (hn : 0 < n) (lcs : List (LC S)) (x y : S) :
    value (4 * n) (fun m => (sxVec n lcs y).getD m 0) x = opening (sxVec n lcs y) x :=
  value_getD (by rw [sxVec_length]; omega) x

section
variable {α : Type} {circuit : Var → Prog S α} {n k : ℕ} {s : System S} {inputs : List S} {ky gx : S → S} {yOld : S}
  {o : S → S → S → Openings S} {ch : Challenges S} {r so go : ℕ → S} {sc tp tn : S → ℕ → S} {c : S → S → ℕ → S}

/-- There are challenges `yNew` for which everything is opened. -/
theorem Shape.many (hs : Shape circuit n s) (hn : 0 < n) (hk : 2 ^ k = 4 * n) (he : ch.Enough k s.lcs.length) {y x : S} (hy : y ∈ ch.ys) (hx : x ∈ ch.xs y) :
    ∃ T : Finset S, 4 * n ≤ T.card ∧ T ⊆ ch.yNews y x ∧ ∀ yNew ∈ T, (sxVec n s.lcs yNew).getD (n - 1) 0 ≠ 0 := by
  classical
  obtain ⟨T, h1, h2⟩ := hs.s_ne hn
  refine ⟨ch.yNews y x \ T, ?_, Finset.sdiff_subset, fun yn hyn => h2 yn (Finset.mem_sdiff.1 hyn).2⟩
  have := he.yNews y hy x hx
  have := Finset.le_card_sdiff T (ch.yNews y x)
  omega

theorem Shape.one (hs : Shape circuit n s) (hn : 0 < n) (hk : 2 ^ k = 4 * n) (he : ch.Enough k s.lcs.length) {y x : S} (hy : y ∈ ch.ys) (hx : x ∈ ch.xs y) :
    ∃ yNew ∈ ch.yNews y x, (sxVec n s.lcs yNew).getD (n - 1) 0 ≠ 0 := by
  obtain ⟨T, h1, h2, h3⟩ := hs.many hn hk he hy hx
  obtain ⟨yn, hyn⟩ := Finset.card_pos.1 (show 0 < T.card by omega)
  exact ⟨yn, h2 hyn, h3 yn hyn⟩

/-- The commitment to `s(x, Y)` -/
theorem Known.atX (h : Known n s.lcs ky gx yOld o ch r so go sc tp tn c) (hs : Shape circuit n s) (hn : 0 < n)
    (hk : 2 ^ k = 4 * n) (hq : s.lcs.length < 4 * n) (he : ch.Enough k s.lcs.length) {y x : S} (hy : y ∈ ch.ys)
    (hx : x ∈ ch.xs y) : value (4 * n) (sc y) x = 0 ∨
      (value (4 * n) (sc y) x = opening (sxVec n s.lcs y) x ∧
        value (4 * n) so x = opening (sxVec n s.lcs yOld) x) := by
  obtain ⟨yn, h1, h2⟩ := hs.one hn hk he hy hx
  obtain ⟨-, o2, o3, -⟩ := h.opened y hy x hx yn h1 h2
  obtain ⟨hx0, -⟩ := h.ne y hy x hx yn h1
  have hc := h.cur y hy x hx yn h1
  rcases h.other y hy x hx with h0 | h0
  · left
    rw [o3, ← hc, value_zero h0]
  · right
    obtain ⟨T, t1, t2, t3⟩ := hs.many hn hk he hy hx
    have key : ∀ {m}, m < 4 * n → c y x m = x ^ n * (syVec n s.lcs x).getD m 0 := fun {m} hm =>
      vec_eq (w := fun m => x ^ n * (syVec n s.lcs x).getD m 0) t1 (fun yn hyn => by
        rw [(h0 yn (t2 hyn)).2, ← value_sy hs.inScope hq hx0]
        exact (h.opened y hy x hx yn (t2 hyn) (t3 yn hyn)).2.2.2.2.2.1.symm) hm
    have ev : ∀ y', value (4 * n) (c y x) y' = opening (sxVec n s.lcs y') x := fun y' => by
      rw [value_sy hs.inScope hq hx0]
      exact value_congr (fun m hm => key hm) y'
    rw [o3, o2, ← ev, ← ev]
    exact ⟨hc.symm, (h0 yn h1).1.symm⟩

/-- The commitment to `s(X, y)` -/
theorem Known.atY (h : Known n s.lcs ky gx yOld o ch r so go sc tp tn c) (hs : Shape circuit n s) (hn : 0 < n)
    (hk : 2 ^ k = 4 * n) (hq : s.lcs.length < 4 * n) (he : ch.Enough k s.lcs.length) {y : S} (hy : y ∈ ch.ys) :
    (∀ m < 4 * n, sc y m = 0) ∨ ∀ m < 4 * n, sc y m = (sxVec n s.lcs y).getD m 0 := by
  classical
  have h1 := he.xs y hy
  have h2 := Finset.card_filter_add_card_filter_not (s := ch.xs y) fun x => value (4 * n) (sc y) x = 0
  rcases le_total (4 * n) ((ch.xs y).filter fun x => value (4 * n) (sc y) x = 0).card with h3 | h3
  · left
    intro m hm
    refine vec_eq (w := fun _ => 0) h3 (fun x hx => ?_) hm
    rw [(Finset.mem_filter.1 hx).2, value_zero fun _ _ => rfl]
  · right
    intro m hm
    refine vec_eq (w := fun m => (sxVec n s.lcs y).getD m 0)
      (xs := (ch.xs y).filter fun x => ¬ value (4 * n) (sc y) x = 0) (by omega) (fun x hx => ?_) hm
    obtain ⟨hx, h0⟩ := Finset.mem_filter.1 hx
    rw [value_sx hn]
    exact ((h.atX hs hn hk hq he hy hx).resolve_left h0).1

theorem Known.const (h : Known n s.lcs ky gx yOld o ch r so go sc tp tn c) (hs : Shape circuit n s) (hn : 0 < n)
    (hk : 2 ^ k = 4 * n) (he : ch.Enough k s.lcs.length) {y : S} (hy : y ∈ ch.ys) :
    y ≠ 0 ∧ r (3 * n - 1) ^ 2 +
      ∑ i ∈ Finset.range n, (r (3 * n + i) * r (3 * n - 2 - i) - r (2 * n - 2 - i)) *
        (y ^ (i + 1) + (y ^ (i + 1))⁻¹) +
      y ^ n * ∑ m ∈ Finset.range (4 * n), sc y m * r (4 * n - 1 - m) = ky y * y ^ n := by
  have hc := he.xs y hy
  obtain ⟨x0, hx0⟩ := Finset.card_pos.1 (show 0 < (ch.xs y).card by omega)
  obtain ⟨yn0, hyn0, -⟩ := hs.one hn hk he hy hx0
  have hy0 := (h.ne y hy x0 hx0 yn0 hyn0).2
  refine ⟨hy0, const_of_rel hn (tp := tp y) (tn := tn y) hy0 (show 10 * n ≤ (ch.xs y).card by omega) fun x hx => ?_⟩
  obtain ⟨yn, h1, h2⟩ := hs.one hn hk he hy hx
  refine ⟨(h.ne y hy x hx yn h1).1, ?_⟩
  obtain ⟨o1, o2, o3, o4, o5, -⟩ := h.opened y hy x hx yn h1 h2
  have hr := h.rel y hy x hx yn h1
  unfold Rel
  rcases h.rxy with h0 | h0
  · rw [← o1, value_zero h0, zero_mul, zero_mul] at hr
    rw [o4, o5, ← hr, value_zero h0, zero_mul, zero_mul]
  · rw [o1, o3, o4, o5, h0 y hy x hx yn h1]
    exact hr

/-- The circuit is satisfied, and the old leftovers are right. -/
theorem Known.sound (h : Known n s.lcs ky gx yOld o ch r so go sc tp tn c) (hs : Shape circuit n s) (hn : 0 < n)
    (hk : 2 ^ k = 4 * n) (hq : s.lcs.length < 4 * n) (he : ch.Enough k s.lcs.length)
    (hky : ∀ y, ky y = opening (kPoly (kInputs s inputs)) y) :
    s.Satisfied (wires n r) inputs ∧ (∀ m < 4 * n, so m = (sxVec n s.lcs yOld).getD m 0) ∧
      ∀ w : ℕ → S, (∀ x, gx x = value (4 * n) w x) → ∀ m < 4 * n, go m = w m := by
  classical
  -- challenges for which the prover has replaced `s(X, y)` by zero
  let Y0 := ch.ys.filter fun y => ∀ m < 4 * n, sc y m = 0
  let Y1 := ch.ys.filter fun y => ¬ ∀ m < 4 * n, sc y m = 0
  have hY : Y0.card + Y1.card = ch.ys.card := Finset.card_filter_add_card_filter_not _
  have h0 : Y0.card ≤ 2 * n + s.lcs.length := by
    by_contra hc
    refine hs.not_null hn (inputs := inputs) (r := r) (ys := Y0) (by omega) fun y hy => ?_
    obtain ⟨hy, hz⟩ := Finset.mem_filter.1 hy
    obtain ⟨c1, c2⟩ := h.const hs hn hk he hy
    rw [Finset.sum_eq_zero (s := Finset.range (4 * n)) fun m hm => by rw [hz m (Finset.mem_range.1 hm), zero_mul],
      mul_zero, add_zero, hky] at c2
    exact ⟨c1, c2⟩
  have hys := he.ys
  have h1 : 2 * n + 2 * s.lcs.length < Y1.card := by omega
  have hsc : ∀ y ∈ Y1, ∀ m < 4 * n, sc y m = (sxVec n s.lcs y).getD m 0 := fun y hy => by
    obtain ⟨hy, hz⟩ := Finset.mem_filter.1 hy
    exact (h.atY hs hn hk hq he hy).resolve_left hz
  have hsub : ∀ y ∈ Y1, y ∈ ch.ys := fun y hy => (Finset.mem_filter.1 hy).1
  refine ⟨?_, ?_, ?_⟩
  · refine hs.satisfied hn (ys := Y1) (by omega) fun y hy => ?_
    obtain ⟨c1, c2⟩ := h.const hs hn hk he (hsub y hy)
    refine ⟨c1, ?_⟩
    rw [← hky, ← c2]
    congr 2
    exact Finset.sum_congr rfl fun m hm => by rw [hsc y hy m (Finset.mem_range.1 hm)]
  · -- one of the others for which `s(X, y)` is not zero
    obtain ⟨T, t1, t2⟩ := hs.s_ne hn
    obtain ⟨y, hy⟩ := Finset.card_pos.1 (show 0 < (Y1 \ T).card by
      have := Finset.le_card_sdiff T Y1
      omega)
    obtain ⟨hy, hyT⟩ := Finset.mem_sdiff.1 hy
    have hxs := he.xs y (hsub y hy)
    have h2 := Finset.card_filter_add_card_filter_not (s := ch.xs y) fun x => value (4 * n) (sc y) x = 0
    have h3 : ((ch.xs y).filter fun x => value (4 * n) (sc y) x = 0).card < 4 * n := by
      by_contra hc
      have := vec_eq (v := sc y) (w := fun _ => 0) (not_lt.1 hc) (fun x hx => by
        rw [(Finset.mem_filter.1 hx).2, value_zero fun _ _ => rfl]) (show n - 1 < 4 * n by omega)
      rw [hsc y hy _ (by omega)] at this
      exact t2 y hyT this
    intro m hm
    refine vec_eq (w := fun m => (sxVec n s.lcs yOld).getD m 0)
      (xs := (ch.xs y).filter fun x => ¬ value (4 * n) (sc y) x = 0) (by omega) (fun x hx => ?_) hm
    obtain ⟨hx, h0⟩ := Finset.mem_filter.1 hx
    rw [value_sx hn]
    exact ((h.atX hs hn hk hq he (hsub y hy) hx).resolve_left h0).2
  · intro w hw m hm
    obtain ⟨y, hy⟩ := Finset.card_pos.1 (show 0 < ch.ys.card by omega)
    have hxs := he.xs y hy
    refine vec_eq (w := w) (xs := ch.xs y) (by omega) (fun x hx => ?_) hm
    obtain ⟨yn, h1, h2⟩ := hs.one hn hk he hy hx
    rw [(h.opened y hy x hx yn h1 h2).2.2.2.2.2.2, hw]

end
end Proofs
end Halo
