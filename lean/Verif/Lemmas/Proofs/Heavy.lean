import Verif.Spec.SoundnessError
import Mathlib.Algebra.Order.BigOperators.Group.Finset
import Mathlib.Tactic.FieldSimp
import Mathlib.Tactic.Linarith
import Mathlib.Tactic.Positivity
/-!
# Accepting trees exist
-/
namespace Halo
namespace Proofs
variable {S : Type}

theorem fraction_nonneg {α : Type} (s : Finset α) (p : α → Prop) : 0 ≤ fraction s p := by
  unfold fraction
  positivity

theorem fraction_le_one {α : Type} (s : Finset α) (p : α → Prop) : fraction s p ≤ 1 := by
  classical
  unfold fraction
  apply div_le_one_of_le₀
  · exact_mod_cast Finset.card_filter_le _ _
  · positivity

theorem fraction_image {α β : Type} [DecidableEq β] (s : Finset α) {f : α → β} (hf : Function.Injective f)
    (p : β → Prop) : fraction (s.image f) p = fraction s fun a => p (f a) := by
  classical
  unfold fraction
  rw [Finset.card_image_of_injective _ hf]
  congr 2
  rw [← Finset.card_image_of_injective (s.filter fun a => p (f a)) hf]
  congr 1
  ext b
  simp only [Finset.mem_filter, Finset.mem_image]
  constructor
  · rintro ⟨⟨a, ha, rfl⟩, hp⟩
    exact ⟨a, ⟨ha, hp⟩, rfl⟩
  · rintro ⟨a, ⟨ha, hp⟩, rfl⟩
    exact ⟨⟨a, ha, rfl⟩, hp⟩

/-- heavy rows -/
theorem heavy {α β : Type} {s : Finset α} {t : Finset β} {p : α × β → Prop} {c : ℕ} {b : ℚ} (hb : 0 ≤ b)
    (h : (c : ℚ) / s.card + b < fraction (s ×ˢ t) p) :
    ∃ s' ⊆ s, s'.card = c + 1 ∧ ∀ x ∈ s', b < fraction t fun y => p (x, y) := by
  classical
  let H := s.filter fun x => b < fraction t fun y => p (x, y)
  suffices hH : c + 1 ≤ H.card by
    obtain ⟨s', h1, h2⟩ := Finset.exists_subset_card_eq hH
    exact ⟨s', h1.trans (Finset.filter_subset _ _), h2, fun x hx => (Finset.mem_filter.1 (h1 hx)).2⟩
  have hpos : (0 : ℚ) < fraction (s ×ˢ t) p := lt_of_le_of_lt (by positivity) h
  have hs : 0 < s.card := by
    by_contra h0
    have : s.card = 0 := by omega
    rw [Finset.card_eq_zero] at this
    simp [fraction, this] at hpos
  have ht : 0 < t.card := by
    by_contra h0
    have : t.card = 0 := by omega
    rw [Finset.card_eq_zero] at this
    simp [fraction, this] at hpos
  have hs' : (0 : ℚ) < s.card := by exact_mod_cast hs
  have ht' : (0 : ℚ) < t.card := by exact_mod_cast ht
  have hcount : (((s ×ˢ t).filter p).card : ℚ) = ∑ x ∈ s, (fraction t fun y => p (x, y)) * t.card := by
    have : ((s ×ˢ t).filter p).card = ∑ x ∈ s, (t.filter fun y => p (x, y)).card := by
      simp only [Finset.card_filter, Finset.sum_product]
    rw [this, Nat.cast_sum]
    refine Finset.sum_congr rfl fun x _ => ?_
    rw [fraction]
    field_simp
  have hle : ∑ x ∈ s, (fraction t fun y => p (x, y)) ≤ H.card + b * s.card := by
    have : ∑ x ∈ s, (fraction t fun y => p (x, y)) ≤ ∑ x ∈ s, ((if b < fraction t fun y => p (x, y) then 1 else 0) + b) := by
      refine Finset.sum_le_sum fun x _ => ?_
      split_ifs with hx
      · have := fraction_le_one t fun y => p (x, y)
        linarith
      · linarith [not_lt.1 hx]
    refine this.trans (le_of_eq ?_)
    rw [Finset.sum_add_distrib, Finset.sum_const, nsmul_eq_mul, Finset.card_filter]
    push_cast
    ring
  rw [fraction, Finset.card_product, hcount, ← Finset.sum_mul] at h
  push_cast at h
  rw [mul_div_mul_right _ _ ht'.ne', lt_div_iff₀ hs', add_mul, div_mul_cancel₀ _ hs'.ne'] at h
  have : (c : ℚ) < H.card := by linarith
  exact_mod_cast this

/-- a list that follows a strategy -/
def Follows (next : List S → Finset S) : List S → List S → Prop
  | _, [] => True
  | pre, u :: us => u ∈ next pre ∧ Follows next (pre ++ [u]) us

theorem path_iff (ch : Challenges S) (y x yNew z : S) : ∀ (pre us : List S),
    ch.Path y x yNew z pre us ↔ Follows (ch.us y x yNew z) pre us
  | _, [] => Iff.rfl
  | pre, u :: us => and_congr Iff.rfl (path_iff ch y x yNew z (pre ++ [u]) us)

/-- an accepting tree for the rounds -/
theorem heavy_rounds [DecidableEq S] {U : Finset S} {k : ℕ} (hk : 0 < k) {A : List S → Prop}
    (h : (4 * k : ℚ) / U.card < fraction (sequences U k) A) :
    ∃ next : List S → Finset S, (∀ pre, next pre ⊆ U ∧ (next pre).card = 5) ∧
      ∀ us, us.length = k → Follows next [] us → A us := by
  classical
  have hU : 5 ≤ U.card := by
    by_contra hlt
    have h1 := fraction_le_one (sequences U k) A
    have h2 : (U.card : ℚ) ≤ 4 := by exact_mod_cast (by omega : U.card ≤ 4)
    rcases Nat.eq_zero_or_pos U.card with h0 | h0
    · obtain ⟨k, rfl⟩ := Nat.exists_eq_succ_of_ne_zero hk.ne'
      rw [Finset.card_eq_zero] at h0
      subst h0
      simp [fraction, sequences] at h
    · have h0' : (0 : ℚ) < U.card := by exact_mod_cast h0
      have : (1 : ℚ) ≤ 4 * k / U.card := by
        rw [le_div_iff₀ h0']
        have : (1 : ℚ) ≤ k := by exact_mod_cast hk
        linarith
      linarith
  obtain ⟨V, hV, hV5⟩ := Finset.exists_subset_card_eq hU
  let good (pre : List S) (s : Finset S) : Prop := s ⊆ U ∧ s.card = 5 ∧ ∀ u ∈ s,
    (4 * (k - (pre.length + 1) : ℕ) : ℚ) / U.card < fraction (sequences U (k - (pre.length + 1))) fun r => A (pre ++ u :: r)
  let next (pre : List S) : Finset S := if h : ∃ s, good pre s then h.choose else V
  have hnext : ∀ pre, (∃ s, good pre s) → good pre (next pre) := fun pre h => by
    simp only [next, dif_pos h]
    exact h.choose_spec
  refine ⟨next, fun pre => ?_, ?_⟩
  · by_cases hg : ∃ s, good pre s
    · exact ⟨(hnext pre hg).1, (hnext pre hg).2.1⟩
    · simp only [next, dif_neg hg]
      exact ⟨hV, hV5⟩
  · have key : ∀ (j : ℕ) (pre : List S), pre.length + j = k →
        (4 * j : ℚ) / U.card < fraction (sequences U j) (fun r => A (pre ++ r)) →
        ∀ us, us.length = j → Follows next pre us → A (pre ++ us) := by
      intro j
      induction j with
      | zero =>
        intro pre _ hf us hl _
        rw [List.length_eq_zero_iff.1 hl]
        by_contra hn
        simp only [fraction, sequences, Nat.cast_zero, mul_zero, zero_div] at hf
        rw [Finset.filter_singleton, if_neg hn] at hf
        simp at hf
      | succ j ih =>
        intro pre hpre hf us hl hfol
        have hU0 : (0 : ℚ) < U.card := by exact_mod_cast (by omega : 0 < U.card)
        rw [sequences, fraction_image _ (fun a b h => by
          simp only [List.cons.injEq] at h
          exact Prod.ext h.1 h.2)] at hf
        have hg : ∃ s, good pre s := by
          obtain ⟨s, h1, h2, h3⟩ := heavy (c := 4) (b := (4 * j : ℚ) / U.card) (by positivity) (by
            refine lt_of_eq_of_lt ?_ hf
            push_cast
            ring)
          refine ⟨s, h1, h2, fun u hu => ?_⟩
          rw [show k - (pre.length + 1) = j by omega]
          exact h3 u hu
        obtain ⟨-, -, hgood⟩ := hnext pre hg
        cases us with
        | nil => simp at hl
        | cons u us =>
          obtain ⟨hu, hrest⟩ := hfol
          have := hgood u hu
          rw [show k - (pre.length + 1) = j by omega] at this
          have := ih (pre ++ [u]) (by simp; omega) (by simpa using this) us (by simpa using hl) hrest
          simpa using this
    exact fun us hl hf => by simpa using key k [] (by simp) (by simpa using h) us hl hf

/-- an accepting tree -/
theorem heavy_tree [Field S] [DecidableEq S] {sp : Spaces S} {k Q : ℕ} (hk : 0 < k)
    (hU : ∀ u ∈ sp.u, ∀ v ∈ sp.u, u ^ 2 = v ^ 2 → u = v) {A : S × S × S × S × List S → Prop}
    (h : sp.error k Q < fraction (sp.outcomes k) A) :
    ∃ ch : Challenges S, ch.Few sp k Q ∧ ch.Enough k Q ∧
      ∀ y x yNew z us, ch.Tried y x yNew z → us.length = k → ch.Path y x yNew z [] us → A (y, x, yNew, z, us) := by
  classical
  have h3 : 1 ≤ 3 * 2 ^ k := by have : 0 < 2 ^ k := by positivity
                                omega
  obtain ⟨ys, y1, y2, y3⟩ := heavy (s := sp.y) (c := 2 ^ k + 3 * Q) (b := 3 * 2 ^ k / sp.x.card +
    ((2 ^ k + 2 * Q) / sp.yNew.card + (12 / sp.z.card + 4 * k / sp.u.card))) (by positivity) (by
      refine lt_of_eq_of_lt ?_ h
      unfold Spaces.error
      push_cast
      ring)
  have hx := fun y hy => heavy (s := sp.x) (c := 3 * 2 ^ k - 1) (b := (2 ^ k + 2 * Q) / sp.yNew.card +
    (12 / sp.z.card + 4 * k / sp.u.card)) (by positivity) (lt_of_le_of_lt (by
      gcongr
      rw [Nat.cast_sub h3]
      push_cast
      linarith) (y3 y hy))
  choose! xs x1 x2 x3 using hx
  have hn := fun y hy x hx => heavy (s := sp.yNew) (c := 2 ^ k + 2 * Q) (b := 12 / sp.z.card + 4 * k / sp.u.card)
    (by positivity) (lt_of_eq_of_lt (by push_cast; rfl) (x3 y hy x hx))
  choose! yNews n1 n2 n3 using hn
  have hz := fun y hy x hx yn hyn => heavy (s := sp.z) (c := 12) (b := 4 * k / sp.u.card)
    (by positivity) (lt_of_eq_of_lt (by push_cast; rfl) (n3 y hy x hx yn hyn))
  choose! zs z1 z2 z3 using hz
  have hu := fun y hy x hx yn hyn z hz => heavy_rounds hk (z3 y hy x hx yn hyn z hz)
  choose! us u1 u2 using hu
  let ch : Challenges S := ⟨ys, xs, yNews, zs, us⟩
  have few : ch.Few sp k Q := ⟨⟨y1, y2⟩, fun y hy => ⟨x1 y hy, by rw [x2 y hy]; omega⟩,
    fun y hy x hx => ⟨n1 y hy x hx, n2 y hy x hx⟩, fun y hy x hx yn hyn => ⟨z1 y hy x hx yn hyn, z2 y hy x hx yn hyn⟩,
    fun y x yn z ⟨hy, hx, hyn, hz⟩ pre => u1 y hy x hx yn hyn z hz pre⟩
  refine ⟨ch, few, ⟨?_, fun y hy => ?_, fun y hy x hx => ?_, fun y hy x hx yn hyn => ?_,
    fun y x yn z ht pre => ⟨?_, fun u hu v hv => ?_⟩⟩, fun y x yn z us ⟨hy, hx, hyn, hz⟩ hl hp => ?_⟩
  · rw [few.ys.2]; omega
  · rw [(few.xs y hy).2]
  · rw [(few.yNews y hy x hx).2]; omega
  · rw [(few.zs y hy x hx yn hyn).2]
  · rw [(few.us y x yn z ht pre).2]
  · exact hU u ((few.us y x yn z ht pre).1 hu) v ((few.us y x yn z ht pre).1 hv)
  · exact u2 y hy x hx yn hyn z hz us hl ((path_iff ch y x yn z [] us).1 hp)

/-- everything can be tried -/
def Spaces.all (sp : Spaces S) : Challenges S :=
  ⟨sp.y, fun _ => sp.x, fun _ _ => sp.yNew, fun _ _ _ => sp.z, fun _ _ _ _ _ => sp.u⟩

theorem Challenges.Few.tried {ch : Challenges S} {sp : Spaces S} {k Q : ℕ} (h : ch.Few sp k Q) {y x yNew z : S}
    (ht : ch.Tried y x yNew z) : sp.all.Tried y x yNew z :=
  ⟨h.ys.1 ht.1, (h.xs y ht.1).1 ht.2.1, (h.yNews y ht.1 x ht.2.1).1 ht.2.2.1,
    (h.zs y ht.1 x ht.2.1 yNew ht.2.2.1).1 ht.2.2.2⟩

theorem Challenges.Few.path {ch : Challenges S} {sp : Spaces S} {k Q : ℕ} (h : ch.Few sp k Q) {y x yNew z : S}
    (ht : ch.Tried y x yNew z) : ∀ {pre us : List S}, ch.Path y x yNew z pre us → sp.all.Path y x yNew z pre us
  | _, [], _ => trivial
  | pre, _ :: _, ⟨h1, h2⟩ => ⟨(h.us y x yNew z ht pre).1 h1, Few.path h ht h2⟩

theorem Challenges.Few.answers {C : Type} {P : Prover C S} {ch : Challenges S} {sp : Spaces S} {k Q : ℕ}
    (h : ch.Few sp k Q) {y x yNew z : S} (ht : ch.Tried y x yNew z) :
    ∀ {j : ℕ} {pre : List S} {t : Tree C S j}, P.Answers ch y x yNew z pre t → P.Answers sp.all y x yNew z pre t
  | _, _, .leaf _ _, h1 => h1
  | _, pre, .node _ _ _, h1 => by
    simp only [Prover.Answers] at h1 ⊢
    exact ⟨h1.1, fun i => ⟨(h.us y x yNew z ht pre).1 (h1.2 i).1, Few.answers h ht (h1.2 i).2⟩⟩

theorem Challenges.Few.found {C α : Type} [Field S] [FieldApi S] [DecidableEq S] {st : Statement C S α} {P : Prover C S}
    {ch : Challenges S} {sp : Spaces S} {k Q : ℕ} (h : ch.Few sp k Q) {positions : List ℕ} {v : ℕ → S}
    (hv : Found st P ch positions v) : Found st P sp.all positions v := by
  cases hv with
  | zero => exact .zero
  | k => exact .k
  | s hy hx hn he => exact .s (h.ys.1 hy) ((h.xs _ hy).1 hx) ((h.yNews _ hy _ hx).1 hn) he
  | folded ht hl hp => exact .folded (h.tried ht) hl (h.path ht hp)
  | opened j i zs hz tree ht =>
    exact .opened j i zs hz tree fun z hz => ⟨h.tried (ht z hz).1, (ht z hz).2.1, h.answers (ht z hz).1 (ht z hz).2.2⟩

theorem Challenges.Few.binding {C G α : Type} [Field S] [FieldApi S] [DecidableEq S] [AddCommGroup G] [Module S G]
    {g : ℕ → G} {st : Statement C S α} {P : Prover C S}
    {ch : Challenges S} {sp : Spaces S} {k Q : ℕ} (h : ch.Few sp k Q) {positions : List ℕ}
    (hb : Binding g st P sp.all positions) : Binding g st P ch positions :=
  fun _ _ hv hw => hb _ _ (h.found hv) (h.found hw)

theorem Spaces.path [DecidableEq S] (sp : Spaces S) {y x yNew z : S} : ∀ {pre us : List S}, (∀ u ∈ us, u ∈ sp.u) →
    sp.all.Path y x yNew z pre us
  | _, [], _ => trivial
  | _, u :: _, h => ⟨h u (by simp), Spaces.path sp fun v hv => h v (by simp [hv])⟩

/-- Everything that can happen is accepted. -/
theorem fraction_outcomes [DecidableEq S] {sp : Spaces S} {k : ℕ} (hy : 0 < sp.y.card) (hx : 0 < sp.x.card)
    (hn : 0 < sp.yNew.card) (hz : 0 < sp.z.card) (hu : 0 < sp.u.card) {A : S × S × S × S × List S → Prop}
    (h : ∀ y x yNew z us, sp.all.Tried y x yNew z → us.length = k → sp.all.Path y x yNew z [] us →
      A (y, x, yNew, z, us)) : fraction (sp.outcomes k) A = 1 := by
  classical
  have hseq : ∀ k, 0 < (sequences sp.u k).card := fun k => by
    induction k with
    | zero => simp [sequences]
    | succ k ih =>
      rw [sequences, Finset.card_image_of_injective _ (fun a b h => by
        simp only [List.cons.injEq] at h
        exact Prod.ext h.1 h.2), Finset.card_product]
      positivity
  have hall : (sp.outcomes k).filter A = sp.outcomes k := by
    rw [Finset.filter_eq_self]
    rintro ⟨y, x, yNew, z, us⟩ ho
    simp only [Spaces.outcomes, Finset.mem_product, mem_sequences] at ho
    obtain ⟨h1, h2, h3, h4, h5, h6⟩ := ho
    exact h y x yNew z us ⟨h1, h2, h3, h4⟩ h5 (sp.path h6)
  have hpos : 0 < (sp.outcomes k).card := by
    simp only [Spaces.outcomes, Finset.card_product]
    have := hseq k
    positivity
  rw [fraction, hall, div_self]
  exact_mod_cast hpos.ne'

end Proofs
end Halo
