import Verif.Lemmas.Proofs.Extract
import Verif.Lemmas.Proofs.SoundPoly
import Verif.Spec.Soundness
/-!
# What the extractor computes
-/
namespace Halo
namespace Proofs
open Circuit Polynomial

section
variable {C S G : Type} [Field S] [DecidableEq S] [AddCommGroup G] [Module S G]

/-- the coefficients of the interpolation polynomial -/
theorem lagrange_coeff (zs : Finset S) {l : ℕ} (hl : l < zs.card) (i : ℕ) :
    ∑ z ∈ zs, (Lagrange.basis zs id z).coeff i * z ^ l = if i = l then 1 else 0 := by
  have : (X ^ l : S[X]) = Lagrange.interpolate zs id fun z => z ^ l := by
    have := Lagrange.eq_interpolate (s := zs) (v := id) (f := (X ^ l : S[X])) (Set.injOn_id _) (by
      rw [degree_X_pow]
      exact_mod_cast hl)
    rw [this]
    simp
  have := congrArg (coeff · i) this
  simp only [coeff_X_pow, Lagrange.interpolate_apply, finsetSum_coeff, coeff_C_mul] at this
  rw [this]
  exact Finset.sum_congr rfl fun z _ => mul_comm ..

/-- separating a combination by the powers of `z` -/
theorem split_sum (zs : Finset S) {p : ℕ} (hp : zs.card = p) (a : ℕ → G) {i : ℕ} (hi : i < p) :
    ∑ z ∈ zs, (Lagrange.basis zs id z).coeff i • ∑ l ∈ Finset.range p, z ^ l • a l = a i := by
  simp only [Finset.smul_sum, smul_smul]
  rw [Finset.sum_comm]
  simp only [← Finset.sum_smul]
  rw [Finset.sum_congr rfl fun l hl => by
    rw [lagrange_coeff zs (by rw [hp]; exact Finset.mem_range.1 hl)]]
  rw [Finset.sum_eq_single i]
  · rw [if_pos rfl, one_smul]
  · intro l _ hl
    rw [if_neg hl.symm, zero_smul]
  · intro h
    exact absurd (Finset.mem_range.2 hi) h

/-- the coefficients of the interpolation of vectors -/
theorem sum_interpolate (zs : Finset S) (v : S → ℕ → S) (i d : ℕ) (g : ℕ → G) :
    ∑ m ∈ Finset.range d, (Lagrange.interpolate zs id fun z => v z m).coeff i • g m =
      ∑ z ∈ zs, (Lagrange.basis zs id z).coeff i • ∑ m ∈ Finset.range d, v z m • g m := by
  simp only [Lagrange.interpolate_apply, finsetSum_coeff, coeff_C_mul, Finset.sum_smul, Finset.smul_sum, smul_smul]
  rw [Finset.sum_comm]
  exact Finset.sum_congr rfl fun z _ => Finset.sum_congr rfl fun m _ => by rw [mul_comm]

/-- If one of the combined commitments is not the identity, then for enough of the challenges the combination
is not, so the extractor opens it, and separates it. -/
theorem open_split {α : Type} [FieldApi S] {st : Statement C S α} {P : Prover C S} {ch : Challenges S}
    {positions : List ℕ} {y x yNew : S} (j : ℕ) {g : ℕ → G} {a : ℕ → G} {e : ℕ → S} {point : S}
    (hzs : 2 * parts j ≤ (ch.zs y x yNew).card + 1)
    (h : ∀ z ∈ ch.zs y x yNew, ∑ l ∈ Finset.range (parts j), z ^ l • a l ≠ 0 →
      ch.Tried y x yNew z ∧ ∃ tree : Tree C S st.params.k, tree.Distinct ∧ P.Answers ch y x yNew z [] tree ∧
        ∑ m ∈ Finset.range (2 ^ st.params.k), tree.coeff j m • g m = ∑ l ∈ Finset.range (parts j), z ^ l • a l ∧
        value (2 ^ st.params.k) (tree.coeff j) point = ∑ l ∈ Finset.range (parts j), z ^ l * e l)
    (hne : ∃ i < parts j, a i ≠ 0) {i : ℕ} (hi : i < parts j) :
    ∃ w, Found st P ch positions w ∧ ∑ m ∈ Finset.range (2 ^ st.params.k), w m • g m = a i ∧
      value (2 ^ st.params.k) w point = e i := by
  classical
  have hc := Finset.card_filter_add_card_filter_not (s := ch.zs y x yNew)
    fun z => ∑ l ∈ Finset.range (parts j), z ^ l • a l = 0
  have hbad : ((ch.zs y x yNew).filter fun z => ∑ l ∈ Finset.range (parts j), z ^ l • a l = 0).card < parts j := by
    by_contra hno
    obtain ⟨T, t1, t2⟩ := Finset.exists_subset_card_eq (not_lt.1 hno)
    obtain ⟨i, hi, ha⟩ := hne
    apply ha
    rw [← split_sum T t2 a hi]
    refine Finset.sum_eq_zero fun z hz => ?_
    rw [(Finset.mem_filter.1 (t1 hz)).2, smul_zero]
  obtain ⟨zs, z1, z2⟩ := Finset.exists_subset_card_eq (n := parts j)
    (s := (ch.zs y x yNew).filter fun z => ¬ ∑ l ∈ Finset.range (parts j), z ^ l • a l = 0) (by omega)
  have hz : ∀ z ∈ zs, z ∈ ch.zs y x yNew ∧ ∑ l ∈ Finset.range (parts j), z ^ l • a l ≠ 0 := fun z hz =>
    Finset.mem_filter.1 (z1 hz)
  obtain ⟨z0, hz0⟩ := Finset.card_pos.1 (show 0 < zs.card by omega)
  obtain ⟨-, tree0, -⟩ := h z0 (hz z0 hz0).1 (hz z0 hz0).2
  have : ∀ z, ∃ tree : Tree C S st.params.k, z ∈ zs → ch.Tried y x yNew z ∧ tree.Distinct ∧
      P.Answers ch y x yNew z [] tree ∧
      ∑ m ∈ Finset.range (2 ^ st.params.k), tree.coeff j m • g m = ∑ l ∈ Finset.range (parts j), z ^ l • a l ∧
      value (2 ^ st.params.k) (tree.coeff j) point = ∑ l ∈ Finset.range (parts j), z ^ l * e l := fun z => by
    by_cases hm : z ∈ zs
    · obtain ⟨ht, tree, h1⟩ := h z (hz z hm).1 (hz z hm).2
      exact ⟨tree, fun _ => ⟨ht, h1⟩⟩
    · exact ⟨tree0, fun h => absurd h hm⟩
  choose tree ht using this
  refine ⟨_, .opened (y := y) (x := x) (yNew := yNew) j i zs z2 tree fun z hz =>
    ⟨(ht z hz).1, (ht z hz).2.1, (ht z hz).2.2.1⟩, ?_, ?_⟩
  · rw [sum_interpolate zs (fun z m => (tree z).coeff j m), ← split_sum zs z2 a hi]
    exact Finset.sum_congr rfl fun z hz => by rw [(ht z hz).2.2.2.1]
  · unfold value
    refine (sum_interpolate zs (fun z m => (tree z).coeff j m) i _ fun m => point ^ m).trans ?_
    rw [← split_sum zs z2 e hi]
    exact Finset.sum_congr rfl fun z hz => by
      congr 1
      exact (ht z hz).2.2.2.2

omit [DecidableEq S] in
/-- Of five challenges with different squares, three lead to a commitment that is not the identity. -/
theorem three_of_five {us : Finset S} (hc : 5 ≤ us.card) (hsq : ∀ u ∈ us, ∀ v ∈ us, u ^ 2 = v ^ 2 → u = v)
    (h0 : ∀ u ∈ us, u ≠ 0) {A L R : G} (hA : A ≠ 0) : ∃ u : Fin 3 → S, (∀ i, u i ∈ us) ∧
      (∀ i j, i ≠ j → u i ^ 2 ≠ u j ^ 2) ∧ ∀ i, A + u i ^ 2 • L + (u i)⁻¹ ^ 2 • R ≠ 0 := by
  classical
  have pick : ∀ T ⊆ us, 2 < T.card → ∃ u : Fin 3 → S, (∀ i, u i ∈ T) ∧ ∀ i j, i ≠ j → u i ^ 2 ≠ u j ^ 2 := by
    intro T hT h2
    obtain ⟨a, ha, b, hb, c, hc, hab, hac, hbc⟩ := Finset.two_lt_card.1 h2
    refine ⟨![a, b, c], ?_, ?_⟩
    · intro i
      fin_cases i <;> simpa
    · intro i j hij he
      fin_cases i <;> fin_cases j <;> first
        | exact hij rfl
        | exact hab (hsq _ (hT ha) _ (hT hb) he)
        | exact hab (hsq _ (hT hb) _ (hT ha) he).symm
        | exact hac (hsq _ (hT ha) _ (hT hc) he)
        | exact hac (hsq _ (hT hc) _ (hT ha) he).symm
        | exact hbc (hsq _ (hT hb) _ (hT hc) he)
        | exact hbc (hsq _ (hT hc) _ (hT hb) he).symm
  have hcard := Finset.card_filter_add_card_filter_not (s := us) fun u => A + u ^ 2 • L + u⁻¹ ^ 2 • R = 0
  have hbad : (us.filter fun u => A + u ^ 2 • L + u⁻¹ ^ 2 • R = 0).card ≤ 2 := by
    by_contra hno
    obtain ⟨u, hu, hd⟩ := pick _ (Finset.filter_subset _ _) (not_le.1 hno)
    apply hA
    rw [← node_solve hd (fun i => h0 _ (Finset.filter_subset _ _ (hu i))) A L R]
    exact Finset.sum_eq_zero fun i _ => by rw [(Finset.mem_filter.1 (hu i)).2, smul_zero]
  obtain ⟨u, hu, hd⟩ := pick (us.filter fun u => ¬ A + u ^ 2 • L + u⁻¹ ^ 2 • R = 0) (Finset.filter_subset _ _)
    (by omega)
  exact ⟨u, fun i => Finset.filter_subset _ _ (hu i), hd, fun i => (Finset.mem_filter.1 (hu i)).2⟩

omit [Field S] [DecidableEq S] in
/-- There is a path of any length. -/
theorem exists_path {ch : Challenges S} {y x yNew z : S} (h : ∀ pre, 5 ≤ (ch.us y x yNew z pre).card) :
    ∀ (k : ℕ) (pre : List S), ∃ us, us.length = k ∧ ch.Path y x yNew z pre us
  | 0, _ => ⟨[], rfl, trivial⟩
  | k + 1, pre => by
    obtain ⟨u, hu⟩ := Finset.card_pos.1 (show 0 < (ch.us y x yNew z pre).card from by have := h pre; omega)
    obtain ⟨us, h1, h2⟩ := exists_path h k (pre ++ [u])
    exact ⟨u :: us, by simp [h1], hu, h2⟩

/-- A tree on which the folded commitment is nowhere the identity -/
theorem exists_tree {rep : C → G → Prop} {P : Prover C S} {ch : Challenges S} {y x yNew z : S} {j : ℕ}
    (hus : ∀ pre, 5 ≤ (ch.us y x yNew z pre).card ∧
      ∀ u ∈ ch.us y x yNew z pre, ∀ v ∈ ch.us y x yNew z pre, u ^ 2 = v ^ 2 → u = v)
    (hL : ∀ pre, ∀ p ∈ (P.round y x yNew z pre).L, ∃ a, rep p a)
    (hR : ∀ pre, ∀ p ∈ (P.round y x yNew z pre).R, ∃ a, rep p a) : ∀ (k : ℕ) (pre : List S) (A : G), A ≠ 0 →
    (∀ us, us.length = k → ch.Path y x yNew z pre us → (∀ u ∈ us, u ≠ 0) ∧
      ∀ round ∈ P.rounds y x yNew z pre us, j < round.L.length ∧ j < round.R.length) →
    ∃ tree : Tree C S k, tree.Distinct ∧ P.Answers ch y x yNew z pre tree ∧ ∀ rounds us a gN,
      Branch tree rounds us a gN → us.length = k ∧ ch.Path y x yNew z pre us ∧
        rounds = P.rounds y x yNew z pre us ∧ (a, gN) = P.last y x yNew z (pre ++ us) ∧
        ∃ B, Folded rep j rounds us A B ∧ B ≠ 0
  | 0, pre, A, hA, _ => by
    refine ⟨.leaf (P.last y x yNew z pre).1 (P.last y x yNew z pre).2, trivial, rfl, ?_⟩
    rintro rounds us a gN ⟨⟩
    exact ⟨rfl, trivial, rfl, by rw [List.append_nil], A, rfl, hA⟩
  | k + 1, pre, A, hA, hall => by
    have hext : ∀ u ∈ ch.us y x yNew z pre, ∃ us, us.length = k ∧ ch.Path y x yNew z (pre ++ [u]) us := fun u hu =>
      exists_path (fun p => (hus p).1) k _
    have hone : ∀ u ∈ ch.us y x yNew z pre, u ≠ 0 ∧ j < (P.round y x yNew z pre).L.length ∧
        j < (P.round y x yNew z pre).R.length := fun u hu => by
      obtain ⟨us, h1, h2⟩ := hext u hu
      obtain ⟨h3, h4⟩ := hall (u :: us) (by simp [h1]) ⟨hu, h2⟩
      exact ⟨h3 u (List.mem_cons_self ..), h4 _ (List.mem_cons_self ..)⟩
    obtain ⟨hcard, hsq⟩ := hus pre
    obtain ⟨u0, hu0⟩ := Finset.card_pos.1 (show 0 < (ch.us y x yNew z pre).card by omega)
    obtain ⟨-, jL, jR⟩ := hone u0 hu0
    obtain ⟨L, rL⟩ := hL pre _ (List.getElem_mem jL)
    obtain ⟨R, rR⟩ := hR pre _ (List.getElem_mem jR)
    obtain ⟨u, u1, u2, u3⟩ := three_of_five hcard hsq (fun u hu => (hone u hu).1) (L := L) (R := R) hA
    have := fun i => exists_tree (rep := rep) hus hL hR k (pre ++ [u i]) _ (u3 i) fun us h1 h2 => by
      obtain ⟨h3, h4⟩ := hall (u i :: us) (by simp [h1]) ⟨u1 i, h2⟩
      exact ⟨fun v hv => h3 v (List.mem_cons_of_mem _ hv), fun r hr => h4 r (List.mem_cons_of_mem _ hr)⟩
    choose next n1 n2 n3 using this
    refine ⟨.node (P.round y x yNew z pre) u next, ⟨u2, n1⟩, ⟨rfl, fun i => ⟨u1 i, n2 i⟩⟩, ?_⟩
    rintro rounds us a gN hb
    cases hb with
    | node i hb =>
      obtain ⟨b1, b2, b3, b4, B, b5, b6⟩ := n3 i _ _ _ _ hb
      refine ⟨by simp [b1], ⟨u1 i, b2⟩, by rw [b3]; rfl, by rw [b4]; simp, B, ?_, b6⟩
      exact ⟨_, _, L, R, List.getElem?_eq_getElem jL, List.getElem?_eq_getElem jR, rL, rR, b5⟩

end

end Proofs
end Halo
