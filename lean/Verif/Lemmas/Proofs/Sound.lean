import Verif.Lemmas.Proofs.SoundNode
/-!
# Soundness of proofs
-/
namespace Halo
namespace Proofs
open Circuit Util
set_option linter.unusedSectionVars false

section
variable {C F S G : Type} [Field F] [LawfulField F] [Field S] [DecidableEq S] [LawfulField S]
  [AddCommGroup G] [Module S G] [CurveOps C F S] {rep : C → G → Prop} {α : Type}
  {cpus : ℕ} {lnCeil : ℕ → ℕ} {st : Statement C S α} {P : Prover C S} {s : System S}
  {uso : List S} {g : ℕ → G} {K : C} {ch : Challenges S} {positions : List ℕ}

open Classical in
/-- the vector that the extractor has found for a commitment, or zero -/
noncomputable def vec (g : ℕ → G) (st : Statement C S α) (P : Prover C S) (ch : Challenges S) (positions : List ℕ)
    (A : G) : ℕ → S :=
  if h : ∃ w, Found st P ch positions w ∧ ∑ m ∈ Finset.range (2 ^ st.params.k), w m • g m = A then h.choose
  else fun _ => 0

theorem vec_found (A : G) : Found st P ch positions (vec g st P ch positions A) := by
  unfold vec
  split
  · rename_i h
    exact h.choose_spec.1
  · exact .zero

theorem vec_eq_of (hb : Binding g st P ch positions) {A : G} {w : ℕ → S} (hw : Found st P ch positions w)
    (h : ∑ m ∈ Finset.range (2 ^ st.params.k), w m • g m = A) :
    (∑ m ∈ Finset.range (2 ^ st.params.k), vec g st P ch positions A m • g m = A) ∧
      ∀ m < 2 ^ st.params.k, vec g st P ch positions A m = w m := by
  have hex : ∃ w, Found st P ch positions w ∧ ∑ m ∈ Finset.range (2 ^ st.params.k), w m • g m = A := ⟨w, hw, h⟩
  have e : vec g st P ch positions A = hex.choose := dif_pos hex
  have hs := hex.choose_spec
  rw [← e] at hs
  exact ⟨hs.2, hb _ _ hs.1 hw (hs.2.trans h.symm)⟩

theorem Opens.value (hb : Binding g st P ch positions) {A : G} {x e : S} (h : Opens g st P ch positions A x e) :
    Proofs.value (2 ^ st.params.k) (vec g st P ch positions A) x = e := by
  obtain ⟨w, h1, h2, h3⟩ := h
  rw [← h3]
  exact value_congr (vec_eq_of hb h1 h2).2 x

theorem Opens.commitment (hb : Binding g st P ch positions) {A : G} {x e : S} (h : Opens g st P ch positions A x e) :
    ∑ m ∈ Finset.range (2 ^ st.params.k), vec g st P ch positions A m • g m = A := by
  obtain ⟨w, h1, h2, -⟩ := h
  exact (vec_eq_of hb h1 h2).1

/-- The extractor finds an assignment of the circuit, and the old leftovers are right. -/
theorem sound (L : LawfulOps C F S G rep) (hst : Setting rep g cpus lnCeil st s K uso P)
    (hb : Binding g st P ch (s.inputs.map Prod.fst)) (he : ch.Enough st.params.k s.lcs.length)
    (hacc : AllAccepted F cpus lnCeil st P ch) (hso : ∃ A, rep st.old.sNewCommitment A)
    (hgo : ∃ A, rep st.old.gNew A) :
    (∃ v, Found st P ch (s.inputs.map Prod.fst) v ∧
      rep P.r (∑ m ∈ Finset.range (2 ^ st.params.k), v m • g m) ∧ s.Satisfied (wires st.params.n v) st.inputs) ∧
    ValidLeftovers rep g st.params st.circuit st.old := by
  obtain ⟨so, hso⟩ := hso
  obtain ⟨go, hgo⟩ := hgo
  obtain ⟨r, hr⟩ := hst.curve.r
  choose sc hsc using hst.curve.sCur
  choose tp htp using hst.curve.tPositive
  choose tn htn using hst.curve.tNegative
  choose c hc using hst.curve.c
  choose sn hsn using hst.curve.sNew
  have hk3 := hst.params.k_gt
  have hn := hst.params.n_eq
  have hd : 2 ^ st.params.k = 4 * st.params.n := by
    obtain ⟨m, hm⟩ : ∃ m, st.params.k = m + 2 := ⟨st.params.k - 2, by omega⟩
    rw [hn, hm, Nat.add_sub_cancel, pow_add]
    ring
  have hn0 : 0 < st.params.n := by rw [hn]; positivity
  have hq := hst.lcs
  have hkl := (hst.shape.kLength st.inputs).trans hst.lcs
  -- the commitment to the public inputs is not the identity
  have hk0 : combine g 0 (kPoly (kInputs s st.inputs)) ≠ 0 := by
    intro h0
    have := hb _ _ .k .zero (by
      rw [sum_getD (l := kPoly (kInputs s st.inputs)) hkl, h0]
      simp) 1 (by omega)
    rw [hst.shape.k_ne st.inputs] at this
    exact one_ne_zero this
  -- nor is that to `s(X, yNew)`
  have hs0 : ∀ {y x yNew : S}, y ∈ ch.ys → x ∈ ch.xs y → yNew ∈ ch.yNews y x →
      (sxVec st.params.n s.lcs yNew).getD (st.params.n - 1) 0 ≠ 0 →
      combine g 0 (sxVec st.params.n s.lcs yNew) ≠ 0 := by
    intro y x yNew hy hx hyn hne h0
    have := hb _ _ (.s hy hx hyn (hst.shape.sx yNew)) .zero (by
      rw [sum_getD (by rw [sxVec_length]; omega), h0]
      simp) (st.params.n - 1) (by omega)
    exact hne this
  have hz : ∀ {A : G}, A = 0 → ∀ m < 4 * st.params.n, vec g st P ch (s.inputs.map Prod.fst) A m = 0 := by
    intro A hA
    rw [← hd]
    exact (vec_eq_of hb .zero (by simp [hA])).2
  have hone : ∀ {y x yNew : S}, y ∈ ch.ys → x ∈ ch.xs y → yNew ∈ ch.yNews y x →
      ∃ z us, ch.Tried y x yNew z ∧ us.length = st.params.k ∧ ch.Path y x yNew z [] us := by
    intro y x yNew hy hx hyn
    obtain ⟨z, hz⟩ := Finset.card_pos.1 (show 0 < (ch.zs y x yNew).card by
      have := he.zs y hy x hx yNew hyn
      omega)
    have ht := tried_of hy hx hyn hz
    obtain ⟨us, h1, h2⟩ := exists_path (fun pre => (he.us y x yNew z ht pre).1) st.params.k []
    exact ⟨z, us, ht, h1, h2⟩
  choose zf uf t1 t2 t3 using @hone
  have hrun := fun {y x yNew : S} (hy : y ∈ ch.ys) (hx : x ∈ ch.xs y) (hyn : yNew ∈ ch.yNews y x) =>
    (accepted_run L hst hb (t1 hy hx hyn) (t2 hy hx hyn) (t3 hy hx hyn)
      (hacc y x yNew _ _ (t1 hy hx hyn) (t2 hy hx hyn) (t3 hy hx hyn))).2.2.2
  have hsn' : ∀ {y x yNew : S}, y ∈ ch.ys → x ∈ ch.xs y → yNew ∈ ch.yNews y x →
      (sxVec st.params.n s.lcs yNew).getD (st.params.n - 1) 0 ≠ 0 →
      combine g 0 (sxVec st.params.n s.lcs yNew) = sn y x yNew ∧ sn y x yNew ≠ 0 := by
    intro y x yNew hy hx hyn hne
    have h0 := hs0 hy hx hyn hne
    have := ((hrun hy hx hyn).1 _ (hsn y x yNew)).resolve_left h0
    exact ⟨this, this ▸ h0⟩
  have known : Known st.params.n s.lcs (fun y => opening (kPoly (kInputs s st.inputs)) y)
      (fun x => collapse uso (x ^ ·)) st.old.yNew P.openings ch (vec g st P ch (s.inputs.map Prod.fst) r)
      (vec g st P ch (s.inputs.map Prod.fst) so) (vec g st P ch (s.inputs.map Prod.fst) go)
      (fun y => vec g st P ch (s.inputs.map Prod.fst) (sc y)) (fun y => vec g st P ch (s.inputs.map Prod.fst) (tp y))
      (fun y => vec g st P ch (s.inputs.map Prod.fst) (tn y))
      (fun y x => vec g st P ch (s.inputs.map Prod.fst) (c y x)) := by
    refine ⟨?_, ?_, ?_, ?_, ?_, ?_⟩
    · intro y hy x hx yn hyn
      exact ⟨(hrun hy hx hyn).2.1, (hrun hy hx hyn).2.2.1⟩
    · intro y hy x hx yn hyn hne
      obtain ⟨h1, h2⟩ := hsn' hy hx hyn hne
      obtain ⟨o1, o2, o3, o4, o5, o6, o7⟩ := node_seven L hst hb he hacc hy hx hyn hr hso (hsc y) (htp y) (htn y)
        (hsn y x yn) hgo h2
      rw [← hd]
      refine ⟨o1.value hb, o2.value hb, o3.value hb, o4.value hb, o5.value hb, ?_, o7.value hb⟩
      have hl : (sxVec st.params.n s.lcs yn).length ≤ 2 ^ st.params.k := by rw [sxVec_length]; omega
      rw [← o6.value hb, ← value_getD (d := 2 ^ st.params.k) hl]
      exact value_congr (fun m hm => ((vec_eq_of hb (.s hy hx hyn (hst.shape.sx yn)) (by
        rw [sum_getD hl, h1])).2 m hm).symm) x
    · by_cases h0 : r = 0
      · exact Or.inl (hz h0)
      · right
        intro y hy x hx yn hyn
        rw [← hd]
        exact (node_single L hst hb he hacc hy hx hyn (j := 1) (by norm_num) rfl (fun z => rfl) hr h0).value hb
    · intro y hy x hx yn hyn
      rw [← hd]
      exact (node_two L hst hb he hacc hy hx hyn (hc y x) hst.kRep hk0).value hb
    · intro y hy x hx
      by_cases h0 : c y x = 0
      · exact Or.inl (hz h0)
      · right
        intro yn hyn
        rw [← hd]
        exact ⟨(node_single L hst hb he hacc hy hx hyn (j := 2) (by norm_num) rfl (fun z => rfl) (hc y x) h0).value hb,
          (node_single L hst hb he hacc hy hx hyn (j := 4) (by norm_num) rfl (fun z => rfl) (hc y x) h0).value hb⟩
    · intro y hy x hx yn hyn
      exact (hrun hy hx hyn).2.2.2
  obtain ⟨k1, k2, k3⟩ := known.sound hst.shape hn0 hd (by omega) he (inputs := st.inputs) fun _ => rfl
  -- a place where everything is opened
  obtain ⟨y, hy⟩ := Finset.card_pos.1 (show 0 < ch.ys.card by have := he.ys; omega)
  obtain ⟨x, hx⟩ := Finset.card_pos.1 (show 0 < (ch.xs y).card by have := he.xs y hy; omega)
  obtain ⟨yn, hyn, hne⟩ := hst.shape.one hn0 hd he hy hx
  obtain ⟨o1, o2, -, -, -, -, o7⟩ := node_seven L hst hb he hacc hy hx hyn hr hso (hsc y) (htp y) (htn y)
    (hsn y x yn) hgo (hsn' hy hx hyn hne).2
  refine ⟨⟨_, vec_found r, ?_, k1⟩, ⟨_, hst.shape.sx _, ?_⟩, hst.oldLength, uso, hst.old, ?_⟩
  · rw [o1.commitment hb]
    exact hr
  · rw [← sum_getD (d := 2 ^ st.params.k) (by rw [sxVec_length]; omega), Finset.sum_congr rfl fun m hm => by
      rw [← k2 m (by rw [← hd]; exact Finset.mem_range.1 hm)], o2.commitment hb]
    exact hso
  · have hul : uso.length = st.params.k := hst.old.length.trans hst.oldLength
    rw [← sum_delta, hul, Finset.sum_congr rfl fun m hm => by
      rw [← k3 (fun m => collapse uso fun i => if i = m then (1 : S) else 0) (fun x => by
        rw [← hd, ← hul]
        exact (sum_delta uso fun i => x ^ i).symm) m (by rw [← hd]; exact Finset.mem_range.1 hm)], o7.commitment hb]
    exact hgo

end
end Proofs
end Halo
