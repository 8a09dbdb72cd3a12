import Verif.Lemmas.Proofs.SoundRun
import Verif.Lemmas.Proofs.SoundAlgebra
/-!
# The extractor
-/
namespace Halo
namespace Proofs
open Circuit Util
set_option linter.unusedSectionVars false

section
variable {C F S G : Type} [Field F] [LawfulField F] [Field S] [DecidableEq S] [LawfulField S]
  [AddCommGroup G] [Module S G] [CurveOps C F S] {rep : C → G → Prop} {α : Type}
  {cpus : ℕ} {lnCeil : ℕ → ℕ} {st : Statement C S α} {P : Prover C S} {s : System S}
  {uso : List S} {g : ℕ → G} {K : C} {ch : Challenges S} {positions : List ℕ}

/-- Everything that the extractor tries is accepted. -/
def AllAccepted (F : Type) [Field F] [LawfulField F] {C S : Type} [Field S] [DecidableEq S] [LawfulField S] [CurveOps C F S]
    {α : Type} (cpus : ℕ) (lnCeil : ℕ → ℕ) (st : Statement C S α) (P : Prover C S) (ch : Challenges S) : Prop :=
  ∀ y x yNew z us, ch.Tried y x yNew z → us.length = st.params.k → ch.Path y x yNew z [] us →
    st.Accepts (F := F) cpus lnCeil P y x yNew z us

variable (L : LawfulOps C F S G rep) (hst : Setting rep g cpus lnCeil st s K uso P)
  (hb : Binding g st P ch positions) (he : ch.Enough st.params.k s.lcs.length)
  (hacc : AllAccepted F cpus lnCeil st P ch)
include L hst hb he hacc

/-- The extractor opens every claim about a commitment that is not the identity. -/
theorem node_claim {y x yNew z : S} (ht : ch.Tried y x yNew z) {j : ℕ} (hj : j < 5)
    {claim : PolynomialOpening C S} (hc : (claimsOf st s K uso P y x yNew z)[j]? = some claim) {A : G}
    (hA : rep claim.commitment A) (hA0 : A ≠ 0) :
    ∃ tree : Tree C S st.params.k, tree.Distinct ∧ P.Answers ch y x yNew z [] tree ∧
      ∑ m ∈ Finset.range (2 ^ st.params.k), tree.coeff j m • g m = A ∧
      value (2 ^ st.params.k) (tree.coeff j) claim.point = claim.opening := by
  have hrun := fun us hl hp => accepted_run L hst hb ht hl hp (hacc y x yNew z us ht hl hp)
  obtain ⟨tree, t1, t2, t3⟩ := exists_tree (rep := rep) (P := P) (j := j) (he.us y x yNew z ht)
    (hst.curve.L y x yNew z) (hst.curve.R y x yNew z) st.params.k [] A hA0 fun us hl hp =>
      ⟨(hrun us hl hp).2.1, fun r hr => by
        have := (hrun us hl hp).2.2.1 r hr
        omega⟩
  obtain ⟨hj', hc⟩ := List.getElem?_eq_some_iff.1 hc
  have hv := extract_valid L tree t1 (instances := claimsOf st s K uso P y x yNew z) (fun rounds us a gN hbr => by
    obtain ⟨b1, b2, b3, b4, -⟩ := t3 _ _ _ _ hbr
    rw [List.nil_append] at b4
    have := (hrun us b1 b2).1
    rw [← b4, ← b3] at this
    exact this) j hj' (fun rounds us a gN hbr => by
    obtain ⟨-, -, -, -, B, b5, b6⟩ := t3 _ _ _ _ hbr
    exact ⟨A, B, by rw [hc]; exact hA, b5, b6⟩)
  have hlen : (tree.extract j).length = 2 ^ st.params.k := by simp [Tree.extract]
  have hoff : ∀ e, offset (2 ^ st.params.k) e (tree.extract j) = 0 := fun e => by simp [offset, hlen]
  refine ⟨tree, t1, t2, ?_, ?_⟩
  · have := hv.commitment
    rw [hoff, combine_extract, hc] at this
    exact L.functional this hA
  · have := hv.opening
    rw [hoff, combine_extract, hc] at this
    exact this.symm

omit L hst hb he hacc in
theorem tried_of {y x yNew z : S} (hy : y ∈ ch.ys) (hx : x ∈ ch.xs y) (hn : yNew ∈ ch.yNews y x)
    (hz : z ∈ ch.zs y x yNew) : ch.Tried y x yNew z := ⟨hy, hx, hn, hz⟩

/-- a vector that the extractor has found, with its commitment and its value -/
def Opens (g : ℕ → G) (st : Statement C S α) (P : Prover C S) (ch : Challenges S) (positions : List ℕ) (A : G)
    (x e : S) : Prop :=
  ∃ w, Found st P ch positions w ∧ ∑ m ∈ Finset.range (2 ^ st.params.k), w m • g m = A ∧
    value (2 ^ st.params.k) w x = e

variable {y x yNew : S} (hy : y ∈ ch.ys) (hx : x ∈ ch.xs y) (hn : yNew ∈ ch.yNews y x)
include hy hx hn

/-- The second, the third and the fifth claim, each of which is about one commitment -/
theorem node_single {j : ℕ} (hj : j < 5) (hp : parts j = 1) {p : C} {e point : S} {r : Bool}
    (hc : ∀ z, (claimsOf st s K uso P y x yNew z)[j]? = some ⟨p, e, point, r⟩) {A : G} (hA : rep p A) (hA0 : A ≠ 0) :
    Opens g st P ch positions A point e := by
  have := open_split (st := st) (P := P) (ch := ch) (positions := positions) (y := y) (x := x) (yNew := yNew) j
    (g := g) (a := fun _ => A) (e := fun _ => e) (point := point)
    (by have := he.zs y hy x hx yNew hn; omega) (fun z hz h0 => by
      have ht := tried_of hy hx hn hz
      obtain ⟨tree, h1, h2, h3, h4⟩ := node_claim L hst hb he hacc ht hj (hc z) hA hA0
      refine ⟨ht, tree, h1, h2, ?_, ?_⟩
      · rw [hp, Finset.sum_range_one, pow_zero, one_smul, h3]
      · rw [hp, Finset.sum_range_one, pow_zero, one_mul, h4])
    ⟨0, by omega, hA0⟩ (i := 0) (by omega)
  exact this

/-- The fourth claim, which is about two commitments -/
theorem node_two {c k : G} (hc : rep (P.c y x) c) (hk : rep K k) (h0 : k ≠ 0) :
    Opens g st P ch positions c y (P.openings y x yNew).sxCur := by
  have := open_split (st := st) (P := P) (ch := ch) (positions := positions) (y := y) (x := x) (yNew := yNew) 3
    (g := g) (a := fun l => [c, k].getD l 0)
    (e := fun l => [(P.openings y x yNew).sxCur, opening (kPoly (kInputs s st.inputs)) y].getD l 0) (point := y)
    (by have := he.zs y hy x hx yNew hn; simp only [parts]; norm_num; omega) (fun z hz h0 => by
      have ht := tried_of hy hx hn hz
      have ea : ∑ l ∈ Finset.range (parts 3), z ^ l • [c, k].getD l 0 = c + z • k := by
        simp [parts, Finset.sum_range_succ]
      have ee : ∑ l ∈ Finset.range (parts 3), z ^ l *
          [(P.openings y x yNew).sxCur, opening (kPoly (kInputs s st.inputs)) y].getD l 0 =
          (P.openings y x yNew).sxCur + opening (kPoly (kInputs s st.inputs)) y * z := by
        simp [parts, Finset.sum_range_succ, mul_comm]
      rw [ea] at h0 ⊢
      rw [ee]
      obtain ⟨tree, h1, h2, h3, h4⟩ := node_claim L hst hb he hacc ht (j := 3) (by norm_num) rfl
        (L.add hc (L.mul z hk)) h0
      exact ⟨ht, tree, h1, h2, h3, h4⟩)
    ⟨1, by simp [parts], by simpa using h0⟩ (i := 0) (by simp [parts])
  exact this

/-- The first claim, which is about seven commitments -/
theorem node_seven {r so sc tp tn sn go : G} (hr : rep P.r r) (hso : rep st.old.sNewCommitment so)
    (hsc : rep (P.sCur y) sc) (htp : rep (P.tPositive y) tp) (htn : rep (P.tNegative y) tn)
    (hsn : rep (P.sNew y x yNew) sn) (hgo : rep st.old.gNew go) (h0 : sn ≠ 0) :
    Opens g st P ch positions r x (P.openings y x yNew).rx ∧
    Opens g st P ch positions so x (P.openings y x yNew).sxOld ∧
    Opens g st P ch positions sc x (P.openings y x yNew).sxCur ∧
    Opens g st P ch positions tp x (P.openings y x yNew).txPositive ∧
    Opens g st P ch positions tn x (P.openings y x yNew).txNegative ∧
    Opens g st P ch positions sn x (P.openings y x yNew).sxNew ∧
    Opens g st P ch positions go x (collapse uso (x ^ ·)) := by
  have := fun i hi => open_split (st := st) (P := P) (ch := ch) (positions := positions) (y := y) (x := x) (yNew := yNew) 0
    (g := g) (a := fun l => [go, sn, tn, tp, sc, so, r].getD l 0)
    (e := fun l => [collapse uso (x ^ ·), (P.openings y x yNew).sxNew, (P.openings y x yNew).txNegative,
      (P.openings y x yNew).txPositive, (P.openings y x yNew).sxCur, (P.openings y x yNew).sxOld,
      (P.openings y x yNew).rx].getD l 0) (point := x)
    (by have := he.zs y hy x hx yNew hn; simp only [parts]; norm_num; omega) (fun z hz h0 => by
      have ht := tried_of hy hx hn hz
      have ea : ∑ l ∈ Finset.range (parts 0), z ^ l • [go, sn, tn, tp, sc, so, r].getD l 0 =
          z • (z • (z • (z • (z • (z • r + so) + sc) + tp) + tn) + sn) + go := by
        simp only [parts, if_true, Finset.sum_range_succ, Finset.sum_range_zero, List.getD_cons_zero,
          List.getD_cons_succ]
        module
      have ee : ∑ l ∈ Finset.range (parts 0), z ^ l * [collapse uso (x ^ ·), (P.openings y x yNew).sxNew,
            (P.openings y x yNew).txNegative, (P.openings y x yNew).txPositive, (P.openings y x yNew).sxCur,
            (P.openings y x yNew).sxOld, (P.openings y x yNew).rx].getD l 0 =
          ((((((P.openings y x yNew).rx * z + (P.openings y x yNew).sxOld) * z + (P.openings y x yNew).sxCur) * z +
            (P.openings y x yNew).txPositive) * z + (P.openings y x yNew).txNegative) * z +
            (P.openings y x yNew).sxNew) * z + collapse uso (x ^ ·) := by
        simp only [parts, if_true, Finset.sum_range_succ, Finset.sum_range_zero, List.getD_cons_zero,
          List.getD_cons_succ]
        ring
      rw [ea] at h0 ⊢
      rw [ee]
      obtain ⟨tree, h1, h2, h3, h4⟩ := node_claim L hst hb he hacc ht (j := 0) (by norm_num) rfl
        (L.add (L.mul z (L.add (L.mul z (L.add (L.mul z (L.add (L.mul z (L.add (L.mul z (L.add (L.mul z hr)
          hso)) hsc)) htp)) htn)) hsn)) hgo) h0
      exact ⟨ht, tree, h1, h2, h3, h4⟩)
    ⟨1, by simp [parts], by simpa using h0⟩ (i := i) hi
  exact ⟨this 6 (by simp [parts]), this 5 (by simp [parts]), this 4 (by simp [parts]), this 3 (by simp [parts]),
    this 2 (by simp [parts]), this 1 (by simp [parts]), this 0 (by simp [parts])⟩

end
end Proofs
end Halo
