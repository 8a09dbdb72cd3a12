import Verif.Lemmas.Recursion.FollowSynth
/-!
# A prover that lies about the sums of the last round
-/
set_option linter.unusedSectionVars false

namespace Halo
namespace Recursion
open Circuit Proofs
variable {E : CurveConsts} {F S : Type} [Field F] [DecidableEq F] [LawfulField F] [Field S] [DecidableEq S]
  [LawfulField S] {w : Var → F} {one : Var} {N : Prop}

local notation s " ⋆ " A => LawfulField.val s • A

theorem smul_ne [HaloCurve E F S] {s : S} (hs : s ≠ 0) {A : Pt (E.b : F)} (hA : A ≠ 0) : (s ⋆ A) ≠ 0 := by
  intro h
  apply hA
  rw [← HaloCurve.smul_one_scalar (S := S) A, ← inv_mul_cancel₀ hs, HaloCurve.smul_mul_scalar, h, smul_zero]

/-- The points and the openings of an entry are not zero. -/
structure EntryNonzero (E : CurveConsts) (e : Entry F S) : Prop where
  L : ∀ A : Pt (E.b : F), Denotes (E.b : F) e.1 A → A ≠ 0
  R : ∀ A : Pt (E.b : F), Denotes (E.b : F) e.2.1 A → A ≠ 0
  l : e.2.2.1 ≠ 0
  r : e.2.2.2 ≠ 0

theorem PtOk.elim (n : N) {P : CurvePoint F} {A : Pt (E.b : F)} (h : PtOk N w P A) : P.Honest w A := by
  obtain ⟨A', hA, e⟩ := h
  exact e n ▸ hA

theorem foldEntryTo_follow [HaloCurve E F S] (n : N) (h1 : w one = 1) {G : Pt (E.b : F)} (hG0 : G ≠ 0)
    {bits : List AllocatedBit} {ch : Challenge S} (hc : ChOk N w bits ch.challengeSqPacked)
    (hg : N → ch.Good) {x : CurvePoint F × CurvePoint F} {pv : Proj F × S} (hx : PvOk N w G x pv)
    {y : CurvePoint F × CurvePoint F × CurvePoint F × CurvePoint F} {e : Entry F S} (hy : EntOk N w G y e)
    (he : EntryNonzero E e) {T U : Pt (E.b : F)} (hT : T ≠ 0) (hU : U ≠ 0) (t u : F × F) :
    Complete w (foldEntryTo E S (coordinates T, t, coordinates U, u) one bits x y) fun r =>
      CurvePoint.HonestXy w r.1 t ∧ CurvePoint.HonestXy w r.2 u := by
  have gc := HaloCurve.good E F S
  obtain ⟨⟨A, hA, hp⟩, hv⟩ := hx
  obtain ⟨⟨B, hB, hL⟩, ⟨C, hC, hR⟩, hl, hr⟩ := hy
  have c1 : (Util.getChallengeScalar ch.challengeSqPacked : S) ≠ 0 := by
    rw [(hg n).packed, (hg n).sq]
    exact pow_ne_zero _ (hg n).ne
  have c2 := inv_ne_zero c1
  refine Complete.bind (endo_follow h1 hL hc) fun L hL => ?_
  refine Complete.bind (invEndo_follow h1 hR hc) fun R hR => ?_
  refine Complete.bind (endo_follow h1 hl hc) fun l hl => ?_
  refine Complete.bind (invEndo_follow h1 hr hc) fun r hr => ?_
  refine Complete.bind (CurvePoint.addTo_complete_point gc h1 (hp.elim n) (hL.elim n)
    (smul_ne c1 (he.L _ hB)) hT) ?_
  rintro p ⟨P', hP0, hP'⟩
  refine Complete.bind (CurvePoint.addTo_complete_xy gc h1 hP' (hR.elim n) hP0 (smul_ne c2 (he.R _ hC)) t) fun p hp => ?_
  refine Complete.bind (CurvePoint.addTo_complete_point gc h1 (hv.elim n) (hl.elim n)
    (smul_ne c1 (smul_ne he.l hG0)) hU) ?_
  rintro v ⟨V', hV0, hV'⟩
  refine Complete.bind (CurvePoint.addTo_complete_xy gc h1 hV' (hr.elim n) hV0 (smul_ne c2 (smul_ne he.r hG0)) u)
    fun v hv => ?_
  exact (complete_ret _ _).2 ⟨hp, hv⟩

theorem mapProg_index {α β : Type} {f : α → Prog F β} {l : List α} {P : ℕ → β → Prop}
    (h : ∀ j, (hj : j < l.length) → Complete w (f l[j]) (P j)) :
    Complete w (mapProg f l) fun r => r.length = l.length ∧ ∀ j, (hj : j < r.length) → P j r[j] := by
  induction l generalizing P with
  | nil => exact (Logic.complete w).ret ⟨rfl, fun j hj => absurd hj (by simp)⟩
  | cons x l ih =>
    refine Complete.bind (h 0 (by simp)) fun y hy => ?_
    refine Complete.bind (ih (P := fun j => P (j + 1)) fun j hj => ?_) ?_
    · exact h (j + 1) (by simpa using hj)
    rintro ys ⟨e, hys⟩
    refine (complete_ret _ _).2 ⟨by simp [e], fun j hj => ?_⟩
    cases j with
    | zero => exact hy
    | succ j => simpa using hys j (by simpa using hj)

/-- The claims that pass the final check -/
def GoodClaims (G GN : Pt (E.b : F)) (ins : List ((Proj F × S) × S)) (as : List S) (claims : ℕ → Claims F) : Prop :=
  ∀ (j : ℕ) (y a : S), (ins.map (·.2))[j]? = some y → as[j]? = some a →
    claims j = (coordinates G, coordinates (a ⋆ GN), coordinates G, coordinates ((a * y) ⋆ G))

/-- The lies lead to points that pass the final check. -/
theorem folds_cheat [HaloCurve E F S] (n : N) (h1 : w one = 1) {G GN : Pt (E.b : F)} (hG0 : G ≠ 0)
    {ess : List (List (Entry F S))} {chs : List (Challenge S)} {ins : List ((Proj F × S) × S)} {as : List S}
    {k : ℕ} (hk : ess.length = k) (hk0 : 0 < k)
    (hlen : ∀ es ∈ ess, es.length = ins.length) (has : as.length = ins.length)
    (hlast : ∀ es, ess[k - 1]? = some es → ∀ e ∈ es, EntryNonzero E e) {claims : ℕ → Claims F}
    (hcl : GoodClaims G GN ins as claims) :
    Folds N w one (cheatFold E S k claims) G GN ess chs ins as := by
  let := Proj.curveOps E F S
  refine ⟨fun j x => if j < k then List.Forall₂ (PvOk N w G) x (pvAfter E (ess.take j) (chs.take j) (ins.map (·.1)))
    else x.length = ins.length ∧ ∀ j, (h : j < x.length) → ∀ y a, (ins.map (·.2))[j]? = some y → as[j]? = some a →
      XyOk N w x[j].1 (a ⋆ GN) ∧ XyOk N w x[j].2 ((a * y) ⋆ G), ?_, ?_, ?_, ?_⟩
  · intro x hx
    rw [if_pos hk0]
    simpa [pvAfter] using hx
  · intro j x hx
    split at hx
    · rw [hx.length_eq, pvAfter_length fun es h => by
        rw [List.length_map]; exact hlen es (List.mem_of_mem_take h), List.length_map]
    · exact hx.1
  · intro j h h' bits x y hx hy hb hg
    rw [if_pos (by omega)] at hx
    rw [cheatFold]
    by_cases hj : j + 1 = k
    · simp only [hj, lt_irrefl, if_false, if_true]
      have hxl : x.length = ins.length := by
        rw [hx.length_eq, pvAfter_length fun es h => by
          rw [List.length_map]; exact hlen es (List.mem_of_mem_take h), List.length_map]
      have hyl : y.length = ins.length := by rw [hy.length_eq, hlen _ (List.getElem_mem h)]
      refine Complete.mono ?_ (mapProg_index (P := fun j r => ∀ b a, (ins.map (·.2))[j]? = some b → as[j]? = some a →
        XyOk N w r.1 (a ⋆ GN) ∧ XyOk N w r.2 ((a * b) ⋆ G)) fun i hi => ?_)
      · rintro r ⟨e, hr⟩
        refine ⟨?_, hr⟩
        rw [e, List.length_zipIdx, List.length_zip, hxl, hyl, min_self]
      · rw [List.length_zipIdx, List.length_zip, hxl, hyl, min_self] at hi
        rw [List.getElem_zipIdx, List.getElem_zip]
        have e := hcl i ins[i].2 as[i] (by rw [List.getElem?_map, List.getElem?_eq_getElem hi]; rfl)
          (List.getElem?_eq_getElem (by omega))
        simp only [zero_add]
        rw [e]
        refine Complete.mono ?_ (foldEntryTo_follow n h1 hG0 hb hg
          ((List.forall₂_iff_get.1 hx).2 i (by omega) (by rw [← hx.length_eq]; omega))
          ((List.forall₂_iff_get.1 hy).2 i (by omega) (by rw [← hy.length_eq]; omega))
          (hlast _ (by rw [show k - 1 = j by omega]; exact List.getElem?_eq_getElem h) _ (List.get_mem _ _))
          hG0 hG0 _ _)
        rintro r ⟨r1, r2⟩ b a hb ha
        rw [List.getElem?_map, List.getElem?_eq_getElem hi] at hb
        rw [List.getElem?_eq_getElem (by omega)] at ha
        cases hb
        cases ha
        exact ⟨⟨_, r1, fun _ => rfl⟩, ⟨_, r2, fun _ => rfl⟩⟩
    · simp only [if_neg hj, if_pos (show j + 1 < k by omega)]
      rw [pvAfter_take h h']
      exact foldEntries_follow h1 hb hg hx hy
  · intro x hx
    rw [if_neg (by omega)] at hx
    exact hx.2

end Recursion
end Halo
