import Verif.Lemmas.Proofs.Challenge
import Verif.Spec.Extract
/-!
# The extractor of the inner product argument
-/
namespace Halo
namespace Proofs
open Util Circuit

section
variable {C S G : Type} [Field S] [AddCommGroup G] [Module S G]

theorem nu_sums {s : Fin 3 → S} (h : ∀ i j, i ≠ j → s i ≠ s j) (h0 : ∀ i, s i ≠ 0) :
    ∑ i, nu s i = 1 ∧ ∑ i, nu s i * s i = 0 ∧ ∑ i, nu s i * (s i)⁻¹ = 0 := by
  have h01 := sub_ne_zero.2 (h 0 1 (by decide))
  have h02 := sub_ne_zero.2 (h 0 2 (by decide))
  have h12 := sub_ne_zero.2 (h 1 2 (by decide))
  have h10 := sub_ne_zero.2 (h 1 0 (by decide))
  have h20 := sub_ne_zero.2 (h 2 0 (by decide))
  have h21 := sub_ne_zero.2 (h 2 1 (by decide))
  have a0 := h0 0
  have a1 := h0 1
  have a2 := h0 2
  have e1 : (1 : Fin 3) + 1 = 2 := rfl
  have e2 : (1 : Fin 3) + 2 = 0 := rfl
  have e3 : (2 : Fin 3) + 1 = 0 := rfl
  have e4 : (2 : Fin 3) + 2 = 1 := rfl
  simp only [Fin.sum_univ_three, nu, zero_add, e1, e2, e3, e4]
  generalize s 0 = x at *
  generalize s 1 = y at *
  generalize s 2 = z at *
  have f1 : y - x = -(x - y) := by ring
  have f2 : z - x = -(x - z) := by ring
  have f3 : z - y = -(y - z) := by ring
  rw [f1, f2, f3]
  refine ⟨?_, ?_, ?_⟩ <;> (field_simp; ring)

/-- what the extractor computes, without lists -/
theorem combine_extract (j : ℕ) {k : ℕ} (tree : Tree C S k) (g : ℕ → G) :
    combine g 0 (tree.extract j) = ∑ m ∈ Finset.range (2 ^ k), tree.coeff j m • g m := by
  unfold combine Tree.extract
  rw [List.length_map, List.length_range]
  apply Finset.sum_congr rfl
  intro m hm
  rw [Finset.mem_range] at hm
  rw [List.getD_eq_getElem _ _ (by simpa using hm)]
  simp

theorem sum_node (j : ℕ) {k : ℕ} {round : InnerProductRound C S} {u : Fin 3 → S}
    {next : Fin 3 → Tree C S k} (g : ℕ → G) :
    ∑ m ∈ Finset.range (2 ^ (k + 1)), (Tree.node round u next).coeff j m • g m =
      ∑ i, nu (fun i => u i ^ 2) i • ∑ m ∈ Finset.range (2 ^ k),
        (next i).coeff j m • ((u i)⁻¹ • g m + u i • g (m + 2 ^ k)) := by
  rw [pow_succ, mul_two, Finset.sum_range_add]
  have e1 : ∑ m ∈ Finset.range (2 ^ k), (Tree.node round u next).coeff j m • g m =
      ∑ m ∈ Finset.range (2 ^ k), ∑ i, (nu (fun i => u i ^ 2) i * (u i)⁻¹ * (next i).coeff j m) • g m :=
    Finset.sum_congr rfl fun m hm => by
      rw [Tree.coeff, if_pos (Finset.mem_range.1 hm), Finset.sum_smul]
  have e2 : ∑ m ∈ Finset.range (2 ^ k), (Tree.node round u next).coeff j (2 ^ k + m) • g (2 ^ k + m) =
      ∑ m ∈ Finset.range (2 ^ k), ∑ i, (nu (fun i => u i ^ 2) i * u i * (next i).coeff j m) •
        g (m + 2 ^ k) :=
    Finset.sum_congr rfl fun m hm => by
      rw [Tree.coeff, if_neg (by omega), Finset.sum_smul, Nat.add_sub_cancel_left, add_comm m]
  rw [e1, e2, Finset.sum_comm, Finset.sum_comm (s := Finset.range _), ← Finset.sum_add_distrib]
  apply Finset.sum_congr rfl
  intro i _
  rw [Finset.smul_sum, ← Finset.sum_add_distrib]
  apply Finset.sum_congr rfl
  intro m _
  module

/-- three equations for different challenges -/
theorem node_solve {u : Fin 3 → S} (hd : ∀ i j, i ≠ j → u i ^ 2 ≠ u j ^ 2) (h0 : ∀ i, u i ≠ 0)
    (A L R : G) : ∑ i, nu (fun i => u i ^ 2) i • (A + u i ^ 2 • L + (u i)⁻¹ ^ 2 • R) = A := by
  obtain ⟨h1, h2, h3⟩ := nu_sums (s := fun i => u i ^ 2) hd (fun i => pow_ne_zero 2 (h0 i))
  have : ∀ i, nu (fun i => u i ^ 2) i • (A + u i ^ 2 • L + (u i)⁻¹ ^ 2 • R) =
      nu (fun i => u i ^ 2) i • A + (nu (fun i => u i ^ 2) i * u i ^ 2) • L +
        (nu (fun i => u i ^ 2) i * (u i ^ 2)⁻¹) • R := by
    intro i
    rw [inv_pow]
    module
  simp only [this, Finset.sum_add_distrib, ← Finset.sum_smul, h1, h2, h3]
  simp

/-- the opening of instance `j` after the rounds -/
def foldOpening (j : ℕ) : List (InnerProductRound C S) → List S → S → S
  | round :: rounds, u :: us, v =>
    foldOpening j rounds us (v + round.l.getD j 0 * u ^ 2 + round.r.getD j 0 * u⁻¹ ^ 2)
  | _, _, v => v

omit [Field S] in
theorem exists_branch {k : ℕ} (tree : Tree C S k) : ∃ rounds us a g, Branch tree rounds us a g := by
  induction tree with
  | leaf a g => exact ⟨_, _, _, _, .leaf a g⟩
  | node round u next ih =>
    obtain ⟨_, _, _, _, h⟩ := ih 0
    exact ⟨_, _, _, _, .node 0 h⟩

theorem extract_commitment {rep : C → G → Prop} (hf : ∀ {p : C} {a b : G}, rep p a → rep p b → a = b)
    (j : ℕ) {k : ℕ} (tree : Tree C S k) (hd : tree.Distinct) : ∀ {g : ℕ → G} {A : G},
    (∀ rounds us a gN, Branch tree rounds us a gN → (∀ u ∈ us, u ≠ 0) ∧ us.length = k ∧
      Folded rep j rounds us A (a.getD j 0 • collapse us g)) →
    ∑ m ∈ Finset.range (2 ^ k), tree.coeff j m • g m = A := by
  induction tree with
  | leaf a gN =>
    intro g A h
    obtain ⟨-, -, h⟩ := h _ _ _ _ (.leaf a gN)
    simp only [Folded, collapse] at h
    simp [Tree.coeff, h]
  | @node k round u next ih =>
    intro g A h
    obtain ⟨hd1, hd2⟩ := hd
    have hu : ∀ i, u i ≠ 0 := by
      intro i
      obtain ⟨_, _, _, _, hb⟩ := exists_branch (next i)
      exact (h _ _ _ _ (.node i hb)).1 _ (List.mem_cons_self ..)
    obtain ⟨L, R, hLR⟩ : ∃ L R, ∀ (i : Fin 3) rounds us a gN, Branch (next i) rounds us a gN →
        Folded rep j rounds us (A + u i ^ 2 • L + (u i)⁻¹ ^ 2 • R)
          (a.getD j 0 • collapse (u i :: us) g) := by
      obtain ⟨_, _, _, _, hb⟩ := exists_branch (next 0)
      obtain ⟨-, -, pL, pR, L, R, h1, h2, h3, h4, -⟩ := h _ _ _ _ (.node 0 hb)
      refine ⟨L, R, fun i rounds us a gN hb => ?_⟩
      obtain ⟨-, -, pL', pR', L', R', h1', h2', h3', h4', h5⟩ := h _ _ _ _ (.node i hb)
      rw [h1] at h1'
      rw [h2] at h2'
      cases h1'
      cases h2'
      rwa [hf h3 h3', hf h4 h4']
    rw [sum_node, ← node_solve hd1 hu A L R]
    apply Finset.sum_congr rfl
    intro i _
    congr 1
    apply ih i (hd2 i) (g := fun m => (u i)⁻¹ • g m + u i • g (m + 2 ^ k))
    intro rounds us a gN hb
    obtain ⟨h1, h2, -⟩ := h _ _ _ _ (.node i hb)
    have hl : us.length = k := by simpa using h2
    refine ⟨fun x hx => h1 x (List.mem_cons_of_mem _ hx), hl, ?_⟩
    have := hLR i _ _ _ _ hb
    rwa [collapse, hl] at this

theorem extract_opening (j : ℕ) {k : ℕ} (tree : Tree C S k) (hd : tree.Distinct) :
    ∀ {b : ℕ → S} {v : S},
    (∀ rounds us a gN, Branch tree rounds us a gN → (∀ u ∈ us, u ≠ 0) ∧ us.length = k ∧
      foldOpening j rounds us v = a.getD j 0 * collapse us b) →
    ∑ m ∈ Finset.range (2 ^ k), tree.coeff j m • b m = v := by
  induction tree with
  | leaf a gN =>
    intro g A h
    obtain ⟨-, -, h⟩ := h _ _ _ _ (.leaf a gN)
    simp only [foldOpening, collapse] at h
    simp [Tree.coeff, h]
  | @node k round u next ih =>
    intro b v h
    obtain ⟨hd1, hd2⟩ := hd
    have hu : ∀ i, u i ≠ 0 := by
      intro i
      obtain ⟨_, _, _, _, hb⟩ := exists_branch (next i)
      exact (h _ _ _ _ (.node i hb)).1 _ (List.mem_cons_self ..)
    rw [sum_node]
    refine Eq.trans ?_ (node_solve hd1 hu v (round.l.getD j 0) (round.r.getD j 0))
    apply Finset.sum_congr rfl
    intro i _
    congr 1
    apply ih i (hd2 i) (b := fun m => (u i)⁻¹ • b m + u i • b (m + 2 ^ k))
    intro rounds us a gN hb
    obtain ⟨h1, h2, h3⟩ := h _ _ _ _ (.node i hb)
    have hl : us.length = k := by simpa using h2
    refine ⟨fun x hx => h1 x (List.mem_cons_of_mem _ hx), hl, ?_⟩
    rw [foldOpening, collapse, hl] at h3
    rw [← h3]
    simp only [smul_eq_mul]
    congr 1
    ring

end

section
variable {T C F S G : Type} [Field F] [FieldApi F] [Field S] [DecidableEq S] [LawfulField S]
  [CurveOps C F S] [AddCommGroup G] [Module S G] {rep : C → G → Prop} {tr : Transcript T F}

omit [FieldApi F] [Field S] [DecidableEq S] [LawfulField S] [CurveOps C F S] [Field F] in
theorem entries_get {r : InnerProductRound C S} {m : ℕ} {es} (h : r.entries m = some es) :
    es.length = m ∧ ∀ j < m, ∃ pL pR l r', es[j]? = some (pL, pR, l, r') ∧ r.L[j]? = some pL ∧
      r.R[j]? = some pR ∧ r.l[j]? = some l ∧ r.r[j]? = some r' := by
  unfold InnerProductRound.entries at h
  split at h
  · rename_i hm
    obtain ⟨h1, h2, h3, h4⟩ := hm
    cases h
    refine ⟨by simp; omega, fun j hj => ?_⟩
    refine ⟨r.L[j], r.R[j], r.l[j], r.r[j], ?_, by simp, by simp, by simp, by simp⟩
    rw [List.getElem?_eq_getElem (by simp; omega)]
    simp
  · cases h

/-- the claim of an instance after the rounds -/
theorem verifyRounds_fold (L : LawfulOps C F S G rep) (j : ℕ) : ∀ {rounds : List (InnerProductRound C S)}
    {pv pv' : List (C × S)} {chs t t'}, verifyRounds tr rounds pv t = some (pv', chs, t') →
    chs.length = rounds.length ∧ (∀ ch ∈ chs, ch.Good) ∧ pv'.length = pv.length ∧
    ∀ {P : C} {v : S} {A B : G}, pv[j]? = some (P, v) → rep P A →
      Folded rep j rounds (chs.map (·.challenge)) A B →
      ∃ P', pv'[j]? = some (P', foldOpening j rounds (chs.map (·.challenge)) v) ∧ rep P' B := by
  intro rounds
  induction rounds with
  | nil =>
    intro pv pv' chs t t' h
    simp only [verifyRounds, Option.some.injEq, Prod.mk.injEq] at h
    obtain ⟨rfl, rfl, -⟩ := h
    refine ⟨rfl, by simp, rfl, fun {P v A B} h1 h2 h3 => ?_⟩
    simp only [Folded] at h3
    exact ⟨P, h1, h3 ▸ h2⟩
  | cons round rounds ih =>
    intro pv pv' chs t t' h
    rw [verifyRounds] at h
    cases he : round.entries pv.length with
    | none => simp [he] at h
    | some es =>
      simp only [he, Option.bind_eq_bind, Option.bind_some] at h
      cases hc : squareChallenge S tr 256 (appendRound tr es t) with
      | none => simp [hc] at h
      | some p =>
        obtain ⟨ch, t1⟩ := p
        simp only [hc, Option.bind_some] at h
        cases hr : verifyRounds tr rounds (List.zipWith (foldInstance ch) pv es) t1 with
        | none => simp [hr] at h
        | some q =>
          obtain ⟨pv1, chs1, t2⟩ := q
          simp only [hr, Option.bind_some, Option.some.injEq, Prod.mk.injEq] at h
          obtain ⟨rfl, rfl, rfl⟩ := h
          obtain ⟨i1, i2, i3, i4⟩ := ih hr
          obtain ⟨hel, heg⟩ := entries_get he
          have hg := squareChallenge_good hc
          refine ⟨by simp [i1], ?_, by rw [i3]; simp [hel], fun {P v A B} h1 h2 h3 => ?_⟩
          · intro c hc
            rcases List.mem_cons.1 hc with rfl | hc
            · exact hg
            · exact i2 _ hc
          · have hj : j < pv.length := (List.getElem?_eq_some_iff.1 h1).1
            obtain ⟨pL, pR, l, r, e1, e2, e3, e4, e5⟩ := heg j hj
            rw [List.map_cons, Folded] at h3
            obtain ⟨pL', pR', L', R', f1, f2, f3, f4, f5⟩ := h3
            rw [e2] at f1
            rw [e3] at f2
            cases f1
            cases f2
            have hfi : foldInstance ch (P, v) (pL, pR, l, r) =
                (CurveApi.add (CurveApi.add P (CurveApi.mul pL (ch.challenge ^ 2)))
                  (CurveApi.mul pR (ch.challenge⁻¹ ^ 2)),
                  v + l * ch.challenge ^ 2 + r * ch.challenge⁻¹ ^ 2) := by
              simp only [foldInstance, hg.sq, hg.inv]
            have := i4 (P := _) (v := v + l * ch.challenge ^ 2 + r * ch.challenge⁻¹ ^ 2) (A := A + ch.challenge ^ 2 • L' + ch.challenge⁻¹ ^ 2 • R') (B := B)
              (by rw [List.getElem?_zipWith, h1, e1]; simp only [hfi])
              (L.add (L.add h2 (L.mul (ch.challenge ^ 2) f3)) (L.mul (ch.challenge⁻¹ ^ 2) f4))
              f5
            obtain ⟨P', g1, g2⟩ := this
            refine ⟨P', ?_, g2⟩
            rw [g1, List.map_cons, foldOpening]
            simp only [List.getD_eq_getElem?_getD, e4, e5, Option.getD_some]

omit [Field F] [FieldApi F] [LawfulField S] in
/-- what the final comparisons say -/
theorem checkFinal_true {gp : C} {us : List S} : ∀ {points : List S} {pv : List (C × S)} {as : List S},
    checkFinal gp us (us.map (·⁻¹)) points pv as = some true → ∀ {j : ℕ} {x : S} {P : C} {v : S},
      points[j]? = some x → pv[j]? = some (P, v) →
      us ≠ [] ∧ CurveOps.ctEq P (CurveApi.mul gp (as.getD j 0)) = true ∧
        v = as.getD j 0 * collapse us fun i => x ^ i := by
  intro points
  induction points with
  | nil => intro pv as _ j x P v h; simp at h
  | cons y points ih =>
    intro pv as h j x P v hx hP
    cases pv with
    | nil => simp [checkFinal] at h
    | cons q pv =>
      cases as with
      | nil => simp [checkFinal] at h
      | cons a as =>
        obtain ⟨p, w⟩ := q
        rw [checkFinal] at h
        by_cases hus : us = []
        · subst hus
          simp [computeB] at h
        · simp only [computeB_eq us y hus, Option.bind_eq_bind, Option.bind_some] at h
          split at h
          · cases h
          · split at h
            · cases h
            · rename_i h1 h2
              cases j with
              | zero =>
                simp only [List.getElem?_cons_zero, Option.some.injEq] at hx hP
                cases hx
                cases hP
                exact ⟨hus, by simpa using h1, by simpa using h2⟩
              | succ j => simpa using ih h (j := j) (by simpa using hx) (by simpa using hP)

omit [DecidableEq S] in
theorem roots_good {chs : List (Challenge S)} (h : ∀ ch ∈ chs, ch.Good) {us : List S}
    (hr : Roots (chs.map (·.challengeSqPacked)) us) : us = chs.map (·.challenge) := by
  induction chs generalizing us with
  | nil => cases hr; rfl
  | cons ch chs ih =>
    rw [List.map_cons] at hr
    cases hr with
    | cons h1 h2 =>
      have hg := h ch (List.mem_cons_self ..)
      rw [hg.packed, hg.sqrt] at h1
      cases h1
      rw [ih (fun c hc => h c (List.mem_cons_of_mem _ hc)) h2, List.map_cons]

/-- what an accepted branch says about one instance -/
theorem accepted_branch (L : LawfulOps C F S G rep) {g : ℕ → G} {instances : List (PolynomialOpening C S)}
    {k : ℕ} {rounds us a gN} (h : Accepted (F := F) rep g instances k rounds us a gN) {j : ℕ}
    {claim : PolynomialOpening C S} (hj : instances[j]? = some claim) {A B : G}
    (hA : rep claim.commitment A) (hB : Folded rep j rounds us A B) (hB0 : B ≠ 0) :
    (∀ u ∈ us, u ≠ 0) ∧ us.length = k ∧ B = a.getD j 0 • collapse us g ∧
      foldOpening j rounds us claim.opening = a.getD j 0 * collapse us fun i => claim.point ^ i := by
  obtain ⟨T, tr, t, t', packed, forks, h1, h2, h3⟩ := h
  unfold MultiPolynomialOpening.verifyProof at h1
  dsimp only at h1
  split at h1
  · simp at h1
  · rename_i hk
    simp only [ne_eq, not_not] at hk
    simp only [Option.bind_eq_bind] at h1
    cases hr : verifyRounds tr rounds (instances.map fun i => (i.commitment, i.opening)) t with
    | none => simp [hr] at h1
    | some q =>
      obtain ⟨pv, chs, t1⟩ := q
      simp only [hr, Option.bind_some] at h1
      obtain ⟨r1, r2, r3, r4⟩ := verifyRounds_fold L j hr
      have hinv : chs.map (·.challengeInv) = (chs.map (·.challenge)).map (·⁻¹) := by
        rw [List.map_map]
        exact List.map_congr_left fun c hc => (r2 c hc).inv
      rw [hinv] at h1
      cases hc : checkFinal gN (chs.map (·.challenge)) ((chs.map (·.challenge)).map (·⁻¹))
          (instances.map (·.point)) pv a with
      | none => simp only [hc, Option.bind_none, reduceCtorEq] at h1
      | some ok =>
        simp only [hc, Option.bind_some, Option.some.injEq, Prod.mk.injEq] at h1
        obtain ⟨rfl, rfl, -⟩ := h1
        obtain rfl := roots_good r2 h2
        obtain ⟨P', f1, f2⟩ := r4 (P := claim.commitment) (v := claim.opening) (by simp [hj]) hA hB
        obtain ⟨-, f3, f4⟩ := checkFinal_true hc (x := claim.point) (by simp [hj]) f1
        refine ⟨?_, by simp [r1, hk], ?_, f4⟩
        · intro u hu
          obtain ⟨c, hc, rfl⟩ := List.mem_map.1 hu
          exact (r2 c hc).ne
        · exact ((L.ctEq f2 (L.mul _ h3)).1 f3).resolve_left hB0

/-- The extractor finds the polynomials. -/
theorem extract_valid (L : LawfulOps C F S G rep) {g : ℕ → G}
    {instances : List (PolynomialOpening C S)} {k : ℕ} (tree : Tree C S k) (hd : tree.Distinct)
    (hacc : ∀ rounds us a gN, Branch tree rounds us a gN →
      Accepted (F := F) rep g instances k rounds us a gN)
    (j : ℕ) (hj : j < instances.length)
    (hne : ∀ rounds us a gN, Branch tree rounds us a gN →
      ∃ A B, rep instances[j].commitment A ∧ Folded rep j rounds us A B ∧ B ≠ 0) :
    ValidClaim rep g k instances[j] (tree.extract j) := by
  have hlen : (tree.extract j).length = 2 ^ k := by simp [Tree.extract]
  have hoff : offset (2 ^ k) instances[j].rightEdge (tree.extract j) = 0 := by
    simp [offset, hlen]
  obtain ⟨A, hA⟩ : ∃ A, rep instances[j].commitment A := by
    obtain ⟨_, _, _, _, hb⟩ := exists_branch tree
    obtain ⟨A, B, h, -⟩ := hne _ _ _ _ hb
    exact ⟨A, h⟩
  have key : ∀ rounds us a gN, Branch tree rounds us a gN → ∃ B, Folded rep j rounds us A B ∧
      ((∀ u ∈ us, u ≠ 0) ∧ us.length = k ∧ B = a.getD j 0 • collapse us g ∧
      foldOpening j rounds us instances[j].opening =
        a.getD j 0 * collapse us fun i => instances[j].point ^ i) := by
    intro rounds us a gN hb
    obtain ⟨A', B, h1, h2, h3⟩ := hne _ _ _ _ hb
    obtain rfl := L.functional hA h1
    exact ⟨B, h2, accepted_branch L (hacc _ _ _ _ hb) (by simp [hj]) hA h2 h3⟩
  refine ⟨hlen.le, ?_, ?_⟩
  · rw [hoff, combine_extract, extract_commitment (rep := rep) L.functional j tree hd (A := A)]
    · exact hA
    · intro rounds us a gN hb
      obtain ⟨B, h1, h2, h3, h4, -⟩ := key _ _ _ _ hb
      exact ⟨h2, h3, h4 ▸ h1⟩
  · rw [hoff, combine_extract, extract_opening j tree hd (v := instances[j].opening)]
    intro rounds us a gN hb
    obtain ⟨B, h1, h2, h3, -, h5⟩ := key _ _ _ _ hb
    exact ⟨h2, h3, h5⟩

end
end Proofs
end Halo
