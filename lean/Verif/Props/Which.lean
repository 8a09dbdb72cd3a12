import Verif.Spec.Which
import Verif.Props.Acceptance
/-!
# Which circuit a proof is for (C87)
-/
namespace Halo
namespace Proofs
open Util Circuit
variable {T : Type} {E : CurveConsts} {F : Type} [Field F] [DecidableEq F] [LawfulField F]
  {S : Type} [Field S] [DecidableEq S] [LawfulField S] {tr : Transcript T F}

omit [DecidableEq F] in
/-- **C87**, the verdict: the verifier of proofs uses of the circuit only where it exposes its public inputs. For two
circuits that expose theirs by the constraints with the same numbers it returns the same, for every proof, every
leftovers and all public inputs, however different the constraints and the numbers of gates may be. -/
theorem C87_verdict {C : Type} [CurveOps C F S] {cpus : ℕ} {lnCeil : ℕ → ℕ} {α α' : Type} {circuit : Var → Prog S α}
    {circuit' : Var → Prog S α'} {gates gates' : ℕ} {lcs lcs' : List (LC S)} {positions : List ℕ}
    (hs : HasShape false circuit gates lcs positions) (hs' : HasShape false circuit' gates' lcs' positions)
    (π : Proof C S) (old : Leftovers C S) (params : Params C) (inputs : List S) (K : Option C) :
    π.verify tr cpus lnCeil old params circuit inputs K = π.verify tr cpus lnCeil old params circuit' inputs K := by
  obtain ⟨a, s, h1, -, -, h2, -⟩ := hs
  obtain ⟨a', s', h1', -, -, h2', -⟩ := hs'
  obtain ⟨dv, hdv, hrel⟩ := sim_inputMap.synthesize_of_system (b := []) ⟨.empty, rfl, rfl, rfl, rfl⟩ h1 trivial
  obtain ⟨dv', hdv', hrel'⟩ := sim_inputMap.synthesize_of_system (b := []) ⟨.empty, rfl, rfl, rfl, rfl⟩ h1' trivial
  have e : dv.backend = dv'.backend := by rw [hrel.inputs, hrel'.inputs, h2, h2']
  unfold Proof.verify
  simp only [hdv, hdv', Except.bind_ok, e]

omit [DecidableEq S] [LawfulField S] in
/-- The vectors of `s(X, y)` agree at every wire. -/
theorem sCoeff_of_eq {n : ℕ} {lcs lcs' : List (LC S)} {y : S}
    (h : ∀ m, (sxVec n lcs y).getD m 0 = (sxVec n lcs' y).getD m 0) (w : Var → S) (hl : Circuit.InScope n lcs)
    (hl' : Circuit.InScope n lcs') :
    ∑ q ∈ Finset.range (max lcs.length lcs'.length),
      y ^ (q + 1) * ((lcs.getD q LC.zero).eval w - (lcs'.getD q LC.zero).eval w) = 0 := by
  have hz : ∀ (l : List (LC S)) (m : ℕ), l.length ≤ m →
      ∑ q ∈ Finset.range m, y ^ (q + 1) * (l.getD q LC.zero).eval w =
        (l.mapIdx fun q lc => y ^ (q + 1) * lc.eval w).sum := by
    intro l m hm
    rw [sum_mapIdx, Finset.sum_subset (Finset.range_mono hm)]
    intro q _ hq
    rw [Finset.mem_range, not_lt] at hq
    rw [List.getD_eq_getElem?_getD, List.getElem?_eq_none hq]
    simp [LC.zero, LC.eval]
  simp only [mul_sub, Finset.sum_sub_distrib]
  rw [hz _ _ (le_max_left _ _), hz _ _ (le_max_right _ _), sEval_eq_sum hl, sEval_eq_sum hl', sub_eq_zero]
  refine Finset.sum_congr rfl fun i hi => ?_
  have hi := Finset.mem_range.1 hi
  rw [← sxVec_u _ _ hi, ← sxVec_v _ _ hi, ← sxVec_w _ _ hi, ← sxVec_u _ _ hi, ← sxVec_v _ _ hi, ← sxVec_w _ _ hi, h, h, h]

omit [DecidableEq S] [LawfulField S] in
/-- Two different lists of constraints have the same vector only for few `y`. -/
theorem differ_few {n : ℕ} {lcs lcs' : List (LC S)} (hd : Differ lcs lcs') (hl : Circuit.InScope n lcs)
    (hl' : Circuit.InScope n lcs') : ∃ T : Finset S, T.card ≤ max lcs.length lcs'.length ∧
      ∀ y, y ≠ 0 → (∀ m, (sxVec n lcs y).getD m 0 = (sxVec n lcs' y).getD m 0) → y ∈ T := by
  obtain ⟨q, w, hq⟩ := hd
  have hlt : q < max lcs.length lcs'.length := by
    by_contra hge
    have h1 : lcs.length ≤ q := by omega
    have h2 : lcs'.length ≤ q := by omega
    rw [List.getD_eq_getElem?_getD, List.getD_eq_getElem?_getD, List.getElem?_eq_none h1, List.getElem?_eq_none h2] at hq
    exact hq rfl
  obtain ⟨T, h1, h2⟩ := few_roots 0 (max lcs.length lcs'.length) (fun _ => 0)
    (fun q => (lcs.getD q LC.zero).eval w - (lcs'.getD q LC.zero).eval w) (.inr ⟨q, hlt, sub_ne_zero.2 hq⟩)
  refine ⟨T, by omega, fun y hy h => h2 y hy ?_⟩
  rw [Finset.range_zero, Finset.sum_empty, zero_add, sCoeff_of_eq h w hl hl', mul_zero]

/-- **C87**, the leftovers: the check of the leftovers is what tells circuits apart. Take two circuits with room for their
gates, some constraint of which differs. Except for a few values of `y`, as many as they have constraints, which depend on
nothing but the two circuits: if leftovers are accepted for both of them, the commitments to their vectors of `s(X, y)`,
which anybody can compute, collide. -/
theorem C87_leftovers [HaloCurve E F S] {α α' : Type} {circuit : Var → Prog S α} {circuit' : Var → Prog S α'}
    {gates gates' : ℕ} {lcs lcs' : List (LC S)} {positions positions' : List ℕ}
    (hs : HasShape false circuit gates lcs positions) (hs' : HasShape false circuit' gates' lcs' positions')
    {n : ℕ} (hn : gates ≤ n) (hn' : gates' ≤ n) (hd : Differ lcs lcs') :
    ∃ T : Finset S, T.card ≤ lcs.length + lcs'.length + max lcs.length lcs'.length + 1 ∧
      ∀ {cpus : ℕ} (_ : 0 < cpus) {lnCeil : ℕ → ℕ} (_ : ∀ n, 32 ≤ n → n < 2 ^ 32 → 1 ≤ lnCeil n ∧ lnCeil n ≤ 57)
        {params : Params (Proj F)} {g : ℕ → Pt (E.b : F)} (_ : ValidParams (Denotes (E.b : F)) g params) (_ : params.n = n)
        {lo : Leftovers (Proj F) S} (_ : ∃ A, Denotes (E.b : F) lo.sNewCommitment A)
        (_ : ∃ B, Denotes (E.b : F) lo.gNew B) (_ : lo.yNew ∉ T),
        letI := Proj.curveOps E F S
        letI := HaloCurve.module (E := E) (F := F) (S := S)
        lo.verify cpus lnCeil params circuit = .ok true → lo.verify cpus lnCeil params circuit' = .ok true →
        ∃ sx sx', computeSx n circuit lo.yNew = .ok sx ∧ computeSx n circuit' lo.yNew = .ok sx' ∧ Collide g sx sx' := by
  classical
  let := Proj.curveOps E F S
  let := HaloCurve.module (E := E) (F := F) (S := S)
  obtain ⟨a, s, h1, rfl, rfl, -, h2⟩ := hs
  obtain ⟨a', s', h1', rfl, rfl, -, h2'⟩ := hs'
  have hsh : Shape circuit n s := ⟨⟨a, h1⟩, h2, hn⟩
  have hsh' : Shape circuit' n s' := ⟨⟨a', h1'⟩, h2', hn'⟩
  have hnil : Circuit.InScope n ([] : List (LC S)) := fun lc h => by simp at h
  have hone : ∀ {known : Bool} {β : Type} {c : Var → Prog S β} {b : β} {t : System S}, circuitSystem known c = .ok (b, t) →
      Differ t.lcs [] := fun h => by
    obtain ⟨⟨l, hl⟩, -⟩ := first_constraint h
    refine ⟨0, fun _ => 1, ?_⟩
    rw [hl]
    simp [LC.eval, LC.zero]
  have hz : ∀ (y : S) m, (sxVec n ([] : List (LC S)) y).getD m 0 = 0 := fun y m => by
    rw [List.getD_eq_getElem?_getD]
    cases h : (sxVec n ([] : List (LC S)) y)[m]? with
    | none => rfl
    | some c =>
      have := List.mem_of_getElem? h
      simp only [sxVec, col, sCoeff, List.mapIdx_nil, List.sum_nil, List.mem_append, List.mem_reverse, List.mem_map,
        List.mem_singleton] at this
      rcases this with ((⟨_, _, h⟩ | h) | ⟨_, _, h⟩) | ⟨_, _, h⟩
      all_goals simp [h]
  obtain ⟨T1, c1, t1⟩ := differ_few (hone h1) hsh.inScope hnil
  obtain ⟨T2, c2, t2⟩ := differ_few (hone h1') hsh'.inScope hnil
  obtain ⟨T3, c3, t3⟩ := differ_few hd hsh.inScope hsh'.inScope
  refine ⟨insert 0 (T1 ∪ T2 ∪ T3), ?_, ?_⟩
  · refine (Finset.card_insert_le _ _).trans ?_
    have e1 := Finset.card_union_le (T1 ∪ T2) T3
    have e2 := Finset.card_union_le T1 T2
    simp only [List.length_nil, Nat.max_zero] at c1 c2
    omega
  · intro cpus hcpus lnCeil hln params g hp hpn lo hA hB hT hv hv'
    subst hpn
    simp only [Finset.mem_insert, Finset.mem_union, not_or] at hT
    obtain ⟨hy, ⟨n1, n2⟩, n3⟩ := hT
    have nz : ∀ {t : System S}, (¬ ∀ m, (sxVec params.n t.lcs lo.yNew).getD m 0 = (sxVec params.n [] lo.yNew).getD m 0) →
        ∃ c ∈ sxVec params.n t.lcs lo.yNew, c ≠ 0 := fun h => by
      by_contra hno
      push Not at hno
      refine h fun m => ?_
      rw [hz, List.getD_eq_getElem?_getD]
      cases hm : (sxVec params.n _ lo.yNew)[m]? with
      | none => rfl
      | some c => exact hno c (List.mem_of_getElem? hm)
    obtain ⟨-, -, sx, e1, e2⟩ := (C78_leftovers hcpus hln hp hA hB).1 hv
    obtain ⟨-, -, sx', e1', e2'⟩ := (C78_leftovers hcpus hln hp hA hB).1 hv'
    refine ⟨sx, sx', e1, e1', ?_⟩
    rw [hsh.sx] at e1
    rw [hsh'.sx] at e1'
    obtain rfl := Except.ok.inj e1
    obtain rfl := Except.ok.inj e1'
    rcases e2 with e2 | e2
    · exact .inl ⟨e2, nz fun h => n1 (t1 _ hy h)⟩
    rcases e2' with e2' | e2'
    · exact .inr (.inl ⟨e2', nz fun h => n2 (t2 _ hy h)⟩)
    · exact .inr (.inr ⟨e2.symm.trans e2', fun h => n3 (t3 _ hy fun m => by rw [h])⟩)

omit [Field F] [DecidableEq F] [LawfulField F] in
/-- **C87**, circuits that are not told apart: if no constraint differs, the check of the leftovers returns the same for both,
even if they have different numbers of gates. -/
theorem C87_same {C : Type} [CurveOps C F S] {cpus : ℕ} {lnCeil : ℕ → ℕ} {α α' : Type} {circuit : Var → Prog S α}
    {circuit' : Var → Prog S α'} {gates gates' : ℕ} {lcs lcs' : List (LC S)} {positions positions' : List ℕ}
    (hs : HasShape false circuit gates lcs positions) (hs' : HasShape false circuit' gates' lcs' positions')
    (hd : ¬ Differ lcs lcs') (lo : Leftovers C S) (params : Params C) :
    lo.verify cpus lnCeil params circuit = lo.verify cpus lnCeil params circuit' := by
  obtain ⟨a, s, h1, rfl, rfl, -, h2⟩ := hs
  obtain ⟨a', s', h1', rfl, rfl, -, h2'⟩ := hs'
  have hsum : ∀ (v : Var), sCoeff s.lcs lo.yNew v = sCoeff s'.lcs lo.yNew v := fun v => by
    have hz : ∀ (l : List (LC S)) (m : ℕ), l.length ≤ m →
        ∑ q ∈ Finset.range m, lo.yNew ^ (q + 1) * (l.getD q LC.zero).eval (ind v) = sCoeff l lo.yNew v := by
      intro l m hm
      rw [sCoeff, sum_mapIdx, Finset.sum_subset (Finset.range_mono hm)]
      intro q _ hq
      rw [Finset.mem_range, not_lt] at hq
      rw [List.getD_eq_getElem?_getD, List.getElem?_eq_none hq]
      simp [LC.zero, LC.eval]
    rw [← hz s.lcs _ (le_max_left _ s'.lcs.length), ← hz s'.lcs _ (le_max_right s.lcs.length _)]
    refine Finset.sum_congr rfl fun q _ => ?_
    by_contra hne
    exact hd ⟨q, ind v, fun h => hne (by rw [h])⟩
  have e : computeSx params.n circuit lo.yNew = computeSx params.n circuit' lo.yNew := by
    rw [(computeSx_of params.n lo.yNew h1 h2).1, (computeSx_of params.n lo.yNew h1' h2').1]
    simp only [sxVec, hsum]
  unfold Leftovers.verify
  rw [e]

/-! Instances of the hypotheses: the circuits for the cube and for the square of a number. They expose their public
inputs in the same places. With parameters all of whose generators are the same, the commitments of both collide, and
there are leftovers that are accepted for both. -/

/-- The square instead of the cube -/
def squareCircuit (x : S) : Var → Prog S Unit := fun one => do
  let (v, _) ← .doAlloc (.ok x)
  let (a, b, c, _) ← .doMultiply (.ok (x, x, x * x))
  .enforce ((LC.ofVar v).subVar a)
  .enforce ((LC.ofVar v).subVar b)
  let (d, e, _, _) ← .doMultiply (.ok (x * x, x, x * x * x))
  .enforce ((LC.ofVar c).subVar d)
  .enforce ((LC.ofVar v).subVar e)
  let (o, _) ← .doAllocInput (.ok (x * x))
  .enforce (((LC.ofVar c).subVar o).add .zero one)

/-- Its constraints -/
def squareLcs (S : Type) [Field S] : List (LC S) :=
  [⟨[(.A 1, .one)]⟩, ⟨[(.B 1, .one), (.A 2, Coeff.one.neg)]⟩, ⟨[(.B 1, .one), (.B 2, Coeff.one.neg)]⟩,
    ⟨[(.C 2, .one), (.A 3, Coeff.one.neg)]⟩, ⟨[(.B 1, .one), (.B 3, Coeff.one.neg)]⟩,
    ⟨[(.A 4, .one)]⟩, ⟨[(.C 2, .one), (.A 4, Coeff.one.neg), (.A 1, .zero)]⟩]

omit [DecidableEq S] [LawfulField S] in
theorem square_shape (known : Bool) (x : S) : HasShape known (squareCircuit x) 4 (squareLcs S) [1, 6] := by
  cases known <;> exact ⟨_, _, rfl, rfl, rfl, rfl, rfl⟩

omit [DecidableEq S] [LawfulField S] in
theorem cube_differ_square : Differ (cubeLcs S) (squareLcs S) := by
  refine ⟨6, ind (.C 3), ?_⟩
  simp [cubeLcs, squareLcs, LC.eval, ind]

/-- The verifier says the same of a proof for the cube and for the square. -/
example {C : Type} [CurveOps C F S] (π : Proof C S) (old : Leftovers C S) (params : Params C) (inputs : List S) :
    π.verify tr 4 (fun _ => 3) old params (cubeCircuit 3) inputs none =
      π.verify tr 4 (fun _ => 3) old params (squareCircuit 3) inputs none :=
  C87_verdict (cube_shape false 3) (square_shape false 3) π old params inputs none

omit [DecidableEq S] [LawfulField S] in
theorem combine_const {G : Type} [AddCommGroup G] [Module S G] (A : G) (v : List S) :
    combine (fun _ => A) 0 v = opening v 1 • A := by
  have h := combine_pow (1 : S) 0 v
  rw [pow_zero, mul_one] at h
  rw [← h]
  simp [combine, Finset.sum_smul]

omit [DecidableEq S] [LawfulField S] in
/-- With one generator the vectors of the cube and of the square have the same commitment. -/
theorem cube_square_collide {G : Type} [AddCommGroup G] [Module S G] (A : G) {n : ℕ} (hn : 4 ≤ n) (y : S) :
    combine (fun _ => A) 0 (sxVec n (cubeLcs S) y) = combine (fun _ => A) 0 (sxVec n (squareLcs S) y) := by
  have scope : ∀ {c : Var → Prog S Unit} {l : List (LC S)}, HasShape false c 4 l [1, 6] → Circuit.InScope n l := by
    rintro c _ ⟨a, s, h1, h2, rfl, -, h3⟩
    exact (computeSx_of n y h1 h3).2.mono (h2 ▸ hn)
  rw [combine_const, combine_const, opening_sxVec (scope (cube_shape false 3)) one_ne_zero,
    opening_sxVec (scope (square_shape false 3)) one_ne_zero]
  simp [sEval, cubeLcs, squareLcs, LC.eval, monomial]

/-- Leftovers that are accepted for the cube and for the square, with one point as all generators -/
theorem cube_square_leftovers [h : HaloCurve E F S] (T : Finset S) (hT : T.card ≤ 22) :
    letI := Proj.curveOps E F S
    ∃ (params : Params (Proj F)) (g : ℕ → Pt (E.b : F)) (lo : Leftovers (Proj F) S),
      ValidParams (Denotes (E.b : F)) g params ∧ params.n = 8 ∧ (∃ A, Denotes (E.b : F) lo.sNewCommitment A) ∧
      (∃ B, Denotes (E.b : F) lo.gNew B) ∧ lo.yNew ∉ T ∧
      lo.verify 4 (fun _ => 3) params (cubeCircuit 3) = .ok true ∧
      lo.verify 4 (fun _ => 3) params (squareCircuit 3) = .ok true := by
  let := Proj.curveOps E F S
  let := HaloCurve.module (E := E) (F := F) (S := S)
  obtain ⟨A, hA, h0⟩ := one_denotes (E := E) (F := F) (S := S)
  let params : Params (Proj F) := ⟨2 ^ 5, 2 ^ 3, 5, List.replicate (2 ^ 5) (Proj.one E)⟩
  have hp : ValidParams (Denotes (E.b : F)) (fun _ => A) params :=
    ⟨by norm_num [params], by norm_num [params], rfl, rfl, by simp [params], fun i hi => by
      rw [show params.generators[i] = Proj.one E from List.getElem_replicate _]; exact hA⟩
  obtain ⟨y, hy⟩ : ∃ y, y ∉ T := by
    have hm := (LawfulField.modulus_bound (F := S)).1
    have hinj : Set.InjOn (fun i : ℕ => (i : S)) (Finset.range 23) := fun i hi j hj e => by
      simp only [Finset.coe_range, Set.mem_Iio] at hi hj
      rw [← LawfulField.val_of_lt (F := S) (n := i) (by omega), ← LawfulField.val_of_lt (F := S) (n := j) (by omega)]
      exact congrArg LawfulField.val e
    obtain ⟨y, -, hy⟩ := Finset.exists_mem_notMem_of_card_lt_card (s := T) (t := (Finset.range 23).image fun i : ℕ => (i : S))
      (by rw [Finset.card_image_of_injOn hinj, Finset.card_range]; omega)
    exact ⟨y, hy⟩
  obtain ⟨us, hus, hl⟩ := magic_roots (E := E) (F := F) (S := S) params.k
  obtain ⟨P, hP⟩ := exists_denotes (b := (E.b : F)) (combine (fun _ => A) 0 (sxVec 8 (cubeLcs S) y))
  obtain ⟨Q, hQ⟩ := exists_denotes (b := (E.b : F)) (collapse us fun _ => A)
  refine ⟨params, fun _ => A, ⟨P, y, Q, List.replicate params.k (FieldApi.fromU64 MAGIC)⟩, hp, rfl, ⟨_, hP⟩, ⟨_, hQ⟩, hy, ?_, ?_⟩
  · refine (C78_leftovers (by norm_num) (by simp) hp ⟨_, hP⟩ ⟨_, hQ⟩).2
      ⟨by simp, ⟨us, hus, .inr (pointOf_eq hQ)⟩, sxVec 8 (cubeLcs S) y, ?_, .inr (pointOf_eq hP)⟩
    obtain ⟨a, s, h1, -, h2, -, h3⟩ := cube_shape false (3 : S)
    rw [← h2]
    exact (computeSx_of _ y h1 h3).1
  · refine (C78_leftovers (by norm_num) (by simp) hp ⟨_, hP⟩ ⟨_, hQ⟩).2
      ⟨by simp, ⟨us, hus, .inr (pointOf_eq hQ)⟩, sxVec 8 (squareLcs S) y, ?_, .inr ?_⟩
    · obtain ⟨a, s, h1, -, h2, -, h3⟩ := square_shape false (3 : S)
      rw [← h2]
      exact (computeSx_of _ y h1 h3).1
    · rw [← cube_square_collide A (by norm_num)]
      exact pointOf_eq hP

/-- So the few values of `y` are not the only reason: they collide for another one. -/
example : ∃ (params : Params (Proj Fq)) (g : ℕ → Pt ((ec0.b : ℕ) : Fq)) (y : Fp) (sx sx' : List Fp),
    ValidParams (Denotes _) g params ∧ computeSx 8 (cubeCircuit (3 : Fp)) y = .ok sx ∧
    computeSx 8 (squareCircuit (3 : Fp)) y = .ok sx' ∧
    letI := HaloCurve.module (E := ec0) (F := Fq) (S := Fp)
    Collide g sx sx' := by
  obtain ⟨T, hc, hT⟩ := C87_leftovers (E := ec0) (F := Fq) (cube_shape false (3 : Fp)) (square_shape false 3) (n := 8)
    (by norm_num) (by norm_num) cube_differ_square
  obtain ⟨params, g, lo, hp, hn, hA, hB, hy, h1, h2⟩ := cube_square_leftovers (E := ec0) (F := Fq) T (by simpa [cubeLcs, squareLcs] using hc)
  obtain ⟨sx, sx', e1, e2, e3⟩ := hT (by norm_num) (by simp) hp hn hA hB hy h1 h2
  exact ⟨params, g, lo.yNew, sx, sx', hp, e1, e2, e3⟩

end Proofs
end Halo
