import Verif.Lemmas.Proofs.SoundHonest
/-!
# What the extractor finds when it runs the honest prover

This is for the example beside C66.
-/
namespace Halo
namespace Proofs
open Circuit Util Polynomial
set_option linter.unusedSectionVars false

section
variable {C F S G : Type} [Field F] [LawfulField F] [Field S] [DecidableEq S] [LawfulField S]
  [AddCommGroup G] [Module S G] [CurveOps C F S] {α : Type}

/-- the entry `m` of the vector of instance `j` -/
def RoundState.entry (st : RoundState C S) (j m : ℕ) : S := (st.1.getD j ([], [])).1.getD m 0

theorem getD_resize (l : List S) (n m : ℕ) : (resize l n).getD m 0 = if m < n then l.getD m 0 else 0 := by
  unfold resize
  simp only [List.getD_eq_getElem?_getD, List.getElem?_append, List.getElem?_take, List.length_take,
    List.getElem?_replicate]
  by_cases h1 : m < l.length <;> by_cases h2 : m < n
  · simp [h1, h2]
  · have : ¬ m < min n l.length := by omega
    rw [if_neg this, if_neg h2]
    split <;> rfl
  · have : ¬ m < min n l.length := by omega
    rw [if_neg this, if_pos h2, List.getElem?_eq_none (by omega)]
    split <;> rfl
  · have : ¬ m < min n l.length := by omega
    rw [if_neg this, if_neg h2]
    split <;> rfl

theorem getD_addTo : ∀ (a b : List S) (m : ℕ), m < a.length →
    (addTo a b).getD m 0 = a.getD m 0 + b.getD m 0
  | [], _, _, h => by simp at h
  | a :: as, [], m, _ => by simp [addTo]
  | a :: as, b :: bs, 0, _ => rfl
  | a :: as, b :: bs, m + 1, h => by
    simpa [addTo] using getD_addTo as bs m (by simpa using h)

/-- folding the vectors -/
theorem foldStep_entry {cpus k : ℕ} {st : RoundState C S} (hl : ∀ e ∈ st.1, e.1.length = 2 ^ (k + 1)) (u : S)
    {j m : ℕ} (hm : m < 2 ^ k) :
    RoundState.entry (foldStep cpus (k + 1) st u) j m = st.entry j m * u + st.entry j (2 ^ k + m) * u⁻¹ := by
  unfold RoundState.entry foldStep
  simp only [Nat.add_sub_cancel, List.getD_eq_getElem?_getD, List.getElem?_map]
  cases h : st.1[j]? with
  | none => simp
  | some e =>
    have he := hl e (List.mem_of_getElem? h)
    have hp : 2 ^ (k + 1) = 2 ^ k + 2 ^ k := by ring
    simp only [Option.map_some, Option.getD_some, foldVectors]
    rw [List.getElem?_eq_getElem (by simp; omega), List.getElem?_eq_getElem (by omega),
      List.getElem?_eq_getElem (by omega)]
    simp

theorem foldStep_length {cpus k : ℕ} {st : RoundState C S} (hl : ∀ e ∈ st.1, e.1.length = 2 ^ (k + 1)) (u : S) :
    ∀ e ∈ (foldStep cpus (k + 1) st u).1, e.1.length = 2 ^ k := by
  intro e he
  obtain ⟨e', h, rfl⟩ := List.mem_map.1 he
  have := hl e' h
  have hp : 2 ^ (k + 1) = 2 ^ k + 2 ^ k := by ring
  simp [foldVectors]
  omega

theorem foldAll_length {cpus : ℕ} : ∀ (us : List S) {k j : ℕ} {st : RoundState C S} (_ : k = us.length + j)
    (_ : ∀ e ∈ st.1, e.1.length = 2 ^ k), ∀ e ∈ (foldAll cpus k st us).1, e.1.length = 2 ^ j
  | [], k, j, st, hk, hl => by
    rw [List.length_nil, zero_add] at hk
    subst hk
    exact hl
  | u :: us, k, j, st, hk, hl => by
    obtain ⟨k', rfl⟩ : ∃ k', k = k' + 1 := ⟨us.length + j, by rw [hk, List.length_cons]; omega⟩
    rw [foldAll, Nat.add_sub_cancel]
    exact foldAll_length us (by rw [List.length_cons] at hk; omega) (foldStep_length hl u)

theorem mapM_theOnly {st : RoundState C S} (hl : ∀ e ∈ st.1, e.1.length = 1) (j : ℕ) :
    ((st.1.mapM fun ab => theOnly ab.1).getD []).getD j 0 = st.entry j 0 := by
  have : (st.1.mapM fun ab => theOnly ab.1) = some (st.1.map fun e => e.1.getD 0 0) := by
    rw [mapM_some_iff]
    have : ∀ e ∈ st.1, theOnly e.1 = some (e.1.getD 0 0) := fun e he => by
      obtain ⟨a, ha⟩ := List.length_eq_one_iff.1 (hl e he)
      rw [ha]
      rfl
    clear hl
    generalize st.1 = l at this
    induction l with
    | nil => exact .nil
    | cons e es ih => exact .cons (this e (List.mem_cons_self ..)) (ih fun e he => this e (List.mem_cons_of_mem _ he))
  rw [this, Option.getD_some, RoundState.entry]
  simp only [List.getD_eq_getElem?_getD, List.getElem?_map]
  cases st.1[j]? <;> simp

variable (D : HonestData S α)

/-- **The extractor computes the vectors of the honest prover.** -/
theorem coeff_honest {rep : C → G → Prop} {lnCeil : ℕ → ℕ} {params : Params C} {ch : Challenges S} {y x yNew z : S}
    (h0 : ∀ pre, ∀ u ∈ ch.us y x yNew z pre, u ≠ 0) (hab : ∀ e ∈ D.ab y x yNew z, e.1.length = 2 ^ D.k) (i : ℕ) :
    ∀ {j : ℕ} {pre : List S} (tree : Tree C S j) (_ : D.k = pre.length + j) (_ : tree.Distinct)
      (_ : (honestProver rep lnCeil params D).Answers ch y x yNew z pre tree) (m : ℕ) (_ : m < 2 ^ j),
      tree.coeff i m = RoundState.entry (foldAll D.cpus D.k (D.ab y x yNew z, params.generators) pre) i m
  | 0, pre, .leaf a g, hk, hd, ha, m, hm => by
    obtain rfl : m = 0 := by simpa using hm
    have ha : (a, g) = _ := ha
    rw [Tree.coeff, show a = _ from congrArg Prod.fst ha]
    exact mapM_theOnly (by simpa using foldAll_length pre hk hab) i
  | j + 1, pre, .node round u next, hk, hd, ha, m, hm => by
    have hl := foldAll_length (cpus := D.cpus) (st := (D.ab y x yNew z, params.generators)) pre hk hab
    have ih : ∀ (l : Fin 3) (m : ℕ), m < 2 ^ j → (next l).coeff i m = RoundState.entry (foldAll D.cpus D.k
        (D.ab y x yNew z, params.generators) pre) i m * u l + RoundState.entry (foldAll D.cpus D.k
        (D.ab y x yNew z, params.generators) pre) i (2 ^ j + m) * (u l)⁻¹ := by
      intro l m hm
      rw [coeff_honest h0 hab i (next l) (pre := pre ++ [u l]) (by simp; omega) (hd.2 l) (ha.2 l).2 m hm,
        foldAll_append, foldAll, foldAll, show D.k - pre.length = j + 1 by omega]
      exact foldStep_entry hl (u l) hm
    have hu : ∀ l, u l ≠ 0 := fun l => h0 pre _ (ha.2 l).1
    obtain ⟨n1, n2, n3⟩ := nu_sums (s := fun l => u l ^ 2) hd.1 fun l => pow_ne_zero 2 (hu l)
    have hp : 2 ^ (j + 1) = 2 ^ j + 2 ^ j := by ring
    rw [Tree.coeff]
    generalize foldAll D.cpus D.k (D.ab y x yNew z, params.generators) pre = st at *
    split
    · next hlt =>
      rw [Finset.sum_congr rfl fun l _ => by rw [ih l m hlt]]
      have : ∀ l, nu (fun l => u l ^ 2) l * (u l)⁻¹ * (st.entry i m * u l + st.entry i (2 ^ j + m) * (u l)⁻¹) =
          st.entry i m * nu (fun l => u l ^ 2) l +
            st.entry i (2 ^ j + m) * (nu (fun l => u l ^ 2) l * (u l ^ 2)⁻¹) := by
        intro l
        have := hu l
        field_simp
      rw [Finset.sum_congr rfl fun l _ => this l, Finset.sum_add_distrib, ← Finset.mul_sum, ← Finset.mul_sum, n1, n3]
      ring
    · next hlt =>
      rw [Finset.sum_congr rfl fun l _ => by rw [ih l (m - 2 ^ j) (by omega)]]
      have : ∀ l, nu (fun l => u l ^ 2) l * u l * (st.entry i (m - 2 ^ j) * u l +
            st.entry i (2 ^ j + (m - 2 ^ j)) * (u l)⁻¹) =
          st.entry i (m - 2 ^ j) * (nu (fun l => u l ^ 2) l * u l ^ 2) +
            st.entry i (2 ^ j + (m - 2 ^ j)) * nu (fun l => u l ^ 2) l := by
        intro l
        have := hu l
        field_simp
      rw [Finset.sum_congr rfl fun l _ => this l, Finset.sum_add_distrib, ← Finset.mul_sum, ← Finset.mul_sum, n1, n2,
        show 2 ^ j + (m - 2 ^ j) = m by omega]
      ring

/-- `r(X)`, padded on the left -/
def HonestData.rpad : List S := List.replicate (2 ^ D.k - D.rx.length) 0 ++ D.rx

/-- what instance `j` combines -/
def HonestData.comps (y x yNew : S) : ℕ → List (List S)
  | 0 => [D.gx, D.sx yNew, D.tn y, D.tp y, D.sx y, D.sx D.yOld, D.rpad]
  | 1 => [D.rpad]
  | 2 => [D.sy x]
  | 3 => [D.sy x, D.ky]
  | 4 => [D.sy x]
  | _ => [[]]

theorem getD_mul (l : List S) (z : S) (m : ℕ) : (l.map (· * z)).getD m 0 = l.getD m 0 * z := by
  simp only [List.getD_eq_getElem?_getD, List.getElem?_map]
  cases l[m]? <;> simp

theorem padInstance_false {k : ℕ} (v : List S) : (padInstance k false v).getD [] = resize v (2 ^ k) := by
  simp [padInstance, Nat.shiftLeft_eq]

theorem resize_length (v : List S) (n : ℕ) : (resize v n).length = n := by
  simp [resize]; omega

theorem padInstance_true (h : D.rx.length ≤ 2 ^ D.k) : (padInstance D.k true D.rx).getD [] = D.rpad := by
  simp [padInstance, Nat.shiftLeft_eq, h, HonestData.rpad]

theorem ab_length (h : D.rx.length ≤ 2 ^ D.k) (y x yNew z : S) :
    ∀ e ∈ D.ab y x yNew z, e.1.length = 2 ^ D.k := by
  intro e he
  simp only [HonestData.ab, padInstance_false, padInstance_true D h, List.mem_cons, List.not_mem_nil, or_false] at he
  have : D.rpad.length = 2 ^ D.k := by simp [HonestData.rpad]; omega
  rcases he with rfl | rfl | rfl | rfl | rfl <;> simp [resize_length, this]

theorem ab_entry (h : D.rx.length ≤ 2 ^ D.k) {x : S} (hky : D.ky.length ≤ (D.sy x).length) (y yNew z : S)
    (gens : List C) (j : ℕ) {m : ℕ} (hm : m < 2 ^ D.k) :
    RoundState.entry (D.ab y x yNew z, gens) j m =
      ∑ l ∈ Finset.range (parts j), z ^ l * ((D.comps y x yNew j).getD l []).getD m 0 := by
  have hpad : D.rpad.length = 2 ^ D.k := by simp [HonestData.rpad]; omega
  simp only [RoundState.entry, HonestData.ab, padInstance_false, padInstance_true D h]
  match j with
  | 0 =>
    simp only [List.getD_cons_zero, getD_resize, if_pos hm, HonestData.px]
    rw [← HonestData.rpad]
    simp only [getD_addTo, addTo_length, List.length_map, hpad, hm, getD_mul, parts, if_true, Finset.sum_range_succ,
      Finset.sum_range_zero, HonestData.comps, List.getD_cons_zero, List.getD_cons_succ]
    ring
  | 1 => simp [parts, HonestData.comps]
  | 2 =>
    simp only [List.getD_cons_succ, List.getD_cons_zero, getD_resize, if_pos hm]
    simp [parts, HonestData.comps]
  | 3 =>
    have : (addTo (D.sy x) (D.ky.map (· * z))).getD m 0 = (D.sy x).getD m 0 + D.ky.getD m 0 * z := by
      by_cases hlt : m < (D.sy x).length
      · rw [getD_addTo _ _ _ hlt, getD_mul]
      · simp only [List.getD_eq_getElem?_getD]
        rw [List.getElem?_eq_none (by rw [addTo_length]; omega), List.getElem?_eq_none (by omega),
          List.getElem?_eq_none (by omega)]
        simp
    simp only [List.getD_cons_succ, List.getD_cons_zero, getD_resize, if_pos hm, HonestData.qy, this]
    simp [parts, HonestData.comps, Finset.sum_range_succ, mul_comm]
  | 4 =>
    simp only [List.getD_cons_succ, List.getD_cons_zero, getD_resize, if_pos hm]
    simp [parts, HonestData.comps]
  | j + 5 => simp [parts, HonestData.comps]

/-- the coefficients of an interpolated combination -/
theorem interpolate_comps {p : ℕ} {zs : Finset S} (hz : zs.card = p) (c : ℕ → S) {v : S → S}
    (hv : ∀ z ∈ zs, v z = ∑ l ∈ Finset.range p, z ^ l * c l) (i : ℕ) :
    (Lagrange.interpolate zs id v).coeff i = if i < p then c i else 0 := by
  simp only [Lagrange.interpolate_apply, finsetSum_coeff, coeff_C_mul]
  rw [Finset.sum_congr rfl fun z h => by rw [hv z h, Finset.sum_mul]]
  rw [Finset.sum_comm]
  have : ∀ l ∈ Finset.range p, ∑ z ∈ zs, z ^ l * c l * (Lagrange.basis zs id z).coeff i =
      c l * if i = l then 1 else 0 := by
    intro l hl
    rw [← lagrange_coeff zs (by rw [hz]; exact Finset.mem_range.1 hl), Finset.mul_sum]
    exact Finset.sum_congr rfl fun z _ => by ring
  rw [Finset.sum_congr rfl this]
  simp

/-- the vectors that the extractor can find -/
def HonestData.family (y x yNew : S) (us : List S) : List (ℕ → S) :=
  (fun m => collapse us fun i => if i = m then 1 else 0) :: ([[], D.ky, D.gx, D.sx yNew, D.tn y, D.tp y, D.sx y,
    D.sx D.yOld, D.rpad, D.sy x].map fun l m => l.getD m 0)

/-- the challenges of a pool -/
def Pool.challenges {N : ℕ} (p : Pool F S N) : Challenges S where
  ys := Finset.univ.image p.pk
  xs _ := Finset.univ.image p.pk
  yNews _ _ := Finset.univ.image p.pk
  zs _ _ _ := Finset.univ.image fun i => getChallengeScalar (p.pk i)
  us _ _ _ _ _ := Finset.univ.image p.root

theorem Pool.tried {N : ℕ} {p : Pool F S N} {y x yNew z : S} (h : p.challenges.Tried y x yNew z) :
    ∃ iy ix iyn iz, y = p.pk iy ∧ x = p.pk ix ∧ yNew = p.pk iyn ∧ z = getChallengeScalar (p.pk iz) := by
  obtain ⟨h1, h2, h3, h4⟩ := h
  simp only [Pool.challenges, Finset.mem_image, Finset.mem_univ, true_and] at h1 h2 h3 h4
  obtain ⟨iy, rfl⟩ := h1
  obtain ⟨ix, rfl⟩ := h2
  obtain ⟨iyn, rfl⟩ := h3
  obtain ⟨iz, rfl⟩ := h4
  exact ⟨iy, ix, iyn, iz, rfl, rfl, rfl, rfl⟩

theorem Pool.path {N : ℕ} {p : Pool F S N} {y x yNew z : S} : ∀ {us pre : List S}
    (_ : p.challenges.Path y x yNew z pre us), ∃ is : List (Fin N), us = is.map p.root
  | [], _, _ => ⟨[], rfl⟩
  | u :: us, pre, h => by
    obtain ⟨h1, h2⟩ := h
    obtain ⟨is, rfl⟩ := Pool.path h2
    simp only [Pool.challenges, Finset.mem_image, Finset.mem_univ, true_and] at h1
    obtain ⟨i, rfl⟩ := h1
    exact ⟨i :: is, rfl⟩

/-- **Every vector that the extractor finds is one of these.** -/
theorem found_honest {N : ℕ} {p : Pool F S N} {rep : C → G → Prop} {lnCeil : ℕ → ℕ} {st : Statement C S α}
    {positions : List ℕ} (hN : 0 < N) (hn : st.params.n = D.n) (hk : st.params.k = D.k) (hc : st.circuit = D.circuit)
    (hky : kPoly (positions.zip (1 :: st.inputs)) = D.ky) (hrx : D.rx.length ≤ 2 ^ D.k)
    (hsy : ∀ i, D.ky.length ≤ (D.sy (p.pk i)).length) {v : ℕ → S}
    (h : Found st (honestProver rep lnCeil st.params D) p.challenges positions v) :
    ∃ (iy ix iyn : Fin N) (is : List (Fin N)), is.length = D.k ∧
      ∃ w ∈ D.family (p.pk iy) (p.pk ix) (p.pk iyn) (is.map p.root), ∀ m < 2 ^ D.k, v m = w m := by
  have i0 : Fin N := ⟨0, hN⟩
  have hr : (List.replicate D.k i0).length = D.k := by simp
  have mem : ∀ {y x yNew : S} {us : List S} {l : List S}, l ∈ [[], D.ky, D.gx, D.sx yNew, D.tn y, D.tp y, D.sx y,
      D.sx D.yOld, D.rpad, D.sy x] → (fun m => l.getD m 0) ∈ D.family y x yNew us := fun h =>
    List.mem_cons_of_mem _ (List.mem_map.2 ⟨_, h, rfl⟩)
  cases h with
  | zero => exact ⟨i0, i0, i0, _, hr, _, mem (l := []) (by simp), fun m _ => by simp⟩
  | k => exact ⟨i0, i0, i0, _, hr, _, mem (l := D.ky) (by simp), fun m _ => by rw [hky]⟩
  | s hy hx hyn hs =>
    simp only [Pool.challenges, Finset.mem_image, Finset.mem_univ, true_and] at hyn
    obtain ⟨iyn, rfl⟩ := hyn
    rename_i sx
    have : D.sx (p.pk iyn) = sx := by
      rw [HonestData.sx, ← hn, ← hc, hs]
      rfl
    exact ⟨i0, i0, iyn, _, hr, _, mem (l := D.sx (p.pk iyn)) (by simp), fun m _ => by rw [this]⟩
  | folded ht hl hp =>
    obtain ⟨is, rfl⟩ := Pool.path hp
    exact ⟨i0, i0, i0, is, by simpa [hk] using hl, _, List.mem_cons_self .., fun m _ => rfl⟩
  | opened j i zs hz tree ht =>
    obtain ⟨z0, hz0⟩ := Finset.card_pos.1 (show 0 < zs.card by rw [hz, parts]; split <;> [skip; split] <;> omega)
    obtain ⟨iy, ix, iyn, -, rfl, rfl, rfl, -⟩ := Pool.tried (ht z0 hz0).1
    have key : ∀ m < 2 ^ D.k, (Lagrange.interpolate zs id fun z => (tree z).coeff j m).coeff i =
        if i < parts j then ((D.comps (p.pk iy) (p.pk ix) (p.pk iyn) j).getD i []).getD m 0 else 0 := by
      intro m hm
      refine interpolate_comps hz (fun l => ((D.comps (p.pk iy) (p.pk ix) (p.pk iyn) j).getD l []).getD m 0) ?_ i
      intro z hzm
      rw [coeff_honest D (by
        intro pre u hu
        simp only [Pool.challenges, Finset.mem_image, Finset.mem_univ, true_and] at hu
        obtain ⟨l, rfl⟩ := hu
        exact p.ne l) (ab_length D hrx _ _ _ _) j (tree z) (by simp [hk]) (ht z hzm).2.1 (ht z hzm).2.2 m
          (by rw [hk]; exact hm), foldAll]
      exact ab_entry D hrx (hsy ix) _ _ _ _ _ hm
    refine ⟨iy, ix, iyn, _, hr, fun m => (if i < parts j then (D.comps (p.pk iy) (p.pk ix) (p.pk iyn) j).getD i []
      else []).getD m 0, mem ?_, fun m hm => ?_⟩
    · split
      · next hi =>
        match j with
        | 0 =>
          simp only [parts, if_true] at hi
          interval_cases i <;> simp [HonestData.comps]
        | 1 =>
          rw [show parts 1 = 1 from rfl] at hi
          interval_cases i <;> simp [HonestData.comps]
        | 2 =>
          rw [show parts 2 = 1 from rfl] at hi
          interval_cases i <;> simp [HonestData.comps]
        | 3 =>
          rw [show parts 3 = 2 from rfl] at hi
          interval_cases i <;> simp [HonestData.comps]
        | 4 =>
          rw [show parts 4 = 1 from rfl] at hi
          interval_cases i <;> simp [HonestData.comps]
        | j + 5 =>
          have : parts (j + 5) = 1 := by simp [parts]
          rw [this] at hi
          interval_cases i; simp [HonestData.comps]
      · simp
    · refine (key m hm).trans ?_
      dsimp only
      split <;> simp

end

end Proofs
end Halo
