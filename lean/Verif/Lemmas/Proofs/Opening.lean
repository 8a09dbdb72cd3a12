import Verif.Lemmas.Proofs.Inner
import Verif.Spec.Proofs
/-!
# Honest openings verify: the whole argument
-/
namespace Halo
namespace Proofs
open Util Circuit

section
variable {S G : Type} [Field S] [AddCommGroup G] [Module S G]

theorem ip_replicate_append (s : ℕ) (v : List S) (gs : List G) :
    ip (List.replicate s 0 ++ v) gs = ip v (gs.drop s) := by
  induction s generalizing gs with
  | zero => simp
  | succ s ih => cases gs <;> simp [List.replicate_succ, ih]

theorem ip_eq_combine (v : List S) (gs : List G) {g : ℕ → G} {s : ℕ}
    (hg : ∀ i, i < v.length → gs[i + s]? = some (g (i + s))) :
    ip (List.replicate s 0 ++ v) gs = combine g s v := by
  rw [ip_replicate_append]
  by_cases hv : v = []
  · simp [hv, combine]
  have hlen : v.length ≤ (gs.drop s).length := by
    have h0 : 0 < v.length := List.length_pos_iff.2 hv
    have := (List.getElem?_eq_some_iff.1 (hg (v.length - 1) (by omega))).1
    simp; omega
  rw [ip_eq_sum _ _ hlen, combine]
  apply Finset.sum_congr rfl
  intro i hi
  have := hg i (Finset.mem_range.1 hi)
  simp [List.getD, Nat.add_comm s i, this]

/-- the padded vector of an instance -/
theorem padInstance_eq {k : ℕ} {r : Bool} {v : List S} (h : v.length ≤ 2 ^ k) :
    ∃ a m, padInstance k r v = some a ∧ a.length = 2 ^ k ∧
      a = List.replicate (offset (2 ^ k) r v) 0 ++ v ++ List.replicate m 0 := by
  have hl : 1 <<< k = 2 ^ k := by rw [Nat.shiftLeft_eq, one_mul]
  cases r with
  | false =>
    refine ⟨_, 2 ^ k - v.length, by rw [padInstance, if_neg (by simp)], ?_, ?_⟩
    · simp [resize, hl, h]
    · simp [resize, hl, offset, List.take_of_length_le h]
  | true =>
    refine ⟨_, 0, by rw [padInstance, if_pos rfl, if_pos (by rw [hl]; exact h)], ?_, ?_⟩
    · simp [hl, h]
    · simp [hl, offset]

omit [Field S] in
theorem offset_le {d : ℕ} {r : Bool} {v : List S} (h : v.length ≤ d) : offset d r v + v.length ≤ d := by
  unfold offset; split <;> omega

theorem ip_padInstance {k : ℕ} {r : Bool} {v a : List S} (h : v.length ≤ 2 ^ k)
    (ha : padInstance k r v = some a) {gs : List G} {g : ℕ → G} (hgs : gs.length = 2 ^ k)
    (hg : ∀ i, (hi : i < gs.length) → gs[i] = g i) :
    a.length = 2 ^ k ∧ ip a gs = combine g (offset (2 ^ k) r v) v := by
  obtain ⟨a', m, h1, h2, h3⟩ := padInstance_eq (r := r) h
  rw [ha] at h1
  cases h1
  refine ⟨h2, ?_⟩
  rw [h3, ip_append_zero]
  apply ip_eq_combine
  intro i hi
  have := offset_le (r := r) h
  rw [List.getElem?_eq_getElem (by omega), hg]

end

section
variable {T C F S G : Type} [Field F] [FieldApi F] [Field S] [DecidableEq S] [LawfulField S]
  [CurveOps C F S] [AddCommGroup G] [Module S G] {rep : C → G → Prop} {tr : Transcript T F}

theorem theOnly_some {α : Type} {l : List α} {a : α} (h : theOnly l = some a) : l = [a] := by
  unfold theOnly at h
  split at h
  · cases h; rfl
  · cases h

omit [FieldApi F] [LawfulField S] in
theorem checkFinal_ok (L : ReflOps C F S G rep) {gp : C} {γ : G} (hg : rep gp γ) {us : List S}
    (hus : us ≠ []) {pv : List (C × S)} {ab : List (List S × List S)} {points as : List S}
    (h : List.Forall₂ (InstOk rep [γ]) pv ab)
    (ha : List.Forall₂ (fun ab a => ab.1 = [a]) ab as)
    (hb : ab.map (·.2) = points.map fun x => [collapse us fun i => x ^ i]) :
    checkFinal gp us (us.map (·⁻¹)) points pv as = some true := by
  induction points generalizing pv ab as with
  | nil => simp [checkFinal]
  | cons x points ih =>
    cases h with
    | nil => simp at hb
    | cons h1 h2 =>
      rename_i p ab1 pv' ab'
      cases ha with
      | cons ha1 ha2 =>
        rename_i a as'
        simp only [List.map_cons, List.cons.injEq] at hb
        obtain ⟨p, v⟩ := p
        rw [checkFinal, computeB_eq us x hus]
        have e1 := h1.commitment
        have e2 := h1.opening
        rw [ha1] at e1 e2
        rw [hb.1] at e2
        simp only [ip_cons, ip_nil_left, add_zero, smul_eq_mul] at e1 e2
        have : CurveOps.ctEq p (CurveApi.mul gp a) = true :=
          L.ctEq_of_eq e1 (L.mul a hg)
        simp only [Option.bind_eq_bind, Option.bind_some, this, not_true, if_false, e2, ne_eq]
        exact ih h2 ha2 hb.2

/-- The parts of an opening proof that the prover made -/
structure ShapedOpening (rep : C → G → Prop) (k m : ℕ) (π : MultiPolynomialOpening C S) : Prop where
  rounds : π.rounds.length = k
  a : π.a.length = m
  g : ∃ a, rep π.g a
  sizes : ∀ r ∈ π.rounds, r.L.length = m ∧ r.R.length = m ∧ r.l.length = m ∧ r.r.length = m
  points : ∀ r ∈ π.rounds, (∀ q ∈ r.L, ∃ a, rep q a) ∧ ∀ q ∈ r.R, ∃ a, rep q a

/-- **Honest openings verify**, in terms of `ReflOps`. -/
theorem newProof_verify (L : ReflOps C F S G rep) {cpus : ℕ} (hcpus : 0 < cpus)
    {lnCeil : ℕ → ℕ} (hln : ∀ n, 32 ≤ n → n < 2 ^ 32 → 1 ≤ lnCeil n ∧ lnCeil n ≤ 57) {fuel : ℕ}
    (hfuel : fuel ≤ 256) {k : ℕ} (hk : 1 ≤ k) (hk' : k ≤ 32) {gens : List C} {g : ℕ → G}
    (hlen : gens.length = 2 ^ k) (hg : ∀ i, (h : i < gens.length) → rep gens[i] (g i))
    {instances : List (PolynomialOpening C S × List S)}
    (hv : ∀ i ∈ instances, ValidClaim rep g k i.1 i.2) {t t' : T} {proof packed gNew}
    (h : MultiPolynomialOpening.newProof tr fuel cpus lnCeil instances gens k t =
      some (proof, packed, gNew, t')) :
    ∃ forks us, proof.verifyProof tr (instances.map Prod.fst) k t =
        some (true, packed, gNew, forks, t') ∧ packed.length = k ∧ forks.length = k ∧
      Roots packed us ∧ rep gNew (collapse us g) ∧ ShapedOpening rep k instances.length proof := by
  unfold MultiPolynomialOpening.newProof at h
  cases hm : instances.mapM (fun i => do
      let a ← padInstance k i.1.rightEdge i.2
      some (a, pointPowers k i.1.point)) with
  | none => rw [hm] at h; simp at h
  | some ab =>
    rw [hm] at h
    simp only [Option.bind_eq_bind, Option.bind_some] at h
    cases hp : proveRounds tr fuel cpus lnCeil k ab gens t with
    | none => simp [hp] at h
    | some q =>
      obtain ⟨rounds, packed', ab', gens', t1⟩ := q
      simp only [hp, Option.bind_some] at h
      set gs := (List.range (2 ^ k)).map g with hgs
      have hF : List.Forall₂ rep gens gs := by
        rw [List.forall₂_iff_get]
        refine ⟨by simp [hgs, hlen], fun i h1 h2 => ?_⟩
        simpa [hgs] using hg i h1
      have hgl : gs.length = 2 ^ k := by simp [hgs]
      have hgi : ∀ i, (hi : i < gs.length) → gs[i] = g i := fun i hi => by simp [hgs]
      have hab : List.Forall₂ (InstOk rep gs)
          (instances.map fun i => (i.1.commitment, i.1.opening)) ab ∧
          ab.map (·.2) = instances.map fun i => pointPowers k i.1.point := by
        clear h hp
        rw [mapM_some_iff] at hm
        induction hm with
        | nil => exact ⟨.nil, rfl⟩
        | @cons i e is es h1 h2 ih =>
          obtain ⟨ih1, ih2⟩ := ih fun i hi => hv i (List.mem_cons_of_mem _ hi)
          have hvi := hv i (List.mem_cons_self ..)
          cases hpad : padInstance k i.1.rightEdge i.2 with
          | none => simp [hpad] at h1
          | some a =>
            simp only [hpad, Option.bind_eq_bind, Option.bind_some, Option.some.injEq] at h1
            subst h1
            obtain ⟨a1, a2⟩ := ip_padInstance hvi.size hpad hgl hgi
            have hpl : (pointPowers k i.1.point).length = 2 ^ k := by
              simp [pointPowers, Nat.shiftLeft_eq]
            obtain ⟨b1, b2⟩ := ip_padInstance (gs := pointPowers k i.1.point)
              (g := (i.1.point ^ ·)) hvi.size hpad hpl
              (fun j hj => by simp [pointPowers])
            refine ⟨.cons ⟨?_, ?_, ?_, ?_⟩ ih1, by simp [ih2]⟩
            · rw [a2]; exact hvi.commitment
            · rw [b2]; exact hvi.opening
            · rw [a1, hgl]
            · rw [hpl, hgl]
      obtain ⟨pv', chs, h1, h2, h3, h4, h5, hr, gp, h6, h7, h8, h9⟩ :=
        proveRounds_verify L.toLawfulCurve hcpus hln hfuel hk' hF hgl hab.1 hp
      cases hma : ab'.mapM (fun ab => theOnly ab.1) with
      | none => rw [hma] at h; simp at h
      | some as =>
        rw [hma] at h
        subst h6
        simp only [theOnly, Option.bind_some, Option.some.injEq, Prod.mk.injEq] at h
        obtain ⟨rfl, rfl, rfl, rfl⟩ := h
        rw [mapM_some_iff] at hma
        have hcg : ∀ (us : List S), us.length = k → (collapse us fun i => gs.getD i 0) = collapse us g := by
          intro us hus
          apply collapse_congr
          intro i hi
          rw [hus] at hi
          simp [hgs, List.getD, hi]
        set us := chs.map (·.challenge) with hus
        have husl : us.length = k := by simp [hus, h3]
        have hinv : chs.map (·.challengeInv) = us.map (·⁻¹) := by
          rw [hus, List.map_map]
          exact List.map_congr_left fun c hc => (h5 c hc).inv
        have hil : instances.length = ab.length := by simpa using hab.1.length_eq
        refine ⟨chs.map (·.fork), us, ?_, ?_, by simp [h3], ?_, ?_, ⟨h2, ?_, ⟨_, h7⟩, ?_, ?_⟩⟩
        · unfold MultiPolynomialOpening.verifyProof
          rw [if_neg (not_not.2 h2)]
          simp only [Option.bind_eq_bind, List.map_map]
          change ((verifyRounds tr rounds (instances.map fun i => (i.1.commitment, i.1.opening)) t).bind _) = _
          rw [h1, Option.bind_some]
          simp only
          rw [hinv, checkFinal_ok L h7 (us := us) _ h8 _ _]
          · simp [h4]
          · rw [← List.length_pos_iff]; omega
          · refine hma.imp fun ab a h => ?_
            exact theOnly_some h
          · rw [h9, List.map_map]
            have : (ab.map fun ab => [collapse us fun i => ab.2.getD i 0]) =
                (ab.map (·.2)).map fun b => [collapse us fun i => b.getD i 0] := by
              rw [List.map_map]; rfl
            rw [this, hab.2, List.map_map]
            apply List.map_congr_left
            intro i _
            simp only [Function.comp]
            congr 1
            apply collapse_congr
            intro j hj
            rw [husl] at hj
            simp [pointPowers, List.getD, Nat.shiftLeft_eq, hj]
        · rw [← h4]; simp [h3]
        · rw [← h4, hus]
          unfold Roots
          rw [List.forall₂_map_left_iff, List.forall₂_map_right_iff, List.forall₂_same]
          intro c hc
          rw [(h5 c hc).packed]; exact (h5 c hc).sqrt
        · rw [← hcg us husl]; exact h7
        · have := congrArg List.length h9
          rw [List.length_map, List.length_map] at this
          rw [hil, ← hma.length_eq, this]
        · rw [hil]; exact fun r hm => (hr r hm).1
        · exact fun r hm => (hr r hm).2

theorem stuckOpening_iff {fuel cpus : ℕ} {lnCeil : ℕ → ℕ} {instances : List (PolynomialOpening C S × List S)}
    {gens : List C} {k : ℕ} {t : T} {ab : List (List S × List S)}
    (h : instances.mapM (fun i => do
      let a ← padInstance k i.1.rightEdge i.2
      some (a, pointPowers k i.1.point)) = some ab) :
    StuckOpening tr fuel cpus lnCeil instances gens k t ↔ Stuck tr fuel cpus lnCeil k ab gens t := by
  have key : ∃ as : List (List S), List.Forall₂ (fun i a => padInstance k i.1.rightEdge i.2 = some a) instances as ∧
      as.zip (instances.map fun i => pointPowers k i.1.point) = ab := by
    have h' := mapM_some_iff.1 h
    clear h
    induction h' with
    | nil => exact ⟨[], .nil, rfl⟩
    | @cons i e is es h1 _ ih =>
      obtain ⟨as, h2, h3⟩ := ih
      simp only [Option.bind_eq_bind, Option.bind_eq_some_iff, Option.some.injEq] at h1
      obtain ⟨a, h4, rfl⟩ := h1
      exact ⟨a :: as, .cons h4 h2, by rw [← h3]; rfl⟩
  obtain ⟨as, h1, rfl⟩ := key
  refine ⟨fun ⟨as', h2, h3⟩ => ?_, fun h => ⟨as, h1, h⟩⟩
  suffices as' = as from this ▸ h3
  clear h h3
  rename_i hx
  clear hx
  induction h1 generalizing as' with
  | nil => cases h2; rfl
  | cons h _ ih =>
    cases h2 with
    | cons h' h2 => rw [ih _ h2, Option.some.inj (h'.symm.trans h)]

/-- The prover succeeds if it finds all challenges. -/
theorem newProof_some_iff (L : ReflOps C F S G rep) {cpus : ℕ} (hcpus : 0 < cpus)
    {lnCeil : ℕ → ℕ} (hln : ∀ n, 32 ≤ n → n < 2 ^ 32 → 1 ≤ lnCeil n ∧ lnCeil n ≤ 57) {fuel : ℕ}
    (hfuel : fuel ≤ 256) {k : ℕ} (hk' : k ≤ 32) {gens : List C} {g : ℕ → G}
    (hlen : gens.length = 2 ^ k) (hg : ∀ i, (h : i < gens.length) → rep gens[i] (g i))
    {instances : List (PolynomialOpening C S × List S)}
    (hv : ∀ i ∈ instances, ValidClaim rep g k i.1 i.2) (t : T) :
    (∃ r, MultiPolynomialOpening.newProof tr fuel cpus lnCeil instances gens k t = some r) ↔
      ¬ StuckOpening tr fuel cpus lnCeil instances gens k t := by
  have hm : ∃ ab, instances.mapM (fun i => do
      let a ← padInstance k i.1.rightEdge i.2
      some (a, pointPowers k i.1.point)) = some ab := by
    induction instances with
    | nil => exact ⟨_, rfl⟩
    | cons i is ih =>
      obtain ⟨ab, h⟩ := ih fun i hi => hv i (List.mem_cons_of_mem _ hi)
      obtain ⟨a, m, h1, -⟩ := padInstance_eq (r := i.1.rightEdge) (hv i (List.mem_cons_self ..)).size
      exact ⟨_, by rw [List.mapM_cons, h, h1]; rfl⟩
  obtain ⟨ab, hm⟩ := hm
  rw [stuckOpening_iff hm]
  refine ⟨fun ⟨r, hr⟩ hst => ?_, fun hst => ?_⟩
  · unfold MultiPolynomialOpening.newProof at hr
    rw [hm] at hr
    simp only [Option.bind_eq_bind, Option.bind_some, hst.proveRounds, Option.bind_none] at hr
    cases hr
  set gs := (List.range (2 ^ k)).map g with hgs
  have hF : List.Forall₂ rep gens gs := by
    rw [List.forall₂_iff_get]
    refine ⟨by simp [hgs, hlen], fun i h1 h2 => ?_⟩
    simpa [hgs] using hg i h1
  have hgl : gs.length = 2 ^ k := by simp [hgs]
  have hgi : ∀ i, (hi : i < gs.length) → gs[i] = g i := fun i hi => by simp [hgs]
  have hab : ∃ pv, List.Forall₂ (InstOk rep gs) pv ab := by
    have hm' := mapM_some_iff.1 hm
    clear hm hst
    induction hm' with
    | nil => exact ⟨[], .nil⟩
    | @cons i e is es h1 h2 ih =>
      obtain ⟨pv, ih1⟩ := ih fun i hi => hv i (List.mem_cons_of_mem _ hi)
      have hvi := hv i (List.mem_cons_self ..)
      cases hpad : padInstance k i.1.rightEdge i.2 with
      | none => simp [hpad] at h1
      | some a =>
        simp only [hpad, Option.bind_eq_bind, Option.bind_some, Option.some.injEq] at h1
        subst h1
        obtain ⟨a1, a2⟩ := ip_padInstance hvi.size hpad hgl hgi
        have hpl : (pointPowers k i.1.point).length = 2 ^ k := by
          simp [pointPowers, Nat.shiftLeft_eq]
        refine ⟨(i.1.commitment, _) :: pv, .cons ⟨?_, rfl, ?_, ?_⟩ ih1⟩
        · rw [a2]; exact hvi.commitment
        · rw [a1, hgl]
        · rw [hpl, hgl]
  obtain ⟨pv, hab⟩ := hab
  obtain ⟨⟨rounds, packed, ab', gens', t'⟩, hr⟩ := proveRounds_some L.toLawfulCurve hcpus hln hk' hF hgl
    (ab := ab) (by
      intro e he
      obtain ⟨i, hi, rfl⟩ := List.mem_iff_getElem.1 he
      have := (List.forall₂_iff_get.1 hab).2 i (by rw [hab.length_eq]; exact hi) hi
      exact ⟨this.lenA.trans hgl, this.lenB.trans hgl⟩) t hst
  obtain ⟨pv', chs, -, -, -, -, -, -, gp, h6, -, h8, -⟩ :=
    proveRounds_verify L.toLawfulCurve hcpus hln hfuel hk' hF hgl hab hr
  have has : ∃ as, ab'.mapM (fun ab => theOnly ab.1) = some as := by
    clear hr
    induction h8 with
    | nil => exact ⟨_, rfl⟩
    | cons h1 _ ih =>
      obtain ⟨as, ih⟩ := ih
      obtain ⟨x, hx⟩ := List.length_eq_one_iff.1 (by simpa using h1.lenA)
      exact ⟨x :: as, by rw [List.mapM_cons, ih, hx]; rfl⟩
  obtain ⟨as, has⟩ := has
  unfold MultiPolynomialOpening.newProof
  rw [hm]
  simp only [Option.bind_eq_bind, Option.bind_some, hr, has, h6]
  exact ⟨_, rfl⟩

theorem newProof_some (L : ReflOps C F S G rep) {cpus : ℕ} (hcpus : 0 < cpus)
    {lnCeil : ℕ → ℕ} (hln : ∀ n, 32 ≤ n → n < 2 ^ 32 → 1 ≤ lnCeil n ∧ lnCeil n ≤ 57) {fuel : ℕ}
    (hfuel : fuel ≤ 256) (htr : ∀ t, ∃ r, squareChallenge S tr fuel t = some r)
    {k : ℕ} (hk' : k ≤ 32) {gens : List C} {g : ℕ → G}
    (hlen : gens.length = 2 ^ k) (hg : ∀ i, (h : i < gens.length) → rep gens[i] (g i))
    {instances : List (PolynomialOpening C S × List S)}
    (hv : ∀ i ∈ instances, ValidClaim rep g k i.1 i.2) (t : T) :
    ∃ r, MultiPolynomialOpening.newProof tr fuel cpus lnCeil instances gens k t = some r :=
  (newProof_some_iff L hcpus hln hfuel hk' hlen hg hv t).2 fun ⟨_, _, h⟩ => not_stuck htr h

end
end Proofs
end Halo
