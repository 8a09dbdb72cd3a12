import Verif.Lemmas.Proofs.Basic
import Verif.Spec.Stuck
/-!
# Honest openings verify
-/
namespace Halo
namespace Proofs
open Util

theorem mapM_some_iff {α β : Type} {f : α → Option β} {l : List α} {r : List β} :
    l.mapM f = some r ↔ List.Forall₂ (fun a b => f a = some b) l r := by
  induction l generalizing r with
  | nil => cases r <;> simp
  | cons a l ih =>
    rw [List.mapM_cons]
    cases hfa : f a with
    | none =>
      simp only [Option.bind_eq_bind, Option.bind_none, reduceCtorEq, false_iff]
      intro h
      cases h with
      | cons h1 h2 => simp [hfa] at h1
    | some b =>
      cases r with
      | nil => cases l.mapM f <;> simp
      | cons c r =>
        rw [List.forall₂_cons, ← ih, hfa]
        cases l.mapM f <;> simp

section challenge
variable {T F S : Type} [Field F] [FieldApi F] [Field S] [DecidableEq S] [LawfulField S]
  {tr : Transcript T F}

/-- What the prover and the verifier know about a challenge -/
structure Challenge.Good (ch : Challenge S) : Prop where
  ne : ch.challenge ≠ 0
  inv : ch.challengeInv = ch.challenge⁻¹
  sq : ch.challengeSq = ch.challenge ^ 2
  sqrt : FieldApi.sqrt ch.challengeSq = some ch.challenge
  packed : (getChallengeScalar ch.challengeSqPacked : S) = ch.challengeSq

omit [DecidableEq S] in
theorem sqrt_mul {a y : S} (h : FieldApi.sqrt a = some y) : y * y = a := by
  by_cases hs : IsSquare a
  · obtain ⟨z, h1, h2⟩ := LawfulField.sqrt_some a hs
    rw [h] at h1
    cases h1
    exact h2
  · rw [LawfulField.sqrt_none a hs] at h
    cases h

omit [DecidableEq S] in
theorem forkLoop_mono {t : T} {fuel fuel' : ℕ} (h : fuel ≤ fuel') : ∀ {f c r},
    forkLoop S tr t fuel f c = some r → forkLoop S tr t fuel' f c = some r := by
  induction fuel generalizing fuel' with
  | zero => intro f c r h; simp [forkLoop] at h
  | succ fuel ih =>
    intro f c r hr
    obtain ⟨m, rfl⟩ : ∃ m, fuel' = m + 1 := ⟨fuel' - 1, by omega⟩
    rw [forkLoop] at hr ⊢
    cases hg : getChallenge S tr (tr.absorb f t) with
    | none => simp [hg] at hr
    | some p =>
      simp only [hg, Option.bind_eq_bind, Option.bind_some] at hr ⊢
      cases hs : FieldApi.sqrt (getChallengeScalar p.1 : S) with
      | none =>
        simp only [hs] at hr ⊢
        exact ih (by omega) hr
      | some u => simpa only [hs] using hr

omit [DecidableEq S] in
theorem forkLoop_some {t : T} {fuel : ℕ} : ∀ {f c r}, forkLoop S tr t fuel f c = some r →
    r.2.2.2.1 = getChallengeScalar r.2.2.1 ∧ FieldApi.sqrt r.2.2.2.1 = some r.2.2.2.2 ∧
      r.2.1 < c + fuel := by
  induction fuel with
  | zero => intro f c r h; simp [forkLoop] at h
  | succ fuel ih =>
    intro f c r hr
    rw [forkLoop] at hr
    cases hg : getChallenge S tr (tr.absorb f t) with
    | none => simp [hg] at hr
    | some p =>
      simp only [hg, Option.bind_eq_bind, Option.bind_some] at hr
      cases hs : FieldApi.sqrt (getChallengeScalar p.1 : S) with
      | none =>
        simp only [hs] at hr
        obtain ⟨h1, h2, h3⟩ := ih hr
        exact ⟨h1, h2, by omega⟩
      | some u =>
        simp only [hs, Option.some.injEq] at hr
        subst hr
        dsimp only
        exact ⟨rfl, hs, by omega⟩

theorem squareChallenge_mono {t : T} {fuel fuel' : ℕ} (h : fuel ≤ fuel') {r}
    (hr : squareChallenge S tr fuel t = some r) : squareChallenge S tr fuel' t = some r := by
  unfold squareChallenge at hr ⊢
  cases hf : forkLoop S tr t fuel 0 0 with
  | none => simp [hf] at hr
  | some p => rw [forkLoop_mono h hf]; rwa [hf] at hr

theorem squareChallenge_good {t t' : T} {fuel : ℕ} {ch : Challenge S}
    (hr : squareChallenge S tr fuel t = some (ch, t')) : ch.Good := by
  unfold squareChallenge at hr
  cases hf : forkLoop S tr t fuel 0 0 with
  | none => simp [hf] at hr
  | some p =>
    obtain ⟨h1, h2, -⟩ := forkLoop_some hf
    obtain ⟨f, c, packed, sq, u⟩ := p
    simp only at h1 h2
    simp only [hf, Option.bind_eq_bind, Option.bind_some] at hr
    cases hg : getChallenge S tr (tr.absorb f t) with
    | none => simp [hg] at hr
    | some q =>
      simp only [hg, Option.bind_some] at hr
      split at hr
      · by_cases h0 : u = 0
        · simp [h0, LawfulField.invert_zero] at hr
        · rw [LawfulField.invert_eq _ h0] at hr
          simp only [Option.bind_some, Option.some.injEq, Prod.mk.injEq] at hr
          obtain ⟨rfl, -⟩ := hr
          refine ⟨h0, rfl, ?_, h2, h1.symm⟩
          simp only [pow_two, sqrt_mul h2]
      · simp at hr

end challenge

section rounds
variable {T C F S G : Type} [Field F] [FieldApi F] [Field S] [DecidableEq S] [LawfulField S]
  [CurveOps C F S] [AddCommGroup G] [Module S G] {rep : C → G → Prop} {tr : Transcript T F}

/-- a commitment and an opening are those of a coefficient vector and a vector of powers -/
structure InstOk (rep : C → G → Prop) (gs : List G) (pv : C × S) (ab : List S × List S) : Prop where
  commitment : rep pv.1 (ip ab.1 gs)
  opening : pv.2 = ip ab.1 ab.2
  lenA : ab.1.length = gs.length
  lenB : ab.2.length = gs.length

/-- the entries of a round -/
structure EntryOk (rep : C → G → Prop) (l : ℕ) (gs : List G) (ab : List S × List S)
    (e : C × C × S × S) : Prop where
  L : rep e.1 (ip (ab.1.take l) (gs.drop l))
  R : rep e.2.1 (ip (ab.1.drop l) (gs.take l))
  lo : e.2.2.1 = ip (ab.1.take l) (ab.2.drop l)
  hi : e.2.2.2 = ip (ab.1.drop l) (ab.2.take l)

omit [Field F] [FieldApi F] [DecidableEq S] in
theorem proveEntry_ok (L : LawfulCurve C S G rep) {cpus : ℕ} (hcpus : 0 < cpus) {lnCeil : ℕ → ℕ}
    (hln : ∀ n, 32 ≤ n → n < 2 ^ 32 → 1 ≤ lnCeil n ∧ lnCeil n ≤ 57) {l : ℕ} (hl : l < 2 ^ 32)
    {gens : List C} {gs : List G} (hg : List.Forall₂ rep gens gs) (hgs : gs.length = 2 * l)
    {ab : List S × List S} (ha : ab.1.length = gs.length) (hb : ab.2.length = gs.length) :
    ∃ e, proveEntry cpus lnCeil l gens ab = some e ∧ EntryOk rep l gs ab e := by
  have hlen := hg.length_eq
  obtain ⟨p, hp, hp'⟩ := multiexp_rep L hcpus hln (coeffs := ab.1.take l) (bases := gens.drop l)
    (by simp; omega) (by simp; omega) (List.forall₂_drop l hg)
  obtain ⟨q, hq, hq'⟩ := multiexp_rep L hcpus hln (coeffs := ab.1.drop l) (bases := gens.take l)
    (by simp; omega) (by simp; omega) (List.forall₂_take l hg)
  refine ⟨(p, q, ip (ab.1.take l) (ab.2.drop l), ip (ab.1.drop l) (ab.2.take l)), ?_, hp', hq', rfl, rfl⟩
  rw [proveEntry, hp, hq, computeInnerProduct_eq (by simp; omega),
    computeInnerProduct_eq (by simp; omega)]
  rfl

omit [Field F] [FieldApi F] [DecidableEq S] in
theorem foldInstance_ok (L : LawfulCurve C S G rep) {l : ℕ} {gs : List G} (hgs : gs.length = 2 * l)
    {pv : C × S} {ab : List S × List S} {e : C × C × S × S} {ch : Challenge S} (hch : ch.Good)
    (h : InstOk rep gs pv ab) (he : EntryOk rep l gs ab e) :
    InstOk rep (List.zipWith (fun lo hi => ch.challenge⁻¹ • lo + ch.challenge • hi) (gs.take l) (gs.drop l))
      (foldInstance ch pv e) (foldVectors l ch ab) := by
  have hu : ch.challenge * ch.challenge⁻¹ = 1 := mul_inv_cancel₀ hch.ne
  have hA := h.lenA
  have hB := h.lenB
  have e1 : ip ab.1 gs = ip (ab.1.take l) (gs.take l) + ip (ab.1.drop l) (gs.drop l) := by
    conv_lhs => rw [← List.take_append_drop l ab.1, ← List.take_append_drop l gs]
    exact ip_append (by simp [hA])
  have e2 : ip ab.1 ab.2 = ip (ab.1.take l) (ab.2.take l) + ip (ab.1.drop l) (ab.2.drop l) := by
    conv_lhs => rw [← List.take_append_drop l ab.1, ← List.take_append_drop l ab.2]
    exact ip_append (by simp [hA, hB])
  constructor
  · simp only [foldInstance, foldVectors, hch.inv, hch.sq]
    rw [ip_fold hu (by simp; omega) (by simp; omega) (by simp; omega), ← e1]
    exact L.add (L.add h.commitment (L.mul _ he.L)) (L.mul _ he.R)
  · simp only [foldInstance, foldVectors, hch.inv, hch.sq, h.opening, he.lo, he.hi]
    have := ip_fold (G := S) hu (aL := ab.1.take l) (aH := ab.1.drop l) (gL := ab.2.take l)
      (gH := ab.2.drop l) (by simp; omega) (by simp; omega) (by simp; omega)
    simp only [smul_eq_mul] at this
    rw [e2]
    simp only [mul_comm _ (ch.challenge⁻¹), mul_comm _ ch.challenge, mul_comm _ (ch.challenge ^ 2),
      mul_comm _ (ch.challenge⁻¹ ^ 2)] at this ⊢
    rw [this]
  · simp [foldVectors]; omega
  · simp [foldVectors]; omega

omit [Field F] [FieldApi F] [Field S] [DecidableEq S] [LawfulField S] [CurveOps C F S] in
theorem entries_map (es : List (C × C × S × S)) :
    (⟨es.map (·.1), es.map (·.2.1), es.map (·.2.2.1), es.map (·.2.2.2)⟩ :
      InnerProductRound C S).entries es.length = some es := by
  rw [InnerProductRound.entries, if_pos (by simp)]
  simp only [List.zip_map', Option.some.injEq]
  simp

theorem forall₂_zipWith {α β γ δ : Type} {R : α → β → Prop} {P : β → γ → Prop} {Q : δ → β → Prop}
    {f : α → γ → δ} (hf : ∀ a b c, R a b → P b c → Q (f a c) b) {as : List α} {bs : List β}
    {cs : List γ} (h1 : List.Forall₂ R as bs) (h2 : List.Forall₂ P bs cs) :
    List.Forall₂ Q (List.zipWith f as cs) bs := by
  induction h1 generalizing cs with
  | nil => cases h2; simp
  | cons h _ ih => cases h2 with
    | cons h' h2 => exact .cons (hf _ _ _ h h') (ih h2)

/-- The verifier follows the prover through the rounds, and ends with a claim about the folded
generator. -/
theorem proveRounds_verify (L : LawfulCurve C S G rep) {cpus : ℕ} (hcpus : 0 < cpus)
    {lnCeil : ℕ → ℕ} (hln : ∀ n, 32 ≤ n → n < 2 ^ 32 → 1 ≤ lnCeil n ∧ lnCeil n ≤ 57) {fuel : ℕ}
    (hfuel : fuel ≤ 256) : ∀ {k : ℕ} (_ : k ≤ 32) {ab : List (List S × List S)} {gens : List C}
    {gs : List G} (_ : List.Forall₂ rep gens gs) (_ : gs.length = 2 ^ k) {pv : List (C × S)}
    (_ : List.Forall₂ (InstOk rep gs) pv ab) {t t' : T} {rounds packed ab' gens'}
    (_ : proveRounds tr fuel cpus lnCeil k ab gens t = some (rounds, packed, ab', gens', t')),
    ∃ pv' chs, verifyRounds tr rounds pv t = some (pv', chs, t') ∧ rounds.length = k ∧
      chs.length = k ∧ chs.map (·.challengeSqPacked) = packed ∧ (∀ ch ∈ chs, ch.Good) ∧
      (∀ r ∈ rounds, (r.L.length = ab.length ∧ r.R.length = ab.length ∧ r.l.length = ab.length ∧
        r.r.length = ab.length) ∧ (∀ q ∈ r.L, ∃ a, rep q a) ∧ ∀ q ∈ r.R, ∃ a, rep q a) ∧
      ∃ g, gens' = [g] ∧ rep g (collapse (chs.map (·.challenge)) fun i => gs.getD i 0) ∧
      List.Forall₂ (InstOk rep [collapse (chs.map (·.challenge)) fun i => gs.getD i 0]) pv' ab' ∧
      ab'.map (·.2) = ab.map fun ab => [collapse (chs.map (·.challenge)) fun i => ab.2.getD i 0] := by
  intro k
  induction k with
  | zero =>
    intro _ ab gens gs hg hgs pv hpv t t' rounds packed ab' gens' h
    simp only [proveRounds, Option.some.injEq, Prod.mk.injEq] at h
    obtain ⟨rfl, rfl, rfl, rfl, rfl⟩ := h
    obtain ⟨x, rfl⟩ : ∃ x, gs = [x] := List.length_eq_one_iff.1 (by simpa using hgs)
    obtain ⟨g, rfl⟩ : ∃ x, gens = [x] := List.length_eq_one_iff.1 (by simpa using hg.length_eq)
    refine ⟨pv, [], rfl, rfl, rfl, rfl, by simp, by simp, g, rfl, ?_, ?_, ?_⟩
    · simpa [collapse] using hg
    · simpa [collapse] using hpv
    · apply List.map_congr_left
      intro e he
      obtain ⟨i, hi, rfl⟩ := List.mem_iff_getElem.1 he
      have := ((List.forall₂_iff_get.1 hpv).2 i (by rw [hpv.length_eq]; exact hi) hi).lenB
      obtain ⟨y, hy⟩ := List.length_eq_one_iff.1 (by simpa using this)
      simp [hy, collapse]
  | succ k ih =>
    intro hk ab gens gs hg hgs pv hpv t t' rounds packed ab' gens' h
    have hl : 1 <<< k = 2 ^ k := by rw [Nat.shiftLeft_eq, one_mul]
    have hgs2 : gs.length = 2 * 2 ^ k := by rw [hgs]; ring
    have hlt : 2 ^ k < 2 ^ 32 := Nat.pow_lt_pow_right (by norm_num) (by omega)
    rw [proveRounds] at h
    simp only [hl, Option.bind_eq_bind] at h
    have hes : ∃ es, ab.mapM (proveEntry cpus lnCeil (2 ^ k) gens) = some es ∧
        List.Forall₂ (EntryOk rep (2 ^ k) gs) ab es := by
      clear h
      induction hpv with
      | nil => exact ⟨[], rfl, .nil⟩
      | cons h1 _ ih2 =>
        obtain ⟨es, m1, m2⟩ := ih2
        obtain ⟨e, e1, e2⟩ := proveEntry_ok L hcpus hln hlt hg hgs2 h1.lenA h1.lenB
        exact ⟨e :: es, by rw [List.mapM_cons, e1, m1]; rfl, .cons e2 m2⟩
    obtain ⟨es, hm, he⟩ := hes
    rw [hm, Option.bind_some] at h
    cases hc : squareChallenge S tr fuel (appendRound tr es t) with
    | none => simp [hc] at h
    | some p =>
      obtain ⟨ch, t1⟩ := p
      have hch := squareChallenge_good hc
      simp only [hc, Option.bind_some] at h
      rw [generatorCollapse_eq hcpus (l := 2 ^ k) (by rw [hg.length_eq, hgs2]) (by positivity),
        Option.bind_some] at h
      set gens1 := List.zipWith (fun lo hi => CurveApi.add (CurveApi.mul lo ch.challengeInv)
        (CurveApi.mul hi ch.challenge)) (gens.take (2 ^ k)) (gens.drop (2 ^ k)) with hgens1
      have hlen := hg.length_eq
      have htake : (gens1 ++ gens.drop (2 ^ k)).take (2 ^ k) = gens1 := by
        rw [List.take_append_of_le_length (by simp [hgens1]; omega), List.take_of_length_le]
        simp [hgens1]
      rw [htake] at h
      set gs1 := List.zipWith (fun lo hi => ch.challenge⁻¹ • lo + ch.challenge • hi) (gs.take (2 ^ k))
        (gs.drop (2 ^ k)) with hgs1
      have hg1 : List.Forall₂ rep gens1 gs1 := by
        rw [List.forall₂_iff_get]
        refine ⟨by simp [hgens1, hgs1, hlen], fun i h1 h2 => ?_⟩
        simp only [hgens1, hgs1, List.get_eq_getElem, List.getElem_zipWith, hch.inv]
        have := (List.forall₂_iff_get.1 hg).2
        have h3 : i < 2 ^ k := by simp [hgs1] at h2; omega
        refine L.add (L.mul _ ?_) (L.mul _ ?_)
        · have := this i (by omega) (by omega)
          simpa using this
        · have := this (2 ^ k + i) (by omega) (by omega)
          simpa using this
      have hpv1 : List.Forall₂ (InstOk rep gs1) (List.zipWith (foldInstance ch) pv es)
          (ab.map (foldVectors (2 ^ k) ch)) := by
        rw [List.forall₂_map_right_iff]
        exact forall₂_zipWith (R := InstOk rep gs) (P := EntryOk rep (2 ^ k) gs)
          (Q := fun pv ab => InstOk rep gs1 pv (foldVectors (2 ^ k) ch ab))
          (fun a b c h1 h2 => foldInstance_ok L hgs2 hch h1 h2) hpv he
      cases hp : proveRounds tr fuel cpus lnCeil k (ab.map (foldVectors (2 ^ k) ch)) gens1 t1 with
      | none => simp [hp] at h
      | some q =>
        obtain ⟨rounds', packed', ab1, gens2, t2⟩ := q
        simp only [hp, Option.bind_some, Option.some.injEq, Prod.mk.injEq] at h
        obtain ⟨rfl, rfl, rfl, rfl, rfl⟩ := h
        obtain ⟨pv', chs, h1, h2, h3, h4, h5, hr, g, h6, h7, h8, h9⟩ :=
          ih (by omega) hg1 (by simp [hgs1]; omega) hpv1 hp
        have hcol : collapse (ch.challenge :: chs.map (·.challenge)) (fun i => gs.getD i 0) =
            collapse (chs.map (·.challenge)) fun i => gs1.getD i 0 := by
          rw [collapse_fold _ _ _ (by simpa [h3] using hgs2), hgs1]
          simp [h3]
        have hpl : pv.length = es.length := by rw [hpv.length_eq, he.length_eq]
        refine ⟨pv', ch :: chs, ?_, by simp [h2], by simp [h3], by simp [h4], ?_, ?_, g, h6, ?_, ?_, ?_⟩
        · rw [verifyRounds, hpl, entries_map]
          simp only [Option.bind_eq_bind, Option.bind_some]
          rw [squareChallenge_mono hfuel hc]
          simp only [Option.bind_some, h1]
        · intro c hc'
          rcases List.mem_cons.1 hc' with rfl | hc'
          · exact hch
          · exact h5 c hc'
        · intro r hr'
          rcases List.mem_cons.1 hr' with rfl | hr'
          · refine ⟨by simp [he.length_eq], ?_, ?_⟩ <;>
            · simp only [List.mem_map]
              rintro q ⟨e, hmem, rfl⟩
              obtain ⟨i, hi, rfl⟩ := List.mem_iff_getElem.1 hmem
              have := (List.forall₂_iff_get.1 he).2 i (by rw [he.length_eq]; exact hi) hi
              first | exact ⟨_, this.L⟩ | exact ⟨_, this.R⟩
          · simpa using hr r hr'
        · rw [List.map_cons, hcol]; exact h7
        · rw [List.map_cons, hcol]; exact h8
        · rw [h9, List.map_map]
          apply List.map_congr_left
          intro e he'
          obtain ⟨i, hi, rfl⟩ := List.mem_iff_getElem.1 he'
          have := ((List.forall₂_iff_get.1 hpv).2 i (by rw [hpv.length_eq]; exact hi) hi).lenB
          simp only [List.get_eq_getElem] at this
          rw [List.map_cons, collapse_fold _ _ _ (by simp [h3, this, hgs2])]
          simp only [Function.comp, foldVectors, hch.inv, List.length_map, h3, smul_eq_mul]
          simp only [mul_comm _ (ch.challenge⁻¹), mul_comm _ ch.challenge]

omit [FieldApi F] [DecidableEq S] [LawfulField S] [CurveOps C F S] [Field F] [Module S G] [AddCommGroup G] in
theorem foldVectors_length {l : ℕ} {ch : Challenge S} {ab : List S × List S}
    (h : ab.1.length = 2 * l ∧ ab.2.length = 2 * l) :
    (foldVectors l ch ab).1.length = l ∧ (foldVectors l ch ab).2.length = l := by
  simp [foldVectors]; omega

theorem not_stuck {fuel cpus : ℕ} {lnCeil : ℕ → ℕ} (htr : ∀ t, ∃ r, squareChallenge S tr fuel t = some r) {k : ℕ}
    {ab : List (List S × List S)} {gens : List C} {t : T} : ¬ Stuck tr fuel cpus lnCeil k ab gens t := by
  intro h
  induction h with
  | here _ h => obtain ⟨r, h'⟩ := htr _; rw [h] at h'; cases h'
  | later _ _ _ _ ih => exact ih

theorem Stuck.proveRounds {fuel cpus : ℕ} {lnCeil : ℕ → ℕ} {k : ℕ} {ab : List (List S × List S)} {gens : List C} {t : T}
    (h : Stuck tr fuel cpus lnCeil k ab gens t) : Proofs.proveRounds tr fuel cpus lnCeil k ab gens t = none := by
  induction h with
  | here hes h => simp only [Proofs.proveRounds, hes, h, Option.bind_eq_bind, Option.bind_some, Option.bind_none]
  | later hes h hg _ ih =>
    simp only [Proofs.proveRounds, hes, h, hg, ih, Option.bind_eq_bind, Option.bind_some, Option.bind_none]

/-- The prover gets through the rounds if it finds all challenges. -/
theorem proveRounds_some (L : LawfulCurve C S G rep) {cpus : ℕ} (hcpus : 0 < cpus)
    {lnCeil : ℕ → ℕ} (hln : ∀ n, 32 ≤ n → n < 2 ^ 32 → 1 ≤ lnCeil n ∧ lnCeil n ≤ 57) {fuel : ℕ} :
    ∀ {k : ℕ} (_ : k ≤ 32) {ab : List (List S × List S)} {gens : List C} {gs : List G}
    (_ : List.Forall₂ rep gens gs) (_ : gs.length = 2 ^ k)
    (_ : ∀ e ∈ ab, e.1.length = 2 ^ k ∧ e.2.length = 2 ^ k) (t : T) (_ : ¬ Stuck tr fuel cpus lnCeil k ab gens t),
    ∃ r, proveRounds tr fuel cpus lnCeil k ab gens t = some r := by
  intro k
  induction k with
  | zero => intro _ ab gens gs _ _ _ t _; exact ⟨_, rfl⟩
  | succ k ih =>
    intro hk ab gens gs hg hgs hab t hst
    have hl : 1 <<< k = 2 ^ k := by rw [Nat.shiftLeft_eq, one_mul]
    have hgs2 : gs.length = 2 * 2 ^ k := by rw [hgs]; ring
    have hlt : 2 ^ k < 2 ^ 32 := Nat.pow_lt_pow_right (by norm_num) (by omega)
    have hes : ∃ es, ab.mapM (proveEntry cpus lnCeil (2 ^ k) gens) = some es := by
      clear ih hst
      induction ab with
      | nil => exact ⟨[], rfl⟩
      | cons e ab ih2 =>
        obtain ⟨es, m1⟩ := ih2 fun e he => hab e (List.mem_cons_of_mem _ he)
        obtain ⟨h1, h2⟩ := hab e (List.mem_cons_self ..)
        obtain ⟨e', e1, e2⟩ := proveEntry_ok L hcpus hln hlt hg hgs2 (h1.trans hgs.symm)
          (h2.trans hgs.symm)
        exact ⟨e' :: es, by rw [List.mapM_cons, e1, m1]; rfl⟩
    obtain ⟨es, hm⟩ := hes
    obtain ⟨⟨ch, t1⟩, hc⟩ : ∃ r, squareChallenge S tr fuel (appendRound tr es t) = some r := by
      cases hc : squareChallenge S tr fuel (appendRound tr es t) with
      | none => exact (hst (.here (by rw [hl]; exact hm) hc)).elim
      | some r => exact ⟨r, rfl⟩
    have hlen := hg.length_eq
    have hcol := generatorCollapse_eq hcpus (g := gens) (l := 2 ^ k) (by omega) (by positivity) ch.challenge ch.challengeInv
    set gens1 := List.zipWith (fun lo hi => CurveApi.add (CurveApi.mul lo ch.challengeInv)
      (CurveApi.mul hi ch.challenge)) (gens.take (2 ^ k)) (gens.drop (2 ^ k)) with hgens1
    have htake : (gens1 ++ gens.drop (2 ^ k)).take (2 ^ k) = gens1 := by
      rw [List.take_append_of_le_length (by simp [hgens1]; omega), List.take_of_length_le]
      simp [hgens1]
    set gs1 := List.zipWith (fun lo hi => ch.challengeInv • lo + ch.challenge • hi) (gs.take (2 ^ k))
      (gs.drop (2 ^ k)) with hgs1
    have hg1 : List.Forall₂ rep gens1 gs1 := by
      rw [List.forall₂_iff_get]
      refine ⟨by simp [hgens1, hgs1, hlen], fun i h1 h2 => ?_⟩
      simp only [hgens1, hgs1, List.get_eq_getElem, List.getElem_zipWith]
      have := (List.forall₂_iff_get.1 hg).2
      have h3 : i < 2 ^ k := by simp [hgs1] at h2; omega
      refine L.add (L.mul _ ?_) (L.mul _ ?_)
      · have := this i (by omega) (by omega)
        simpa using this
      · have := this (2 ^ k + i) (by omega) (by omega)
        simpa using this
    obtain ⟨⟨rounds', packed', ab1, gens2, t2⟩, hr⟩ := ih (by omega) hg1 (by simp [hgs1]; omega)
      (ab := ab.map (foldVectors (2 ^ k) ch)) (by
        intro e he
        obtain ⟨e', he', rfl⟩ := List.mem_map.1 he
        obtain ⟨h1, h2⟩ := hab e' he'
        exact foldVectors_length ⟨by rw [h1]; ring, by rw [h2]; ring⟩) t1 (fun h => hst (.later (by rw [hl]; exact hm) hc
          hcol (by rw [hl, htake]; exact h)))
    rw [proveRounds]
    simp only [hl, Option.bind_eq_bind, hm, hc, Option.bind_some]
    rw [hcol, Option.bind_some, htake, hr]
    exact ⟨_, rfl⟩

end rounds

end Proofs
end Halo
