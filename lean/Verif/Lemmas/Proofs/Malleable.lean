import Verif.Spec.Malleable
import Verif.Lemmas.Proofs.Acceptance
import Verif.Lemmas.Proofs.Bytes
/-!
# Proofs that differ only in what the verifiers do not look at
-/
namespace Halo
namespace Proofs
open Circuit Util
set_option linter.unusedSectionVars false
variable {T C F S G : Type} [Field F] [LawfulField F] [Field S] [DecidableEq S] [LawfulField S]
  [AddCommGroup G] [Module S G] [CurveOps C F S] {rep : C → G → Prop} {pt : C → G} {α : Type} {tr : Transcript T F}

theorem AlikePacked.symm {l l' : List S} (h : AlikePacked l l') : AlikePacked l' l := Eq.symm h

theorem AlikePacked.length {l l' : List S} (h : AlikePacked l l') : l.length = l'.length := by
  simpa using congrArg List.length h

theorem AlikePacked.ne_nil {l l' : List S} (h : AlikePacked l l') (hl : l ≠ []) : l' ≠ [] := by
  rw [← List.length_pos_iff] at hl ⊢
  rw [← h.length]
  exact hl

theorem AlikePacked.scalars {l l' : List S} (h : AlikePacked l l') :
    l.map (fun p => (getChallengeScalar p : S)) = l'.map fun p => (getChallengeScalar p : S) := by
  have e : (fun p : S => (getChallengeScalar p : S)) = Util.expandChallenge ∘ FieldApi.lower128 := by
    funext p
    rw [getChallengeScalar, Function.comp_apply]
  rw [e, ← List.map_map, ← List.map_map, h]

theorem AlikePacked.roots {l l' us : List S} (h : AlikePacked l l') (hr : Roots l us) : Roots l' us := by
  have key : ∀ l : List S, Roots l us ↔ List.Forall₂ (fun s u => FieldApi.sqrt s = some u)
      (l.map fun p => (getChallengeScalar p : S)) us := fun l => by
    rw [List.forall₂_map_left_iff]
    rfl
  rw [key] at hr ⊢
  rwa [← h.scalars]

theorem AlikePacked.bytes {l l' : List S} (h : AlikePacked l l') : l.flatMap bytes16 = l'.flatMap bytes16 := by
  induction l generalizing l' with
  | nil =>
    cases l' with
    | nil => rfl
    | cons _ _ => simp [AlikePacked] at h
  | cons a l ih =>
    cases l' with
    | nil => simp [AlikePacked] at h
    | cons b l' =>
      simp only [AlikePacked, List.map_cons, List.cons.injEq] at h
      have hb : bytes16 a = bytes16 b := by
        rw [bytes16_inj, ← LawfulField.lower128_val, ← LawfulField.lower128_val, h.1]
      rw [List.flatMap_cons, List.flatMap_cons, hb, ih h.2]

theorem take_length {M : Type} {m : ℕ} {l l' : List M} (h : l.take m = l'.take m) : m ≤ l.length ↔ m ≤ l'.length := by
  have := congrArg List.length h
  rw [List.length_take, List.length_take] at this
  omega

theorem take_getD {M : Type} {m j : ℕ} {l l' : List M} (h : l.take m = l'.take m) (hj : j < m) (d : M) :
    l.getD j d = l'.getD j d := by
  have := congrArg (·[j]?) h
  simp only [List.getElem?_take_of_lt hj] at this
  rw [List.getD_eq_getElem?_getD, List.getD_eq_getElem?_getD, this]

omit [AddCommGroup G] [Module S G] in
theorem InnerProductRound.Alike.symm {r r' : InnerProductRound C S} (h : r.Alike pt r') : r'.Alike pt r :=
  ⟨h.L.symm, h.R.symm, h.l.symm, h.r.symm⟩

omit [AddCommGroup G] [Module S G] in
theorem Proof.Alike.symm {π π' : Proof C S} (h : π.Alike pt π') : π'.Alike pt π := by
  obtain ⟨h1, h2, h3, h4, h5, h6, h7, h8, h9, h10, h11, h12, h13, h14, h15, h16⟩ := h
  exact ⟨h1.symm, h2.symm, h3.symm, h4.symm, h5.symm, h6.symm, h7.symm, h8.symm, h9.symm, h10.symm, h11.symm, h12.symm, h13.symm,
    (List.Forall₂.imp (fun _ _ h => h.symm) h14.flip), h15.symm, h16.symm⟩

omit [AddCommGroup G] [Module S G] in
theorem Leftovers.Alike.symm {lo lo' : Leftovers C S} (h : lo.Alike pt lo') : lo'.Alike pt lo :=
  ⟨h.s.symm, h.y.symm, h.g.symm, h.packed.symm⟩

theorem Deferred.Alike.symm {d d' : Deferred S} (h : d.Alike d') : d'.Alike d := by
  obtain ⟨h1, h2, h3⟩ := h
  refine ⟨?_, h2.symm, h3.symm⟩
  rw [h1]

theorem append_alike (L : LawfulOps C F S G rep) {p q : C} (hp : rep p (pt p)) (hq : rep q (pt q)) (h : pt p = pt q) (t : T) :
    appendPoint tr p t = appendPoint tr q t :=
  appendPoint_congr tr L.toReflOps hp (h ▸ hq) t

theorem entries_alike {r r' : InnerProductRound C S} (h : r.Alike pt r') {es} (hes : r.entries 5 = some es) :
    ∃ es', r'.entries 5 = some es' ∧ List.Forall₂ (fun e e' => pt e.1 = pt e'.1 ∧ pt e.2.1 = pt e'.2.1 ∧ e.2.2 = e'.2.2) es es' := by
  unfold InnerProductRound.entries at hes ⊢
  split at hes
  case isFalse => cases hes
  case isTrue hl =>
  have hl' : 5 ≤ r'.L.length ∧ 5 ≤ r'.R.length ∧ 5 ≤ r'.l.length ∧ 5 ≤ r'.r.length := by
    have h1 := congrArg List.length h.L
    have h2 := congrArg List.length h.R
    have h3 := take_length h.l
    have h4 := take_length h.r
    simp only [List.length_map, List.length_take] at h1 h2
    omega
  rw [if_pos hl']
  refine ⟨_, rfl, ?_⟩
  obtain rfl := Option.some.inj hes
  rw [List.forall₂_iff_get]
  refine ⟨by simp only [List.length_take, List.length_zip]; omega, fun i hi hi' => ?_⟩
  have hi5 : i < 5 := by
    rw [List.length_take] at hi
    omega
  have g1 := congrArg (·[i]?) h.L
  have g2 := congrArg (·[i]?) h.R
  have g3 := congrArg (·[i]?) h.l
  have g4 := congrArg (·[i]?) h.r
  simp only [List.map_take, List.getElem?_take_of_lt hi5, List.getElem?_map,
    List.getElem?_eq_getElem (show i < r.L.length by omega), List.getElem?_eq_getElem (show i < r'.L.length by omega),
    List.getElem?_eq_getElem (show i < r.R.length by omega), List.getElem?_eq_getElem (show i < r'.R.length by omega),
    List.getElem?_eq_getElem (show i < r.l.length by omega), List.getElem?_eq_getElem (show i < r'.l.length by omega),
    List.getElem?_eq_getElem (show i < r.r.length by omega), List.getElem?_eq_getElem (show i < r'.r.length by omega),
    Option.map_some, Option.some.injEq] at g1 g2 g3 g4
  simp only [List.get_eq_getElem, List.getElem_take, List.getElem_zip]
  exact ⟨g1, g2, by rw [g3, g4]⟩

theorem entries_points {r : InnerProductRound C S} (hr : (∀ p ∈ r.L, rep p (pt p)) ∧ ∀ p ∈ r.R, rep p (pt p)) {es}
    (hes : r.entries 5 = some es) : ∀ e ∈ es, rep e.1 (pt e.1) ∧ rep e.2.1 (pt e.2.1) := by
  unfold InnerProductRound.entries at hes
  split at hes
  case isFalse => cases hes
  case isTrue hl =>
  obtain rfl := Option.some.inj hes
  intro e he
  have h1 := List.of_mem_zip (List.mem_of_mem_take he)
  exact ⟨hr.1 _ h1.1, hr.2 _ (List.of_mem_zip h1.2).1⟩

theorem appendRound_alike (L : LawfulOps C F S G rep) : ∀ {es es' : List (C × C × S × S)} {t : T},
    (∀ e ∈ es, rep e.1 (pt e.1) ∧ rep e.2.1 (pt e.2.1)) → (∀ e ∈ es', rep e.1 (pt e.1) ∧ rep e.2.1 (pt e.2.1)) →
    List.Forall₂ (fun e e' => pt e.1 = pt e'.1 ∧ pt e.2.1 = pt e'.2.1 ∧ e.2.2 = e'.2.2) es es' →
    appendRound tr es t = appendRound tr es' t := by
  intro es es' t h h' ha
  induction ha generalizing t with
  | nil => rfl
  | @cons e e' es es' he _ ih =>
    obtain ⟨h1, h2, h3⟩ := he
    obtain ⟨k1, k2⟩ := h e (by simp)
    obtain ⟨k3, k4⟩ := h' e' (by simp)
    unfold appendRound at ih ⊢
    rw [List.foldl_cons, List.foldl_cons, append_alike L k1 k3 h1, append_alike L k2 k4 h2, h3]
    exact ih (fun e he => h e (by simp [he])) (fun e he => h' e (by simp [he]))

theorem RoundsYield.alike (L : LawfulOps C F S G rep) {rounds rounds' : List (InnerProductRound C S)} {t : T}
    {chs : List (Challenge S)} (hy : RoundsYield tr 5 rounds t chs)
    (hp : ∀ r ∈ rounds, (∀ p ∈ r.L, rep p (pt p)) ∧ ∀ p ∈ r.R, rep p (pt p))
    (hp' : ∀ r ∈ rounds', (∀ p ∈ r.L, rep p (pt p)) ∧ ∀ p ∈ r.R, rep p (pt p))
    (h : List.Forall₂ (InnerProductRound.Alike pt) rounds rounds') : RoundsYield tr 5 rounds' t chs := by
  induction hy generalizing rounds' with
  | nil t =>
    cases h
    exact .nil t
  | @cons r rounds es t ch t' chs hes hch _ ih =>
    cases h with
    | @cons _ r' _ rounds' hr hrs =>
      obtain ⟨es', hes', ha⟩ := entries_alike hr hes
      refine .cons hes' ?_ (ih (fun q hq => hp q (by simp [hq])) (fun q hq => hp' q (by simp [hq])) hrs)
      rw [← appendRound_alike L (entries_points (hp r (by simp)) hes) (entries_points (hp' r' (by simp)) hes') ha]
      exact hch

theorem folded_alike {rounds rounds' : List (InnerProductRound C S)}
    (h : List.Forall₂ (InnerProductRound.Alike pt) rounds rounds') {j : ℕ} (hj : j < 5) (us : List S) (A : G) (v : S) :
    foldedCommitment pt j rounds us A = foldedCommitment pt j rounds' us A ∧
      foldedValue j rounds us v = foldedValue j rounds' us v := by
  have key : ((rounds.zip us).map fun e => e.2 ^ 2 • (e.1.L.map pt).getD j 0 + e.2⁻¹ ^ 2 • (e.1.R.map pt).getD j 0) =
      ((rounds'.zip us).map fun e => e.2 ^ 2 • (e.1.L.map pt).getD j 0 + e.2⁻¹ ^ 2 • (e.1.R.map pt).getD j 0) ∧
      ((rounds.zip us).map fun e => e.2 ^ 2 * e.1.l.getD j 0 + e.2⁻¹ ^ 2 * e.1.r.getD j 0) =
      ((rounds'.zip us).map fun e => e.2 ^ 2 * e.1.l.getD j 0 + e.2⁻¹ ^ 2 * e.1.r.getD j 0) := by
    induction h generalizing us with
    | nil => simp
    | @cons r r' rounds rounds' hr _ ih =>
      cases us with
      | nil => simp
      | cons u us =>
        obtain ⟨i1, i2⟩ := ih us
        have h1 := hr.L
        have h2 := hr.R
        rw [List.map_take, List.map_take] at h1 h2
        simp only [List.zip_cons_cons, List.map_cons, i1, i2, take_getD h1 hj, take_getD h2 hj, take_getD hr.l hj,
          take_getD hr.r hj, and_self]
  unfold foldedCommitment foldedValue
  rw [key.1, key.2]
  exact ⟨rfl, rfl⟩

/-- The verdict on a proof depends only on what is alike. -/
theorem Proof.Passes.alike (L : LawfulOps C F S G rep) {π π' : Proof C S} {k : ℕ} {old old' : Leftovers C S} {kPoly : List S}
    {K : C} {uso : List S} {c : RunChallenges S} (h : π.Passes tr pt k old kPoly K uso c) (hπ : π.Alike pt π')
    (ho : old.Alike pt old') (hp : π.Points rep pt) (hp' : π'.Points rep pt) :
    π'.Passes tr pt k old' kPoly K uso c := by
  obtain ⟨h1, h2, h3, h4, ⟨ζ, t1, t2, t3, t4, k1, k2, k3, k4, k5, k6⟩, h6⟩ := h
  refine ⟨by rw [← hπ.rounds.length_eq, h1], (take_length hπ.last).1 h2, ho.packed.ne_nil h3, ho.packed.roots h4,
    ⟨ζ, t1, t2, t3, t4, ?_, ?_, ?_, ?_, k5, k6.alike L hp.rounds hp'.rounds hπ.rounds⟩, fun j claim hc => ?_⟩
  · rw [← append_alike L hp.r hp'.r hπ.r]
    exact k1
  · rw [← append_alike L hp.tNegative hp'.tNegative hπ.tNegative, ← append_alike L hp.tPositive hp'.tPositive hπ.tPositive,
      ← append_alike L hp.sCur hp'.sCur hπ.sCur]
    exact k2
  · rw [← append_alike L hp.c hp'.c hπ.c]
    exact k3
  · rw [← append_alike L hp.sNew hp'.sNew hπ.sNew, ← hπ.rx, ← hπ.rxy, ← hπ.sxOld, ← hπ.sxCur, ← hπ.txPositive, ← hπ.txNegative,
      ← hπ.sxNew]
    exact k4
  · have e : π'.claims pt old' K (combine (c.y ^ ·) 0 kPoly) (collapse uso (c.x ^ ·)) c =
        π.claims pt old K (combine (c.y ^ ·) 0 kPoly) (collapse uso (c.x ^ ·)) c := by
      unfold Proof.claims
      rw [← hπ.r, ← hπ.sCur, ← hπ.tPositive, ← hπ.tNegative, ← hπ.c, ← hπ.sNew, ← hπ.rx, ← hπ.rxy, ← hπ.sxOld, ← hπ.sxCur,
        ← hπ.txPositive, ← hπ.txNegative, ← hπ.sxNew, ← ho.s, ← ho.y, ← ho.g]
    rw [e] at hc
    have hj : j < 5 := by
      have := (List.getElem?_eq_some_iff.1 hc).1
      simpa [Proof.claims] using this
    obtain ⟨o1, o2⟩ := h6 j claim hc
    obtain ⟨f1, f2⟩ := folded_alike hπ.rounds hj c.us claim.commitment claim.value
    rw [f1, take_getD hπ.last hj, hπ.g] at o1
    rw [f2, take_getD hπ.last hj] at o2
    exact ⟨o1, o2⟩

theorem Leftovers.Passes.alike {lo lo' : Leftovers C S} {g : ℕ → G} {params : Params C} {circuit : Var → Prog S α}
    (h : lo.Passes pt g params circuit) (ha : lo.Alike pt lo') : lo'.Passes pt g params circuit := by
  obtain ⟨h1, ⟨us, h2, h3⟩, sx, h4, h5⟩ := h
  exact ⟨by rw [← ha.packed.length, h1], ⟨us, ha.packed.roots h2, ha.g ▸ h3⟩, sx, ha.y ▸ h4, ha.s ▸ h5⟩

theorem leftovers_bytes_alike (L : LawfulOps C F S G rep) {lo lo' : Leftovers C S} (ha : lo.Alike pt lo')
    (h1 : rep lo.sNewCommitment (pt lo.sNewCommitment)) (h2 : rep lo.gNew (pt lo.gNew))
    (h3 : rep lo'.sNewCommitment (pt lo'.sNewCommitment)) (h4 : rep lo'.gNew (pt lo'.gNew)) :
    lo.toBytes = lo'.toBytes := by
  unfold Leftovers.toBytes
  rw [(pointBytes_inj L h1 h3).2 ha.s, (pointBytes_inj L h2 h4).2 ha.g, ha.y, ha.packed.bytes]

theorem Deferred.Alike.bytes {d d' : Deferred S} (h : d.Alike d') : d.toBytes = d'.toBytes := by
  rw [h.rest]
  unfold Deferred.toBytes
  simp only [h.old.bytes, h.new.bytes]

theorem Deferred.Alike.wellFormed {d d' : Deferred S} {k : ℕ} (h : d.Alike d') (hw : WellFormedDeferred k d) :
    WellFormedDeferred k d' := by
  obtain ⟨h1, h2, h3, h4, h5, h6, h7⟩ := hw
  have e := h.rest
  refine ⟨h1, ?_, ?_, h.old.ne_nil h4, h.new.ne_nil h5, ?_, ?_⟩
  · rw [e]
    exact h2
  · rw [e]
    exact h3
  · obtain ⟨us, hus⟩ := (roots_iff _).2 h6
    exact (roots_iff _).1 ⟨us, h.old.roots hus⟩
  · obtain ⟨us, hus⟩ := (roots_iff _).2 h7
    exact (roots_iff _).1 ⟨us, h.new.roots hus⟩

theorem Deferred.Alike.true {d d' : Deferred S} {k : ℕ} (h : d.Alike d') (ht : TrueDeferred k d) : TrueDeferred k d' := by
  obtain ⟨h1, ⟨us, h2, h3⟩, us', h4, h5⟩ := ht
  have e := h.rest
  have k2 := h.old.roots h2
  have k4 := h.new.roots h4
  rw [e]
  exact ⟨h1, ⟨us, k2, h3⟩, us', k4, h5⟩

end Proofs
end Halo
