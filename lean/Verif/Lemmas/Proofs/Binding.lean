import Verif.Lemmas.Rescue
import Verif.Lemmas.Proofs.Acceptance
import Verif.Spec.Binding
/-!
# Lemmas: what of the messages of a proof the challenges depend on
-/
namespace Halo
open Rescue SpongeSpec

section sponge
variable {F : Type} [Field F] [LawfulField F]

omit [LawfulField F] in
/-- What the sponge has absorbed since the last squeeze has length `n` modulo 12, and differs only in the first elements of blocks. -/
inductive NearAt : ℕ → St F → St F → Prop
  | new (n : ℕ) (s : Vector F M) (h : n % 12 = 0) : NearAt n (.absorbing s []) (.absorbing s [])
  | fresh (n : ℕ) (s : Vector F M) (k : ℕ) (h : n % 12 = 0) : NearAt n (.squeezing s k) (.squeezing s k)
  | mid (n : ℕ) (s : Vector F M) (v v' : F) (b : List F) (h : n % 12 = (b.length + 1) % 12) (hb : b.length + 1 ≤ 12) :
      NearAt n (.absorbing s (v :: b)) (.absorbing s (v' :: b))

theorem NearAt.absorb {n : ℕ} {st st' : St F} (h : NearAt n st st') {w w' : F} (hw : n % 12 ≠ 0 → w = w') :
    NearAt (n + 1) (st.absorb w) (st'.absorb w') := by
  cases h with
  | new s h => exact .mid _ _ _ _ _ (by simp; omega) (by simp)
  | fresh s k h => exact .mid _ _ _ _ _ (by simp; omega) (by simp)
  | mid s v v' b h hb =>
    simp only [St.absorb, List.length_cons]
    split
    · rename_i hl
      obtain rfl := hw (by omega)
      exact .mid _ _ _ _ _ (by simp; omega) (by simp; omega)
    · rename_i hl
      rw [dup_head s v v']
      exact .mid _ _ _ _ _ (by simp; omega) (by simp)

theorem NearAt.squeeze {n : ℕ} {st st' : St F} (h : NearAt n st st') : st.squeeze = st'.squeeze := by
  cases h with
  | new s h => rfl
  | fresh s k h => rfl
  | mid s v v' b h hb => simp only [St.squeeze]; rw [dup_head s v v']

theorem NearAt.after (st : St F) : NearAt 0 st.squeeze.2 st.squeeze.2 := by
  obtain ⟨s, k, h⟩ := st.squeeze_squeezing
  rw [h]
  exact .fresh _ _ _ rfl

omit [Field F] [LawfulField F] in
theorem Rel.unique {r r' : Rescue F} {st : St F} (h : Rel r st) (h' : Rel r' st) : r = r' := by
  cases h <;> cases h' <;> rfl

/-- The two sponges stand at position `n` of messages that agree off the multiples of twelve. -/
def Like (n : ℕ) (r r' : Rescue F) : Prop := ∃ st st', Rel r st ∧ Rel r' st' ∧ NearAt n st st'

omit [LawfulField F] in
theorem like_new : Like 0 (new : Rescue F) new := ⟨_, _, rel_new, rel_new, .new _ _ rfl⟩

theorem Like.absorb {n : ℕ} {r r' : Rescue F} (h : Like n r r') {w w' : F} (hw : n % 12 ≠ 0 → w = w') :
    Like (n + 1) (Rescue.absorb w r) (Rescue.absorb w' r') := by
  obtain ⟨st, st', h1, h2, h3⟩ := h
  exact ⟨_, _, absorb_rel h1 w, absorb_rel h2 w', h3.absorb hw⟩

theorem Like.absorbs {xs : List F} : ∀ {xs' : List F} {n : ℕ} {r r' : Rescue F}, Like n r r' → xs.length = xs'.length →
    (∀ i, (n + i) % 12 ≠ 0 → xs[i]? = xs'[i]?) →
    Like (n + xs.length) (xs.foldl (fun r x => Rescue.absorb x r) r) (xs'.foldl (fun r x => Rescue.absorb x r) r') := by
  induction xs with
  | nil =>
    intro xs' n r r' h hl _
    obtain rfl := List.length_eq_zero_iff.1 hl.symm
    exact h
  | cons x xs ih =>
    intro xs' n r r' h hl hs
    cases xs' with
    | nil => simp at hl
    | cons x' xs' =>
      have := ih (h.absorb (w := x) (w' := x') fun hn => by simpa using hs 0 hn) (by simpa using hl)
        fun i hi => by simpa using hs (i + 1) (by rwa [← add_assoc, add_right_comm])
      rw [List.length_cons, show n + (xs.length + 1) = n + 1 + xs.length by omega]
      exact this

theorem Like.squeeze {n : ℕ} {r r' : Rescue F} (h : Like n r r') :
    ∃ e q, Rescue.squeeze r = some (e, q) ∧ Rescue.squeeze r' = some (e, q) ∧ Like 0 q q := by
  obtain ⟨st, st', h1, h2, h3⟩ := h
  obtain ⟨q, h4, h5⟩ := squeeze_rel h1
  obtain ⟨q', h6, h7⟩ := squeeze_rel h2
  rw [← h3.squeeze] at h6 h7
  obtain rfl := Rel.unique h5 h7
  exact ⟨_, _, h4, h6, _, _, h5, h5, .after _⟩

end sponge

namespace Proofs
variable {F C S : Type} [Field F] [LawfulField F]

section
variable [FieldApi S]

theorem Like.challenge {n : ℕ} {t t' : Rescue F} (h : Like n t t') :
    getChallenge S Transcript.rescue t = getChallenge S Transcript.rescue t' ∧
      ∀ c q, getChallenge S Transcript.rescue t = some (c, q) → Like 0 q q := by
  obtain ⟨e, q, h1, h2, h3⟩ := h.squeeze
  simp only [getChallenge, Transcript.rescue, h1, h2, Option.bind_eq_bind, Option.bind_some, Option.some.injEq,
    Prod.mk.injEq, true_and]
  rintro _ _ ⟨-, rfl⟩
  exact h3

variable [Field S]

theorem Like.fork {n : ℕ} {t t' : Rescue F} (h : Like n t t') (fuel : ℕ) : ∀ (v : F) (count : ℕ),
    forkLoop S Transcript.rescue t fuel v count = forkLoop S Transcript.rescue t' fuel v count := by
  induction fuel with
  | zero => intros; rfl
  | succ fuel ih =>
    intro v count
    have h1 := (Like.challenge (S := S) (h.absorb (w := v) fun _ => rfl)).1
    simp only [forkLoop, Transcript.rescue, ih] at h1 ih ⊢
    rw [h1]

theorem Like.square [DecidableEq S] {n : ℕ} {t t' : Rescue F} (h : Like n t t') (fuel : ℕ) :
    squareChallenge S Transcript.rescue fuel t = squareChallenge S Transcript.rescue fuel t' ∧
      ∀ c q, squareChallenge S Transcript.rescue fuel t = some (c, q) → Like 0 q q := by
  have hc := fun v => Like.challenge (S := S) (h.absorb (w := v) fun _ => rfl)
  constructor
  · unfold squareChallenge
    rw [Like.fork h]
    congr 1
    funext ⟨v, _⟩
    have := (hc v).1
    simp only [Transcript.rescue] at this ⊢
    rw [this]
  · intro c q hq
    simp only [squareChallenge, Option.bind_eq_bind, Option.bind_eq_some_iff] at hq
    obtain ⟨⟨v, a⟩, -, ⟨p, q'⟩, h2, h3⟩ := hq
    have := (hc v).2 p q' h2
    simp only at h3
    split at h3
    · simp only [Option.bind_eq_some_iff, Option.some.injEq, Prod.mk.injEq] at h3
      obtain ⟨_, -, -, rfl⟩ := h3
      exact this
    · simp at h3

end

section
variable [FieldApi S] [CurveOps C F S]

omit [FieldApi S] in
theorem appendPoint_sent (p : C) (t : Rescue F) :
    appendPoint Transcript.rescue p t = (sent p).foldl (fun r x => Rescue.absorb x r) t := by
  unfold appendPoint sent
  rcases CurveOps.getXy p with _ | ⟨x, y⟩ <;> rfl

omit [FieldApi S] in
theorem appendScalar_sent (s : S) (t : Rescue F) :
    appendScalar C Transcript.rescue s t = (sentScalar C s).foldl (fun r x => Rescue.absorb x r) t :=
  appendPoint_sent _ t

omit [FieldApi S] in
theorem appendScalars_sent (ss : List S) : ∀ t : Rescue F,
    ss.foldl (fun t s => appendScalar C Transcript.rescue s t) t =
      (ss.flatMap (sentScalar C)).foldl (fun r x => Rescue.absorb x r) t := by
  induction ss with
  | nil => intro t; rfl
  | cons s ss ih => intro t; rw [List.foldl_cons, ih, List.flatMap_cons, List.foldl_append, appendScalar_sent]

omit [FieldApi S] in
theorem appendRound_sent (es : List (C × C × S × S)) : ∀ t : Rescue F,
    appendRound Transcript.rescue es t = (roundMessage es).foldl (fun r x => Rescue.absorb x r) t := by
  induction es with
  | nil => intro t; rfl
  | cons e es ih =>
    intro t
    have : appendRound Transcript.rescue (e :: es) t = appendRound Transcript.rescue es
      (appendScalar C Transcript.rescue e.2.2.2 (appendScalar C Transcript.rescue e.2.2.1
        (appendPoint Transcript.rescue e.2.1 (appendPoint Transcript.rescue e.1 t)))) := rfl
    rw [this, ih]
    simp only [roundMessage, List.flatMap_cons, List.foldl_append, appendPoint_sent, appendScalar_sent]

theorem Like.seen {t t' : Rescue F} (h : Like 0 t t') {m m' : List F} (hm : SameSeen m m') :
    Like (0 + m.length) (m.foldl (fun r x => Rescue.absorb x r) t) (m'.foldl (fun r x => Rescue.absorb x r) t') :=
  h.absorbs hm.1 fun i hi => hm.2 i (by simpa using hi)

variable [Field S] [DecidableEq S]

theorem RoundsYield.seen {rounds rounds' : List (InnerProductRound C S)}
    (h : List.Forall₂ InnerProductRound.SameSeen rounds rounds') : ∀ {t : Rescue F} {cs : List (Challenge S)}, Like 0 t t →
    RoundsYield Transcript.rescue 5 rounds t cs → RoundsYield Transcript.rescue 5 rounds' t cs := by
  induction h with
  | nil => intro t cs _ hy; exact hy
  | cons h _ ih =>
    intro t cs ht hy
    cases hy with
    | cons hes hc hrest =>
      rcases h with ⟨h, -⟩ | ⟨es, es', h1, h2, h3⟩
      · rw [h] at hes; cases hes
      · obtain rfl := Option.some.inj (h1.symm.trans hes)
        rw [appendRound_sent] at hc
        have hl := Like.square (S := S) (Like.seen ht h3) 256
        have ht' := hl.2 _ _ hc
        rw [hl.1, ← appendRound_sent] at hc
        exact .cons h2 hc (ih ht' hrest)

theorem Proof.Yields.seen {π π' : Proof C S} {K K' : C} {ky ky' gx gx' : S} {c : RunChallenges S}
    (hm : List.Forall₂ Proofs.SameSeen (π.messages K ky gx) (π'.messages K' ky' gx'))
    (hr : List.Forall₂ InnerProductRound.SameSeen π.innerProduct.rounds π'.innerProduct.rounds)
    (h : π.Yields Transcript.rescue K ky gx c) : π'.Yields Transcript.rescue K' ky' gx' c := by
  simp only [Proof.messages, List.forall₂_cons, List.forall₂_nil_left_iff, and_true] at hm
  obtain ⟨m1, m2, m3, m4⟩ := hm
  obtain ⟨ζ, t1, t2, t3, t4, h1, h2, h3, h4, hz, h5⟩ := h
  simp only [Proof.Yields, appendPoint_sent, appendScalars_sent, ← List.foldl_append] at h1 h2 h3 h4 ⊢
  have l1 := Like.challenge (S := S) (Like.seen like_new m1)
  have e1 := l1.2 _ _ h1
  have l2 := Like.challenge (S := S) (Like.seen e1 m2)
  have e2 := l2.2 _ _ (by simpa only [List.append_assoc] using h2)
  have l3 := Like.challenge (S := S) (Like.seen e2 m3)
  have e3 := l3.2 _ _ h3
  have l4 := Like.challenge (S := S) (Like.seen e3 m4)
  have e4 := l4.2 _ _ h4
  exact ⟨ζ, t1, t2, t3, t4, l1.1.symm.trans h1,
    by simpa only [List.append_assoc] using l2.1.symm.trans (by simpa only [List.append_assoc] using h2),
    l3.1.symm.trans h3, l4.1.symm.trans h4, hz, h5.seen hr e4⟩

omit [Field F] [LawfulField F] [FieldApi S] [CurveOps C F S] [Field S] [DecidableEq S] in
theorem SameSeen.symm {m m' : List F} (h : SameSeen m m') : SameSeen m' m :=
  ⟨h.1.symm, fun i hi => (h.2 i hi).symm⟩

omit [LawfulField F] [FieldApi S] [Field S] [DecidableEq S] in
theorem InnerProductRound.SameSeen.symm {r r' : InnerProductRound C S} (h : r.SameSeen r') : r'.SameSeen r := by
  rcases h with ⟨h, h'⟩ | ⟨es, es', h1, h2, h3⟩
  · exact .inl ⟨h', h⟩
  · exact .inr ⟨es', es, h2, h1, h3.symm⟩

/-- If there are no rounds, there are challenges. -/
theorem Proof.exists_yields {π : Proof C S} (h : π.innerProduct.rounds = []) (K : C) (ky gx : S) :
    ∃ c, π.Yields Transcript.rescue K ky gx c := by
  have step : ∀ {t : Rescue F} (m : List F), Like 0 t t → ∃ e q, getChallenge S Transcript.rescue
      (m.foldl (fun r x => Rescue.absorb x r) t) = some (e, q) ∧ Like 0 q q := by
    intro t m ht
    obtain ⟨e, q, h1, -, h2⟩ := (Like.seen ht (m := m) (m' := m) ⟨rfl, fun _ _ => rfl⟩).squeeze
    exact ⟨FieldApi.fromU128 (FieldApi.lower128 e ||| (1#128 <<< 127)), q,
      by simp [getChallenge, Transcript.rescue, h1], h2⟩
  obtain ⟨y, t1, h1, l1⟩ := step (sent K ++ sent π.rCommitment) like_new
  obtain ⟨x, t2, h2, l2⟩ := step (sent π.sCurCommitment ++ sent π.tPositiveCommitment ++ sent π.tNegativeCommitment) l1
  obtain ⟨yNew, t3, h3, l3⟩ := step (sent π.cCommitment) l2
  obtain ⟨ζ, t4, h4, -⟩ := step (sent π.sNewCommitment ++ [ky, π.rxOpening, π.rxyOpening, π.sxOldOpening, π.sxCurOpening,
    π.txPositiveOpening, π.txNegativeOpening, π.sxNewOpening, gx].flatMap (sentScalar C)) l3
  refine ⟨⟨y, x, yNew, Util.getChallengeScalar ζ, []⟩, ζ, t1, t2, t3, t4, ?_, ?_, ?_, ?_, rfl, ?_⟩
  · rw [appendPoint_sent, appendPoint_sent, ← List.foldl_append]; exact h1
  · simpa only [appendPoint_sent, ← List.foldl_append] using h2
  · simpa only [appendPoint_sent, ← List.foldl_append] using h3
  · simpa only [appendPoint_sent, appendScalars_sent, ← List.foldl_append] using h4
  · rw [h]; exact .nil _

end

section result
open Circuit Util
variable [CurveOps C F S] [Field S] [LawfulField S] [DecidableEq S] {T α : Type} {tr : Transcript T F}

theorem verifyRounds_good : ∀ {rounds : List (InnerProductRound C S)} {pv pv' : List (C × S)} {t t' : T}
    {chs : List (Challenge S)}, verifyRounds tr rounds pv t = some (pv', chs, t') → pv'.length = pv.length
  | [], pv, pv', t, t', chs, h => by
    simp only [verifyRounds, Option.some.injEq, Prod.mk.injEq] at h
    rw [h.1]
  | r :: rounds, pv, pv', t, t', chs, h => by
    simp only [verifyRounds, Option.bind_eq_bind, Option.bind_eq_some_iff, Option.some.injEq] at h
    obtain ⟨es, hes, ⟨ch, t1⟩, -, ⟨pv1, chs1, t2⟩, hr, e⟩ := h
    simp only [Prod.mk.injEq] at e
    obtain ⟨rfl, -, -⟩ := e
    rw [verifyRounds_good hr, List.length_zipWith, (entries_get hes).1, min_self]

/-- What the verifier returns, whether or not it accepts -/
theorem verify_result {cpus : ℕ} {lnCeil : ℕ → ℕ} {st : Statement C S α} {π : Proof C S} {n : ℕ}
    {s : System S} (hs : Shape st.circuit n s) {K : C} (hk0 : 0 < st.params.k) (ha : 5 ≤ π.innerProduct.a.length)
    {new : Leftovers C S} {d : Deferred S} {forks : List ℕ} :
    (∃ b, π.verify tr cpus lnCeil st.old st.params st.circuit st.inputs (some K) = .ok (b, new, d, forks)) ↔
    st.inputs.length = s.inputs.length - 1 ∧ st.old.challengesSqPackedNew ≠ [] ∧
    π.innerProduct.rounds.length = st.params.k ∧
    ∃ (uso : List S) (c : RunChallenges S) (ky gx : S), Roots st.old.challengesSqPackedNew uso ∧
      ky = combine (c.y ^ ·) 0 (kPoly (kInputs s st.inputs)) ∧ gx = collapse uso (c.x ^ ·) ∧ π.Yields tr K ky gx c ∧
      new = π.newLeftovers c ∧ d = π.newDeferred st.old ky gx c ∧ forks = c.rounds.map (·.fork) := by
  simp only [verify_steps hs]
  constructor
  · rintro ⟨b, h1, y, t1, h2, x, t2, h3, yNew, t3, h4, ky, h5, ⟨sqo, uso, invo, po⟩, h6, gx, h7, ζ, t4, h8, ⟨sat, packed, gN, fk, t5⟩, h9, h⟩
    obtain ⟨⟨sqn, usn, invn, pn⟩, h10, bX, h11, bXy, h12, bYOld, h13, bYCur, h14, bYNew, h15, h16⟩ := h
    simp only [Prod.mk.injEq] at h16
    obtain ⟨rfl, rfl, rfl, rfl⟩ := h16
    obtain ⟨us, hus⟩ : ∃ us, Roots st.old.challengesSqPackedNew us := by
      by_contra hno
      rw [expandChallenges_none hno] at h6
      cases h6
    rw [expandChallenges_eq hus] at h6
    simp only [Option.some.injEq, Prod.mk.injEq] at h6
    obtain ⟨-, rfl, rfl, -⟩ := h6
    have hne : us ≠ [] := by
      rintro rfl
      simp [computeB] at h7
    rw [computeB_eq us x hne] at h7
    obtain rfl := Option.some.inj h7
    rw [computeOpening_left] at h5
    obtain rfl := Option.some.inj h5
    unfold MultiPolynomialOpening.verifyProof at h9
    split at h9
    case isTrue => simp at h9
    case isFalse hk =>
    have k1 := not_not.1 hk
    simp only [Option.bind_eq_bind, Option.bind_eq_some_iff, Option.some.injEq] at h9
    obtain ⟨⟨pv', chs, t1'⟩, hv, ok, hok, h9⟩ := h9
    simp only [Prod.mk.injEq] at h9
    obtain ⟨rfl, rfl, rfl, rfl, -⟩ := h9
    have k3 := verifyRounds_yield.1 ⟨_, _, hv⟩
    have hr := good_roots k3.good
    have hne' : chs.map (·.challenge) ≠ [] := by
      rw [← List.length_pos_iff, List.length_map, k3.length, k1]
      exact hk0
    rw [expandChallenges_eq hr] at h10
    simp only [Option.some.injEq, Prod.mk.injEq] at h10
    obtain ⟨-, rfl, rfl, -⟩ := h10
    simp only [computeB_eq _ _ hne', Option.some.injEq] at h11 h12 h13 h14 h15
    subst h11 h12 h13 h14 h15
    refine ⟨h1, fun h0 => hne ?_, k1, us, ⟨y, x, yNew, getChallengeScalar ζ, chs⟩, _, _, hus, rfl, rfl,
      ⟨ζ, t1, t2, t3, t4, h2, h3, h4, h8, rfl, k3⟩, rfl, rfl, rfl⟩
    rw [← List.length_eq_zero_iff, hus.length, h0, List.length_nil]
  · rintro ⟨h1, h2, h3, us, c, ky, gx, hus, rfl, rfl, ⟨ζ, t1, t2, t3, t4, k1, k2, k3, k4, k5, k6⟩, rfl, rfl, rfl⟩
    have hne : us ≠ [] := by
      rw [← List.length_pos_iff, hus.length, List.length_pos_iff]
      exact h2
    have hne' : c.us ≠ [] := by
      rw [← List.length_pos_iff, RunChallenges.us, List.length_map, k6.length, h3]
      exact hk0
    obtain ⟨b, t5, hv⟩ : ∃ b t5, π.innerProduct.verifyProof tr (claims st.old K π (collapse us (c.x ^ ·))
        (combine (c.y ^ ·) 0 (kPoly (kInputs s st.inputs))) c.y c.x c.yNew c.z) st.params.k t4 =
        some (b, c.rounds.map (·.challengeSqPacked), π.innerProduct.g, c.rounds.map (·.fork), t5) := by
      obtain ⟨pv', t', hv⟩ := (verifyRounds_yield (pv := (claims st.old K π (collapse us (c.x ^ ·))
        (combine (c.y ^ ·) 0 (kPoly (kInputs s st.inputs))) c.y c.x c.yNew c.z).map fun i => (i.commitment, i.opening))).2 k6
      have hinv : c.rounds.map (·.challengeInv) = (c.rounds.map (·.challenge)).map (·⁻¹) := by
        rw [List.map_map]
        exact List.map_congr_left fun q hq => (k6.good q hq).inv
      obtain ⟨b, hb⟩ := checkFinal_total (gp := π.innerProduct.g) hne' (points := (claims st.old K π (collapse us (c.x ^ ·))
        (combine (c.y ^ ·) 0 (kPoly (kInputs s st.inputs))) c.y c.x c.yNew c.z).map (·.point)) (pv := pv')
        (as := π.innerProduct.a) (by rw [verifyRounds_good hv]; simp) (by simpa [claims] using ha)
      refine ⟨b, t', ?_⟩
      unfold MultiPolynomialOpening.verifyProof
      rw [if_neg (not_not.2 h3)]
      simp only [RunChallenges.us] at hb
      simp only [hv, hinv, hb, Option.bind_eq_bind, Option.bind_some]
    exact ⟨b, h1, c.y, t1, k1, c.x, t2, k2, c.yNew, t3, k3, _, computeOpening_left _ _ _, _, expandChallenges_eq hus, _,
      computeB_eq _ _ hne, ζ, t4, k4, _, k5 ▸ hv, _, expandChallenges_eq (good_roots k6.good), _, computeB_eq _ _ hne', _,
      computeB_eq _ _ hne', _, computeB_eq _ _ hne', _, computeB_eq _ _ hne', _, computeB_eq _ _ hne', rfl⟩

end result

section turn

omit [Field F] [LawfulField F] in
/-- `SameSeen`, element by element -/
def SeenFrom : ℕ → List F → List F → Prop
  | _, [], [] => True
  | n, x :: xs, y :: ys => (n % 12 ≠ 0 → x = y) ∧ SeenFrom (n + 1) xs ys
  | _, _, _ => False

omit [Field F] [LawfulField F] in
theorem SeenFrom.same {m : List F} : ∀ {m' : List F} {n : ℕ}, SeenFrom n m m' →
    m.length = m'.length ∧ ∀ i, (n + i) % 12 ≠ 0 → m[i]? = m'[i]? := by
  induction m with
  | nil =>
    intro m' n h
    cases m' with
    | nil => exact ⟨rfl, fun _ _ => rfl⟩
    | cons => exact h.elim
  | cons x xs ih =>
    intro m' n h
    cases m' with
    | nil => exact h.elim
    | cons y ys =>
      obtain ⟨h1, h2⟩ := h
      have := ih h2
      refine ⟨by simp [this.1], fun i hi => ?_⟩
      cases i with
      | zero => simp [h1 hi]
      | succ i => simpa using this.2 i (by rwa [show n + 1 + i = n + (i + 1) by omega])

omit [Field F] [LawfulField F] in
theorem SeenFrom.seen {m m' : List F} (h : SeenFrom 0 m m') : SameSeen m m' := by
  have := h.same
  exact ⟨this.1, fun i hi => this.2 i (by simpa using hi)⟩

omit [LawfulField F] in
theorem sent_two [FieldApi S] [CurveOps C F S] (p : C) : ∃ x y : F, sent p = [x, y] := by
  unfold sent
  rcases CurveOps.getXy p with _ | ⟨x, y⟩
  · exact ⟨0, 0, rfl⟩
  · exact ⟨x, y, rfl⟩

omit [LawfulField F] in
theorem sentScalar_two [FieldApi S] [CurveOps C F S] (s : S) : ∃ x y : F, sentScalar C s = [x, y] := sent_two _

variable [DecidableEq F] {E : CurveConsts} [Field S] [LawfulField S] [DecidableEq S]

omit [DecidableEq S] in
theorem sent_turn (E : CurveConsts) (p : Proj F) : letI := Proj.curveOps E F S
    ∃ x x' y : F, sent p = [x, y] ∧ sent (turnPoint p) = [x', y] := by
  let := Proj.curveOps E F S
  unfold sent
  show ∃ x x' y : F, (match Proj.getXy p with | some (x, y) => [x, y] | none => [0, 0]) = [x, y] ∧
    (match Proj.getXy (turnPoint p) with | some (x, y) => [x, y] | none => [0, 0]) = [x', y]
  simp only [Proj.getXy, turnPoint]
  rcases FieldApi.invert p.z with _ | zi
  · exact ⟨0, 0, 0, rfl, rfl⟩
  · exact ⟨_, _, _, rfl, rfl⟩

omit [DecidableEq S] in
theorem sentScalar_turn [HaloCurve E F S] (s : S) : letI := Proj.curveOps E F S
    ∃ x x' y : F, sentScalar (Proj F) s = [x, y] ∧ sentScalar (Proj F) (FieldApi.beta * s) = [x', y] := by
  let := Proj.curveOps E F S
  have g := HaloCurve.good E F S
  have h1 := denotes_mul g ((HaloCurve.is (E := E) (F := F) (S := S)).denotes_one rfl) s
  have h2 := denotes_mul g ((HaloCurve.is (E := E) (F := F) (S := S)).denotes_one rfl) (FieldApi.beta * s)
  rw [HaloCurve.smul_mul_scalar, ← HaloCurve.endo_eq (S := S) g] at h2
  have e1 := getXy_spec h1
  have e2 := getXy_spec h2
  unfold sentScalar sent
  show ∃ x x' y : F, (match Proj.getXy (Proj.mul E (Proj.one E) s) with | some (x, y) => [x, y] | none => [0, 0]) = [x, y] ∧
    (match Proj.getXy (Proj.mul E (Proj.one E) (FieldApi.beta * s)) with | some (x, y) => [x, y] | none => [0, 0]) = [x', y]
  rw [e1, e2]
  generalize LawfulField.val s • (HaloCurve.is (E := E) (F := F) (S := S)).gen rfl = A
  cases A with
  | zero => exact ⟨0, 0, 0, rfl, rfl⟩
  | some x y n => exact ⟨_, _, _, rfl, rfl⟩

omit [DecidableEq S] in
theorem InnerProductRound.turn_seen [HaloCurve E F S] (r : InnerProductRound (Proj F) S) : letI := Proj.curveOps E F S
    r.SameSeen r.turn := by
  let := Proj.curveOps E F S
  by_cases h : 5 ≤ r.L.length ∧ 5 ≤ r.R.length ∧ 5 ≤ r.l.length ∧ 5 ≤ r.r.length
  · right
    obtain ⟨L, R, l, r⟩ := r
    simp only at h
    obtain ⟨h1, h2, h3, h4⟩ := h
    match L, R, l, r, h1, h2, h3, h4 with
    | L0 :: L1 :: L2 :: L3 :: L4 :: L, R0 :: R1 :: R2 :: R3 :: R4 :: R, l0 :: l1 :: l2 :: l3 :: l4 :: l,
      r0 :: r1 :: r2 :: r3 :: r4 :: r, _, _, _, _ =>
    refine ⟨[(L0, R0, l0, r0), (L1, R1, l1, r1), (L2, R2, l2, r2), (L3, R3, l3, r3), (L4, R4, l4, r4)],
      [(turnPoint L0, R0, l0, r0), (L1, R1, FieldApi.beta * l1, r1), (L2, R2, l2, r2), (turnPoint L3, R3, l3, r3),
        (L4, R4, FieldApi.beta * l4, r4)], ?_, ?_, ?_⟩
    · simp [InnerProductRound.entries]
    · simp [InnerProductRound.entries, InnerProductRound.turn, List.mapIdx_cons]
    · apply SeenFrom.seen
      have p : ∀ p : Proj F, ∃ x y : F, sent p = [x, y] := sent_two
      have q : ∀ s : S, ∃ x y : F, sentScalar (Proj F) s = [x, y] := sentScalar_two
      obtain ⟨_, _, _, e1, e1'⟩ := sent_turn (S := S) E L0
      obtain ⟨_, _, _, e2, e2'⟩ := sent_turn (S := S) E L3
      obtain ⟨_, _, _, e3, e3'⟩ := sentScalar_turn (E := E) (F := F) l1
      obtain ⟨_, _, _, e4, e4'⟩ := sentScalar_turn (E := E) (F := F) l4
      obtain ⟨_, _, f1⟩ := p L1
      obtain ⟨_, _, f2⟩ := p L2
      obtain ⟨_, _, f3⟩ := p L4
      obtain ⟨_, _, g0⟩ := p R0
      obtain ⟨_, _, g1⟩ := p R1
      obtain ⟨_, _, g2⟩ := p R2
      obtain ⟨_, _, g3⟩ := p R3
      obtain ⟨_, _, g4⟩ := p R4
      obtain ⟨_, _, i0⟩ := q l0
      obtain ⟨_, _, i1⟩ := q l2
      obtain ⟨_, _, i2⟩ := q l3
      obtain ⟨_, _, j0⟩ := q r0
      obtain ⟨_, _, j1⟩ := q r1
      obtain ⟨_, _, j2⟩ := q r2
      obtain ⟨_, _, j3⟩ := q r3
      obtain ⟨_, _, j4⟩ := q r4
      simp only [roundMessage, List.flatMap_cons, List.flatMap_nil, e1, e1', e2, e2', e3, e3', e4, e4', f1, f2, f3, g0, g1, g2,
        g3, g4, i0, i1, i2, j0, j1, j2, j3, j4]
      simp [SeenFrom]
  · left
    refine ⟨if_neg h, if_neg ?_⟩
    simpa [InnerProductRound.turn] using h

omit [DecidableEq S] in
theorem Proof.turn_seen [HaloCurve E F S] (π : Proof (Proj F) S) (K : Proj F) (ky gx : S) : letI := Proj.curveOps E F S
    List.Forall₂ Proofs.SameSeen (π.messages K ky gx) (π.turn.messages K ky gx) ∧
      List.Forall₂ InnerProductRound.SameSeen π.innerProduct.rounds π.turn.innerProduct.rounds := by
  let := Proj.curveOps E F S
  have p : ∀ p : Proj F, ∃ x y : F, sent p = [x, y] := sent_two
  have q : ∀ s : S, ∃ x y : F, sentScalar (Proj F) s = [x, y] := sentScalar_two
  constructor
  · obtain ⟨_, _, _, e1, e1'⟩ := sent_turn (S := S) E π.sCurCommitment
    obtain ⟨_, _, _, e2, e2'⟩ := sent_turn (S := S) E π.cCommitment
    obtain ⟨_, _, _, e3, e3'⟩ := sent_turn (S := S) E π.sNewCommitment
    obtain ⟨_, _, _, e4, e4'⟩ := sentScalar_turn (E := E) (F := F) π.txPositiveOpening
    obtain ⟨_, _, f0⟩ := p K
    obtain ⟨_, _, f1⟩ := p π.rCommitment
    obtain ⟨_, _, f2⟩ := p π.tPositiveCommitment
    obtain ⟨_, _, f3⟩ := p π.tNegativeCommitment
    obtain ⟨_, _, g0⟩ := q ky
    obtain ⟨_, _, g1⟩ := q π.rxOpening
    obtain ⟨_, _, g2⟩ := q π.rxyOpening
    obtain ⟨_, _, g3⟩ := q π.sxOldOpening
    obtain ⟨_, _, g4⟩ := q π.sxCurOpening
    obtain ⟨_, _, g5⟩ := q π.txNegativeOpening
    obtain ⟨_, _, g6⟩ := q π.sxNewOpening
    obtain ⟨_, _, g7⟩ := q gx
    simp only [Proof.messages, Proof.turn, List.forall₂_cons, List.forall₂_nil_left_iff, and_true, List.flatMap_cons,
      List.flatMap_nil, e1, e1', e2, e2', e3, e3', e4, e4', f0, f1, f2, f3, g0, g1, g2, g3, g4, g5, g6, g7]
    refine ⟨SeenFrom.seen ?_, SeenFrom.seen ?_, SeenFrom.seen ?_, SeenFrom.seen ?_⟩ <;> simp [SeenFrom]
  · show List.Forall₂ _ _ (π.innerProduct.rounds.map (·.turn))
    rw [List.forall₂_map_right_iff]
    exact List.forall₂_same.2 fun r _ => r.turn_seen

end turn

end Proofs
end Halo
