import Verif.Lemmas.Proofs.SoundHonest
import Verif.Lemmas.Proofs.Spaces
/-!
# Accepted runs with any transcript

The verifier gets the same answers from a scripted transcript that returns what the given one returned.
-/
namespace Halo
namespace Proofs
open Circuit Util
set_option linter.unusedSectionVars false

variable {T C F S : Type} [Field F] [LawfulField F] [Field S] [DecidableEq S] [LawfulField S]
  [CurveOps C F S] {α : Type} {tr : Transcript T F}

theorem getChallenge_scripted {t t' : T} {c : S} (h : getChallenge S tr t = some (c, t')) :
    ∃ r : F, ∀ (f : ℕ → F) (m : ℕ), f m = r → getChallenge S (scripted f) m = some (c, m + 1) := by
  simp only [getChallenge, Option.bind_eq_bind, Option.bind_eq_some_iff, Option.some.injEq, Prod.mk.injEq] at h
  obtain ⟨⟨r, t1⟩, h1, h2, h3⟩ := h
  refine ⟨r, fun f m hf => ?_⟩
  simp only [getChallenge, scripted, hf, Option.bind_eq_bind, Option.bind_some, h2]

theorem squareChallenge_scripted {fuel : ℕ} {t t' : T} {ch : Challenge S}
    (h : squareChallenge S tr fuel t = some (ch, t')) :
    ch.challengeSqPacked ∈ challengeSpace S ∧ ∃ r : F, ∀ (f : ℕ → F) (m : ℕ), f m = r →
      squareChallenge S (scripted f) fuel m = some ({ ch with fork := 0 }, m + 1) := by
  have hg := squareChallenge_good h
  have hfuel : 1 ≤ fuel := by
    rcases Nat.eq_zero_or_pos fuel with rfl | h0
    · simp [squareChallenge, forkLoop] at h
    · exact h0
  unfold squareChallenge at h
  simp only [Option.bind_eq_bind, Option.bind_eq_some_iff] at h
  obtain ⟨⟨fv, count, packed, sq, u⟩, hf, ⟨packed', t1⟩, hp, h⟩ := h
  split at h
  case isFalse => cases h
  case isTrue he =>
  simp only at he
  subst he
  simp only [Option.bind_eq_some_iff, Option.some.injEq, Prod.mk.injEq] at h
  obtain ⟨inv, hi, rfl, rfl⟩ := h
  obtain ⟨h1, h2, -⟩ := forkLoop_some hf
  simp only at h1 h2
  obtain ⟨r, -, hr⟩ := getChallenge_eq hp
  refine ⟨Finset.mem_image.2 ⟨_, Finset.mem_range.2 (Nat.mod_lt _ (by positivity)), hr.symm⟩, ?_⟩
  obtain ⟨r, hr⟩ := getChallenge_scripted hp
  refine ⟨r, fun f m hm => squareChallenge_mono hfuel ?_⟩
  have e : ∀ v, (scripted f).absorb v m = m := fun _ => rfl
  subst h1
  simp only [squareChallenge, forkLoop, e, hr f m hm, Option.bind_eq_bind, Option.bind_some, h2, if_true, hi]

theorem verifyRounds_scripted : ∀ {rounds : List (InnerProductRound C S)} {pv pv' : List (C × S)}
    {chs : List (Challenge S)} {t t' : T}, verifyRounds tr rounds pv t = some (pv', chs, t') →
    chs.length = rounds.length ∧
    (∀ ch ∈ chs, ch.challengeSqPacked ∈ challengeSpace S ∧ ch.Good) ∧
    ∃ rs : List F, ∀ (f : ℕ → F) (m : ℕ), (∀ (j : ℕ) (r : F), rs[j]? = some r → f (m + j) = r) →
      ∃ m', verifyRounds (scripted f) rounds pv m = some (pv', chs.map fun ch => { ch with fork := 0 }, m')
  | [], pv, pv', chs, t, t', h => by
    simp only [verifyRounds, Option.some.injEq, Prod.mk.injEq] at h
    obtain ⟨rfl, rfl, -⟩ := h
    exact ⟨rfl, by simp, [], fun f m _ => ⟨m, rfl⟩⟩
  | round :: rounds, pv, pv', chs, t, t', h => by
    simp only [verifyRounds, Option.bind_eq_bind, Option.bind_eq_some_iff] at h
    obtain ⟨es, hes, ⟨ch, t1⟩, hch, ⟨pv2, chs2, t2⟩, hr, h⟩ := h
    simp only [Option.some.injEq, Prod.mk.injEq] at h
    obtain ⟨rfl, rfl, rfl⟩ := h
    obtain ⟨h1, h2, rs, h3⟩ := verifyRounds_scripted hr
    obtain ⟨hc, r, hs⟩ := squareChallenge_scripted hch
    refine ⟨by simp [h1], ?_, r :: rs, fun f m hf => ?_⟩
    · intro c hc'
      rcases List.mem_cons.1 hc' with rfl | hc'
      · exact ⟨hc, squareChallenge_good hch⟩
      · exact h2 c hc'
    · obtain ⟨m', h4⟩ := h3 f (m + 1) fun j r hj => by
        have := hf (j + 1) r (by simpa using hj)
        rw [← this]; congr 1; omega
      refine ⟨m', ?_⟩
      simp only [verifyRounds, hes, Option.bind_eq_bind, Option.bind_some, appendRound_scripted,
        hs f m (hf 0 r rfl), List.map_cons]
      have e : ∀ l, List.zipWith (foldInstance ({ ch with fork := 0 } : Challenge S)) pv l =
        List.zipWith (foldInstance ch) pv l := fun _ => rfl
      simp only [e, h4, Option.bind_some]

theorem verifyProof_scripted {op : MultiPolynomialOpening C S} {instances : List (PolynomialOpening C S)} {k : ℕ}
    {t t' : T} {ok : Bool} {packed : List S} {g : C} {forks : List ℕ}
    (h : op.verifyProof tr instances k t = some (ok, packed, g, forks, t')) :
    op.rounds.length = k ∧ packed.length = k ∧ (∃ us, Roots packed us) ∧ (∀ p ∈ packed, p ∈ challengeSpace S) ∧
    ∃ rs : List F, ∀ (f : ℕ → F) (m : ℕ), (∀ (j : ℕ) (r : F), rs[j]? = some r → f (m + j) = r) →
      ∃ forks m', op.verifyProof (scripted f) instances k m = some (ok, packed, g, forks, m') := by
  unfold MultiPolynomialOpening.verifyProof at h
  split at h
  case isTrue => simp at h
  case isFalse hk =>
  simp only [Option.bind_eq_bind, Option.bind_eq_some_iff] at h
  obtain ⟨⟨pv, chs, t1⟩, hr, ok', hok, h⟩ := h
  simp only [Option.some.injEq, Prod.mk.injEq] at h
  obtain ⟨rfl, rfl, rfl, -, -⟩ := h
  obtain ⟨h1, h2, rs, h3⟩ := verifyRounds_scripted hr
  have hk : op.rounds.length = k := not_not.1 hk
  refine ⟨hk, by rw [List.length_map, h1, hk], ⟨chs.map (·.challenge), ?_⟩, ?_, rs, fun f m hf => ?_⟩
  · rw [Roots, List.forall₂_map_left_iff, List.forall₂_map_right_iff, List.forall₂_same]
    intro ch hc
    have := (h2 ch hc).2
    rw [this.packed, this.sqrt]
  · intro p hp
    obtain ⟨ch, hc, rfl⟩ := List.mem_map.1 hp
    exact (h2 ch hc).1
  · obtain ⟨m', h4⟩ := h3 f m hf
    refine ⟨chs.map fun _ => 0, m', ?_⟩
    unfold MultiPolynomialOpening.verifyProof
    rw [if_neg (not_not.2 hk)]
    simp only [h4, Option.bind_eq_bind, Option.bind_some, List.map_map, Function.comp_def, hok]

theorem mem_challengeSpace {t t' : T} {c : S} (h : getChallenge S tr t = some (c, t')) : c ∈ challengeSpace S := by
  obtain ⟨r, -, hr⟩ := getChallenge_eq h
  exact Finset.mem_image.2 ⟨_, Finset.mem_range.2 (Nat.mod_lt _ (by positivity)), hr.symm⟩

attribute [local irreducible] challengeSpace

theorem roots_mem {packed us : List S} (h : Roots packed us) (hp : ∀ p ∈ packed, p ∈ challengeSpace S) :
    ∀ u ∈ us, u ∈ rootSpace S := by
  induction h with
  | nil => simp
  | @cons p v ps vs h1 _ ih =>
    intro u hu
    rcases List.mem_cons.1 hu with rfl | hu
    · exact Finset.mem_biUnion.2 ⟨p, hp p (by simp), Option.mem_toFinset.2 h1⟩
    · exact ih (fun p h => hp p (by simp [h])) u hu

/-- The verifier returns the same with a script. -/
theorem verify_scripted {cpus : ℕ} {lnCeil : ℕ → ℕ} {st : Statement C S α} {π : Proof C S} {s : System S}
    (hs : Shape st.circuit st.params.n s) {K : C} {b : Bool} {new : Leftovers C S} {d : Deferred S} {forks : List ℕ}
    (h : π.verify tr cpus lnCeil st.old st.params st.circuit st.inputs (some K) = .ok (b, new, d, forks)) :
    ∃ (y x yNew z' : S) (us : List S) (f : ℕ → F) (forks' : List ℕ),
      π.innerProduct.rounds.length = st.params.k ∧ us.length = st.params.k ∧
      y ∈ challengeSpace S ∧ x ∈ challengeSpace S ∧ yNew ∈ challengeSpace S ∧ z' ∈ challengeSpace S ∧
      (∀ u ∈ us, u ∈ rootSpace S) ∧ Roots new.challengesSqPackedNew us ∧
      getChallenge S (scripted f) 0 = some (y, 1) ∧ getChallenge S (scripted f) 1 = some (x, 2) ∧
      getChallenge S (scripted f) 2 = some (yNew, 3) ∧ getChallenge S (scripted f) 3 = some (z', 4) ∧
      π.verify (scripted f) cpus lnCeil st.old st.params st.circuit st.inputs (some K) = .ok (b, new, d, forks') := by
  obtain ⟨a0, hsys⟩ := hs.system
  obtain ⟨dv, hdv, hrel⟩ := sim_inputMap.synthesize_of_system (b := [])
    ⟨.empty, rfl, rfl, rfl, rfl⟩ hsys trivial
  unfold Proof.verify at h
  simp only [hdv, Except.bind_ok, hrel.inputs] at h
  simp only [bind_eq_ok, ofOption_eq_ok, ite_panic_eq_ok, Except.bind_error, Except.ok.injEq] at h
  obtain ⟨hlen, ⟨y', T1⟩, hy, ⟨x', T2⟩, hx, ⟨yn, T3⟩, hyn, ky, hky, hv⟩ := h
  obtain ⟨⟨sqo, uso, invo, po⟩, hexo, gx, hgx, ⟨ζ, T4⟩, hz, ⟨sat, packed, gN, fk, T5⟩, hip, hv⟩ := hv
  obtain ⟨⟨sqn, usn, invn, pn⟩, hexn, bX, hbX, bXy, hbXy, bYO, hbYO, bYC, hbYC, bYN, hbYN, hv⟩ := hv
  simp only [Prod.mk.injEq] at hv
  obtain ⟨e1, e2, e3, -⟩ := hv
  obtain ⟨r0, g0⟩ := getChallenge_scripted hy
  obtain ⟨r1, g1⟩ := getChallenge_scripted hx
  obtain ⟨r2, g2⟩ := getChallenge_scripted hyn
  obtain ⟨r3, g3⟩ := getChallenge_scripted hz
  obtain ⟨hk, hpk, ⟨us, hus⟩, hpm, rs, gr⟩ := verifyProof_scripted hip
  let f : ℕ → F := fun m => ([r0, r1, r2, r3] ++ rs).getD m 0
  obtain ⟨forks', m', hip'⟩ := gr f 4 fun j r hj => by
    simp only [f, List.getD_eq_getElem?_getD]
    rw [List.getElem?_append_right (by simp), List.length_cons, List.length_cons, List.length_cons, List.length_cons,
      List.length_nil, show 4 + j - (0 + 1 + 1 + 1 + 1) = j by omega, hj, Option.getD_some]
  have c0 := g0 f 0 rfl
  have c1 := g1 f 1 rfl
  have c2 := g2 f 2 rfl
  have c3 := g3 f 3 rfl
  refine ⟨y', x', yn, ζ, us, f, forks', hk, by rw [← hpk]; exact hus.length_eq.symm, mem_challengeSpace hy, mem_challengeSpace hx, mem_challengeSpace hyn, mem_challengeSpace hz,
    roots_mem hus hpm, e2 ▸ hus, c0, c1, c2, c3, ?_⟩
  rw [verify_quiet_iff (appendPoint_scripted f) (appendScalar_scripted f) hs]
  exact ⟨by simpa using hlen, y', 1, c0, x', 2, c1, yn, 3, c2, ky, hky, ⟨sqo, uso, invo, po⟩, hexo, gx, hgx, ζ, 4, c3,
    ⟨sat, packed, gN, forks', m'⟩, hip', ⟨sqn, usn, invn, pn⟩, hexn, bX, hbX, bXy, hbXy, bYO, hbYO, bYC, hbYC, bYN, hbYN,
    by rw [← e1, ← e2, ← e3]⟩

/-- the converse of `verify_given` -/
theorem verify_of_given {cpus : ℕ} {lnCeil : ℕ → ℕ} {st : Statement C S α} {π : Proof C S}
    {n : ℕ} {s : System S} (hs : Shape st.circuit n s) {K : C} {r}
    (hK : kOf cpus lnCeil st (kPoly (kInputs s st.inputs)) = some K)
    (h : π.verify tr cpus lnCeil st.old st.params st.circuit st.inputs (some K) = .ok r) :
    π.verify tr cpus lnCeil st.old st.params st.circuit st.inputs st.kCommitment = .ok r := by
  unfold kOf at hK
  cases hk : st.kCommitment with
  | some K' =>
    rw [hk] at hK
    obtain rfl := Option.some.inj hK
    exact h
  | none =>
    rw [hk] at hK
    simp only at hK
    obtain ⟨a0, hsys⟩ := hs.system
    obtain ⟨dv, hdv, hrel⟩ := sim_inputMap.synthesize_of_system (b := [])
      ⟨.empty, rfl, rfl, rfl, rfl⟩ hsys trivial
    unfold Proof.verify at h ⊢
    simp only [hdv, Except.bind_ok, hrel.inputs] at h ⊢
    rw [hK]
    exact h

theorem mem_scalarSpace {z : S} (h : z ∈ challengeSpace S) : (getChallengeScalar z : S) ∈ scalarSpace S :=
  Finset.mem_image_of_mem _ h

attribute [local irreducible] scalarSpace rootSpace

theorem mem_outcomes {k : ℕ} {y x yNew z : S} {us : List S} (h1 : y ∈ challengeSpace S) (h2 : x ∈ challengeSpace S)
    (h3 : yNew ∈ challengeSpace S) (h4 : z ∈ scalarSpace S) (h5 : us.length = k) (h6 : ∀ u ∈ us, u ∈ rootSpace S) :
    (y, x, yNew, z, us) ∈ (Spaces.code S).outcomes k :=
  Finset.mem_product.2 ⟨h1, Finset.mem_product.2 ⟨h2, Finset.mem_product.2 ⟨h3, Finset.mem_product.2
    ⟨h4, mem_sequences.2 ⟨h5, h6⟩⟩⟩⟩⟩

theorem fixed_rounds (π : Proof C S) (y x yNew z : S) : ∀ (us pre : List S),
    pre.length + us.length = π.innerProduct.rounds.length →
    (Prover.fixed π).rounds y x yNew z pre us = π.innerProduct.rounds.drop pre.length
  | [], pre, h => by
    rw [List.length_nil, Nat.add_zero] at h
    rw [Prover.rounds, h, List.drop_length]
  | u :: us, pre, h => by
    rw [List.length_cons] at h
    have hlt : pre.length < π.innerProduct.rounds.length := by omega
    rw [Prover.rounds, fixed_rounds π y x yNew z us _ (by simp; omega), List.length_append, List.length_singleton,
      List.drop_eq_getElem_cons hlt]
    simp only [Prover.fixed, List.getD_eq_getElem?_getD, List.getElem?_eq_getElem hlt, Option.getD_some]

theorem fixed_proof (π : Proof C S) (y x yNew z : S) (us : List S) (h : us.length = π.innerProduct.rounds.length) :
    (Prover.fixed π).proof y x yNew z us = π := by
  have := fixed_rounds π y x yNew z us [] (by simpa using h)
  rw [Prover.proof, this]
  rfl

end Proofs
end Halo
