import Verif.Lemmas.Proofs.Machine
/-!
# Lemmas: `Proof::new` and `Proof::verify` do not depend on the machine
-/
namespace Halo
namespace Proofs
open Circuit Util
variable {E : CurveConsts} {F : Type} [Field F] [DecidableEq F] [LawfulField F]
  {S : Type} [Field S] [DecidableEq S] [LawfulField S] {T : Type} [HaloCurve E F S] (M M' : Machine)

/-- What the rounds return -/
structure SameRounds (b : F) (r r' : List (InnerProductRound (Proj F) S) × List S × List (List S × List S) × List (Proj F) × T) : Prop where
  rounds : List.Forall₂ (InnerProductRound.Same (SamePoint b)) r.1 r'.1
  packed : r.2.1 = r'.2.1
  ab : r.2.2.1 = r'.2.2.1
  gens : List.Forall₂ (SamePoint b) r.2.2.2.1 r'.2.2.2.1
  t : r.2.2.2.2 = r'.2.2.2.2

theorem proveRounds_same (tr : Transcript T F) (fuel : ℕ) (k : ℕ) : ∀ (ab : List (List S × List S)) {gens gens' : List (Proj F)}
    (_ : List.Forall₂ (SamePoint (E.b : F)) gens gens') (_ : gens.length = 2 ^ k) (_ : k < 32) (t : T),
    letI := Proj.curveOps E F S
    Option.Rel (SameRounds (E.b : F)) (proveRounds tr fuel M.cpus M.lnCeil k ab gens t)
      (proveRounds tr fuel M'.cpus M'.lnCeil k ab gens' t) := by
  let := Proj.curveOps E F S
  induction k with
  | zero => intro ab gens gens' h _ _ t; exact .some ⟨.nil, rfl, rfl, h, rfl⟩
  | succ k ih =>
    intro ab gens gens' h hl hk t
    have hs : gens.length < 2 ^ 32 := by rw [hl]; exact Nat.pow_lt_pow_right (by norm_num) hk
    unfold proveRounds
    refine rel_bind (rel_mapM (proveEntry_same M M' h hs _) ab) fun es es' hes => ?_
    simp only [appendRound_same (E := E) tr hes]
    refine rel_step _ fun ⟨ch, t⟩ => ?_
    simp only
    obtain ⟨r, r', h1, h2, h3, h4⟩ := collapse_same M M' h (l := 1 <<< k) (by rw [hl, Nat.one_shiftLeft, pow_succ, mul_comm])
      (by rw [Nat.one_shiftLeft]; positivity) ch.challenge ch.challengeInv
    rw [h1, h2]
    simp only [Option.bind_eq_bind, Option.bind_some]
    refine rel_bind (ih _ h3 (by rw [h4, Nat.one_shiftLeft]) (by omega) t) fun ⟨a, b, c, d, e⟩ ⟨a', b', c', d', e'⟩ h => ?_
    obtain ⟨h5, rfl, rfl, h6, rfl⟩ := h
    have e1 : ∀ {γ : Type} (f : Proj F × Proj F × S × S → γ), (∀ e e', SameEntry (E.b : F) e e' → f e = f e') →
        es.map f = es'.map f := by
      intro γ f hf
      clear h1 h2 h3 h4 h5
      induction hes with
      | nil => rfl
      | cons h _ ih => simp [hf _ _ h, ih]
    refine .some ⟨.cons ⟨?_, ?_, ?_, ?_⟩ h5, rfl, rfl, h6, rfl⟩
    · exact List.forall₂_map_left_iff.2 (List.forall₂_map_right_iff.2 (hes.imp fun _ _ h => h.1))
    · exact List.forall₂_map_left_iff.2 (List.forall₂_map_right_iff.2 (hes.imp fun _ _ h => h.2.1))
    · exact e1 _ fun _ _ h => by rw [h.2.2]
    · exact e1 _ fun _ _ h => by rw [h.2.2]

theorem newProof_same (tr : Transcript T F) (fuel : ℕ) {instances instances' : List (PolynomialOpening (Proj F) S × List S)}
    (hi : instances.map (fun i => (i.1.rightEdge, i.1.point, i.2)) = instances'.map fun i => (i.1.rightEdge, i.1.point, i.2))
    {params : Params (Proj F)} {g : ℕ → Pt (E.b : F)} (hp : ValidParams (Denotes (E.b : F)) g params) (t : T) :
    letI := Proj.curveOps E F S
    Option.Rel (fun r r' => r.1.Same (SamePoint (E.b : F)) r'.1 ∧ r.2.1 = r'.2.1 ∧ SamePoint (E.b : F) r.2.2.1 r'.2.2.1 ∧ r.2.2.2 = r'.2.2.2)
      (MultiPolynomialOpening.newProof tr fuel M.cpus M.lnCeil instances params.generators params.k t)
      (MultiPolynomialOpening.newProof tr fuel M'.cpus M'.lnCeil instances' params.generators params.k t) := by
  let := Proj.curveOps E F S
  unfold MultiPolynomialOpening.newProof
  have key : ∀ l : List (PolynomialOpening (Proj F) S × List S), (l.mapM fun i =>
      padInstance params.k i.1.rightEdge i.2 >>= fun a => some (a, pointPowers params.k i.1.point)) =
      (l.map fun i => (i.1.rightEdge, i.1.point, i.2)).mapM fun i =>
      padInstance params.k i.1 i.2.2 >>= fun a => some (a, pointPowers params.k i.2.1) := by
    intro l
    induction l with
    | nil => rfl
    | cons a l ih => rw [List.map_cons, List.mapM_cons, List.mapM_cons, ih]
  rw [key, key, hi]
  refine rel_step _ fun ab => ?_
  refine rel_bind (proveRounds_same M M' tr fuel params.k ab (gens_same hp) hp.length (by have := hp.k_le; omega) t)
    fun ⟨a, b, c, d, e⟩ ⟨a', b', c', d', e'⟩ h => ?_
  obtain ⟨h5, rfl, rfl, h6, rfl⟩ := h
  refine rel_step _ fun as => ?_
  simp only at h5 h6 ⊢
  match d, d', h6 with
  | [], [], _ => exact .none
  | [g], [g'], .cons h _ => exact .some ⟨⟨h5, rfl, h⟩, rfl, h, rfl⟩
  | _ :: _ :: _, _ :: _ :: _, _ => exact .none

set_option maxHeartbeats 400000 in
/-- `Proof::new` on two machines, with the same circuit, parameters and leftovers -/
theorem new_same (tr : Transcript T F) (fuel : ℕ) {params : Params (Proj F)} {g : ℕ → Pt (E.b : F)}
    (hp : ValidParams (Denotes (E.b : F)) g params) {α : Type} (circuit : Var → Prog S α) {old old' : Leftovers (Proj F) S}
    (ho : old.Same (SamePoint (E.b : F)) old') :
    letI := Proj.curveOps E F S
    SameResult (fun r r' => r.1.Same (SamePoint (E.b : F)) r'.1 ∧ r.2.Same (SamePoint (E.b : F)) r'.2)
      (Proof.new tr fuel M.cpus M.lnCeil params circuit old) (Proof.new tr fuel M'.cpus M'.lnCeil params circuit old') := by
  let := Proj.curveOps E F S
  obtain ⟨s, y, gg, packed⟩ := old
  obtain ⟨s', y', gg', packed'⟩ := old'
  obtain ⟨hs, rfl, hgg, rfl⟩ := ho
  simp only at hs hgg
  have com : ∀ v r, SameResult (ε := Fail) (SamePoint (E.b : F)) (ofOption (params.commit M.cpus M.lnCeil v r))
      (ofOption (params.commit M'.cpus M'.lnCeil v r)) := fun v r => sameResult_ofOption (commit_same M M' hp v r)
  have ap := fun {p q : Proj F} (h : SamePoint (E.b : F) p q) (t : T) => appendPoint_same (E := E) S tr h t
  unfold Proof.new
  refine .step _ fun ⟨_, drv⟩ => ?_
  refine .check ?_
  refine .check ?_
  refine .step _ fun sxOld => .step _ fun ⟨sqOld, challengesOld, challengesOldInv, allinvOld⟩ => .step _ fun gxOld => ?_
  refine .bind (com _ _) fun k k' hk => .bind (com _ _) fun r r' hr => ?_
  simp only [ap hk, ap hr]
  refine .step _ fun ⟨yCur, t⟩ => .step _ fun yCurInv => .step _ fun sxCur => .bind (com _ _) fun sCur sCur' hsCur => ?_
  simp only [multiplyPolynomials_machine M M', ap hsCur]
  refine .step _ fun tx => .check (.bind (com _ _) fun tp tp' htp => .bind (com _ _) fun tn tn' htn => .check ?_)
  simp only [ap htp, ap htn]
  refine .step _ fun ⟨x, t⟩ => .step _ fun sy => .bind (com _ _) fun c c' hc => ?_
  simp only [ap hc]
  refine .step _ fun ⟨yNew, t⟩ => .step _ fun sxNew => .bind (com _ _) fun sNew sNew' hsNew => ?_
  simp only [ap hsNew]
  refine .step _ fun kyOpening => .step _ fun tx0 => .check ?_
  refine .step _ fun rxOpening => .step _ fun rxyOpening => .step _ fun sxOldOpening => .step _ fun sxCurOpening => ?_
  refine .step _ fun txPositiveOpening => .step _ fun txNegativeOpening => .step _ fun sxNewOpening => ?_
  refine .step _ fun gxOldOpening => .step _ fun b => .check (.step _ fun ⟨z, t⟩ => .check (.check ?_))
  refine .bind (sameResult_ofOption (newProof_same M M' tr fuel (by simp only [List.map_cons, List.map_nil]) hp t)) fun ⟨o, pk, gn, _⟩ ⟨o', pk', gn', _⟩ h => ?_
  obtain ⟨h1, rfl, h2, -⟩ := h
  exact .ok ⟨⟨hr, hsCur, htp, htn, hc, hsNew, rfl, rfl, rfl, rfl, rfl, rfl, rfl, h1⟩, ⟨hsNew, rfl, h2, rfl⟩⟩

end Proofs
end Halo
