import Verif.Props.Acceptance
import Verif.Lemmas.Proofs.Binding
/-!
# What of the messages of a proof the challenges depend on (C80)
-/
namespace Halo
namespace Proofs
open Util Circuit
variable {E : CurveConsts} {F : Type} [Field F] [DecidableEq F] [LawfulField F]
  {S : Type} [Field S] [DecidableEq S] [LawfulField S]

omit [DecidableEq F] in
/-- **C80.** The transcript of the code, fed with the messages of two proofs that agree at every position that is not a multiple
of twelve, where positions are counted from the last challenge on, yields the same challenges. -/
theorem C80_seen {C : Type} [CurveOps C F S] {π π' : Proof C S} {K K' : C} {ky ky' gx gx' : S}
    (hm : List.Forall₂ SameSeen (π.messages K ky gx) (π'.messages K' ky' gx'))
    (hr : List.Forall₂ InnerProductRound.SameSeen π.innerProduct.rounds π'.innerProduct.rounds) (c : RunChallenges S) :
    π.Yields Transcript.rescue K ky gx c ↔ π'.Yields Transcript.rescue K' ky' gx' c := by
  refine ⟨.seen hm hr, .seen ?_ ?_⟩
  · exact (hm.imp fun _ _ h => h.symm).flip
  · exact (hr.imp fun _ _ h => h.symm).flip

/-- **C80**, the verifier. Replace the commitments to `s(X, y)`, `s(x, Y)` and `s(X, y_new)` in any proof by their images under
the endomorphism of the curve, the opening of `t` at `x` by its multiple by a cube root of unity, and four of the entries of
every round in the same way. The challenges that the verifier draws do not change: those that it returns in the deferred
record, and the forks. -/
theorem C80_verifier [HaloCurve E F S] {cpus : ℕ} {lnCeil : ℕ → ℕ} {α : Type}
    {st : Statement (Proj F) S α} {g : ℕ → Pt (E.b : F)} (hp : ValidParams (Denotes (E.b : F)) g st.params)
    {gates : ℕ} {lcs : List (LC S)} {positions : List ℕ} (hs : HasShape false st.circuit gates lcs positions)
    {π : Proof (Proj F) S} (ha : 5 ≤ π.innerProduct.a.length) (x y yNew : S) (packed : List S) (forks : List ℕ) :
    letI := Proj.curveOps E F S
    (∃ b new d, π.verify Transcript.rescue cpus lnCeil st.old st.params st.circuit st.inputs st.kCommitment =
        .ok (b, new, d, forks) ∧ d.x = x ∧ d.yCur = y ∧ d.yNew = yNew ∧ d.challengesSqPackedNew = packed) ↔
      ∃ b new d, π.turn.verify Transcript.rescue cpus lnCeil st.old st.params st.circuit st.inputs st.kCommitment =
        .ok (b, new, d, forks) ∧ d.x = x ∧ d.yCur = y ∧ d.yNew = yNew ∧ d.challengesSqPackedNew = packed := by
  let := Proj.curveOps E F S
  have hk := hp.k_gt
  obtain ⟨a, s, hsys, rfl, rfl, rfl, hw⟩ := hs
  have hshape : Shape st.circuit s.gates s := ⟨⟨a, hsys⟩, hw, le_rfl⟩
  have key : ∀ π π' : Proof (Proj F) S, 5 ≤ π.innerProduct.a.length → 5 ≤ π'.innerProduct.a.length →
      (∀ K ky gx c, π.Yields Transcript.rescue K ky gx c → π'.Yields Transcript.rescue K ky gx c) →
      π.innerProduct.rounds.length = π'.innerProduct.rounds.length →
      (∃ b new d, π.verify Transcript.rescue cpus lnCeil st.old st.params st.circuit st.inputs st.kCommitment =
        .ok (b, new, d, forks) ∧ d.x = x ∧ d.yCur = y ∧ d.yNew = yNew ∧ d.challengesSqPackedNew = packed) →
      ∃ b new d, π'.verify Transcript.rescue cpus lnCeil st.old st.params st.circuit st.inputs st.kCommitment =
        .ok (b, new, d, forks) ∧ d.x = x ∧ d.yCur = y ∧ d.yNew = yNew ∧ d.challengesSqPackedNew = packed := by
    rintro π π' h5 h5' hy hl ⟨b, new, d, h, rfl, rfl, rfl, rfl⟩
    obtain ⟨K, hK, h⟩ := verify_given hshape h
    obtain ⟨h1, h2, h3, uso, c, _, _, h6, rfl, rfl, h7, rfl, rfl, rfl⟩ := (verify_result hshape (by omega) h5).1 ⟨_, h⟩
    obtain ⟨b', h'⟩ := (verify_result (π := π') (cpus := cpus) (lnCeil := lnCeil) hshape (by omega) h5').2
      ⟨h1, h2, hl ▸ h3, uso, c, _, _, h6, rfl, rfl, hy _ _ _ _ h7, rfl, rfl, rfl⟩
    exact ⟨b', _, _, verify_of_given hshape hK h', rfl, rfl, rfl, rfl⟩
  have hseen := fun K ky gx c => C80_seen (π.turn_seen (E := E) K ky gx).1 (π.turn_seen (E := E) K ky gx).2 c
  have hl : π.innerProduct.rounds.length = π.turn.innerProduct.rounds.length := by simp [Proof.turn]
  exact ⟨key π π.turn ha ha (fun K ky gx c => (hseen K ky gx c).1) hl,
    key π.turn π ha ha (fun K ky gx c => (hseen K ky gx c).2) hl.symm⟩

omit [DecidableEq S] in
/-- The image of a point other than the identity is another point. -/
theorem turnPoint_ne [HaloCurve E F S] {p : Proj F} {A : Pt (E.b : F)} (hp : Denotes (E.b : F) p A) (hA : A ≠ 0) :
    ∃ B, Denotes (E.b : F) (turnPoint p) B ∧ B ≠ A := by
  let := HaloCurve.module (E := E) (F := F) (S := S)
  refine ⟨(FieldApi.beta : S) • A, (C14_endomorphism (S := S) hp).1, fun h => ?_⟩
  have h0 : ((FieldApi.beta : S) - 1) • A = 0 := by rw [sub_smul, one_smul, h, sub_self]
  rcases smul_eq_zero.1 h0 with h1 | h1
  · have := LawfulField.beta_order (F := S)
    rw [sub_eq_zero.1 h1, orderOf_one] at this
    omega
  · exact hA h1

/-- **C80**, the challenges do not bind the prover: for every proof whose commitment to `s(X, y)` is not the identity there is
one with another commitment, and otherwise the same, such that the transcript yields the same challenges. -/
theorem C80_not_binding [HaloCurve E F S] {π : Proof (Proj F) S} {A : Pt (E.b : F)}
    (hA : Denotes (E.b : F) π.sCurCommitment A) (h0 : A ≠ 0) :
    letI := Proj.curveOps E F S
    ∃ (p : Proj F) (B : Pt (E.b : F)), Denotes (E.b : F) p B ∧ B ≠ A ∧ ∀ (K : Proj F) (ky gx : S) (c : RunChallenges S),
      π.Yields Transcript.rescue K ky gx c ↔ { π with sCurCommitment := p }.Yields Transcript.rescue K ky gx c := by
  let := Proj.curveOps E F S
  obtain ⟨B, hB, hne⟩ := turnPoint_ne (S := S) hA h0
  refine ⟨_, B, hB, hne, fun K ky gx c => C80_seen (π := π) (π' := { π with sCurCommitment := turnPoint π.sCurCommitment }) ?_
    (List.forall₂_same.2 fun r _ => ?_) c⟩
  · obtain ⟨_, _, _, e1, e1'⟩ := sent_turn (S := S) E π.sCurCommitment
    have hs := fun m : List F => (⟨rfl, fun _ _ => rfl⟩ : SameSeen m m)
    refine .cons (hs _) (.cons ?_ (.cons (hs _) (.cons (hs _) .nil)))
    show SameSeen (sent _ ++ _ ++ _) (sent (turnPoint _) ++ _ ++ _)
    rw [e1, e1']
    refine ⟨by simp, fun i hi => ?_⟩
    cases i with
    | zero => simp at hi
    | succ i => rfl
  · rcases h : r.entries 5 with _ | es
    · exact .inl ⟨h, h⟩
    · exact .inr ⟨es, es, h, h, rfl, fun _ _ => rfl⟩

/-- An example: a proof without rounds, whose commitment is the generator. The transcript yields challenges for it, and the
same ones for another commitment. -/
example : letI := Proj.curveOps ec0 Fq Fp
    ∃ (π : Proof (Proj Fq) Fp) (A B : Pt ((ec0.b : ℕ) : Fq)) (p : Proj Fq) (c : RunChallenges Fp),
      Denotes ((ec0.b : ℕ) : Fq) π.sCurCommitment A ∧ A ≠ 0 ∧ Denotes ((ec0.b : ℕ) : Fq) p B ∧ B ≠ A ∧
      π.Yields Transcript.rescue (Proj.one ec0 : Proj Fq) 3 4 c ∧
      { π with sCurCommitment := p }.Yields Transcript.rescue (Proj.one ec0 : Proj Fq) 3 4 c := by
  let := Proj.curveOps ec0 Fq Fp
  have his := HaloCurve.is (E := ec0) (F := Fq) (S := Fp)
  have h1 := his.denotes_one rfl
  have h2 : his.gen rfl ≠ 0 := WeierstrassCurve.Affine.Point.some_ne_zero (his.gen_nonsing rfl)
  generalize hO : (Proj.one ec0 : Proj Fq) = O at *
  obtain ⟨p, B, h3, h4, h5⟩ := C80_not_binding (E := ec0) (S := Fp) (π := ⟨O, O, O, O, O, O, 1, 2, 3, 4, 5, 6, 7, ⟨[], [], O⟩⟩) h1 h2
  obtain ⟨c, hc⟩ := Proof.exists_yields (C := Proj Fq) (S := Fp)
    (π := ⟨O, O, O, O, O, O, 1, 2, 3, 4, 5, 6, 7, ⟨[], [], O⟩⟩) rfl O 3 4
  exact ⟨_, _, B, p, c, h1, h2, h3, h4, hc, (h5 _ _ _ _).1 hc⟩

/-- hypotheses of `C80_verifier`: the parameters and the circuit of C78 -/
example : letI := Proj.curveOps ec0 Fq Fp
    ∃ (st : Statement (Proj Fq) Fp Unit) (g : ℕ → Pt ((ec0.b : ℕ) : Fq)) (π : Proof (Proj Fq) Fp),
      ValidParams (Denotes _) g st.params ∧ HasShape false st.circuit 4 (cubeLcs Fp) [1, 6] ∧ 5 ≤ π.innerProduct.a.length := by
  obtain ⟨params, g, hp, hk, -⟩ := params_example (E := ec0) (F := Fq) (S := Fp) (k := 5) (by norm_num)
    (by norm_num)
  exact ⟨flatStatement params (Proj.one ec0) 3 4, g, flatProof (Proj.one ec0) 5, hp, cube_shape false 3, by simp [flatProof]⟩

end Proofs
end Halo
