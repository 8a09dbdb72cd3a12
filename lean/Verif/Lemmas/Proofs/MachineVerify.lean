import Verif.Lemmas.Proofs.Machine
/-!
# Lemmas: the verifiers of `src/proofs.rs` do not depend on the machine
-/
namespace Halo
namespace Proofs
open Circuit Util
variable {E : CurveConsts} {F : Type} [Field F] [DecidableEq F] [LawfulField F]
  {S : Type} [Field S] [DecidableEq S] [LawfulField S] {T : Type} [HaloCurve E F S] (M M' : Machine)

omit [LawfulField F] [Field S] [DecidableEq S] [LawfulField S] [HaloCurve E F S] in
theorem entries_same {b : F} {r r' : InnerProductRound (Proj F) S} (h : r.Same (SamePoint b) r') (m : ℕ) :
    Option.Rel (List.Forall₂ (SameEntry b)) (r.entries m) (r'.entries m) := by
  obtain ⟨L, R, l, r⟩ := r
  obtain ⟨L', R', l', r'⟩ := r'
  obtain ⟨h1, h2, rfl, rfl⟩ := h
  simp only at h1 h2
  unfold InnerProductRound.entries
  simp only [h1.length_eq, h2.length_eq]
  split
  · refine .some (List.forall₂_take _ ?_)
    rename_i h
    clear h
    generalize hv : l.zip r = v
    clear hv
    induction h1 generalizing R R' v with
    | nil => exact .nil
    | cons h1 _ ih =>
      cases h2 with
      | nil => exact .nil
      | cons h2 h3 =>
        cases v with
        | nil => exact .nil
        | cons a v => exact .cons ⟨h1, h2, rfl⟩ (ih _ _ h3 v)
  · exact .none

/-- A commitment with its opening -/
def SameClaim (b : F) (e e' : Proj F × S) : Prop := SamePoint b e.1 e'.1 ∧ e.2 = e'.2

omit [DecidableEq S] in
theorem foldInstances_same (ch : Challenge S) {pv pv' : List (Proj F × S)} (h : List.Forall₂ (SameClaim (E.b : F)) pv pv')
    {es es' : List (Proj F × Proj F × S × S)} (he : List.Forall₂ (SameEntry (E.b : F)) es es') :
    letI := Proj.curveOps E F S
    List.Forall₂ (SameClaim (E.b : F)) (List.zipWith (foldInstance ch) pv es) (List.zipWith (foldInstance ch) pv' es') := by
  let := Proj.curveOps E F S
  induction h generalizing es es' with
  | nil => exact .nil
  | @cons e e' _ _ h _ ih =>
    cases he with
    | nil => exact .nil
    | @cons m m' _ _ h1 h2 =>
      refine .cons ⟨SamePoint.add E S (SamePoint.add E S h.1 (h1.1.mul _)) (h1.2.1.mul _), ?_⟩ (ih h2)
      simp only [foldInstance, h.2, h1.2.2]

theorem verifyRounds_same (tr : Transcript T F) {rounds rounds' : List (InnerProductRound (Proj F) S)}
    (h : List.Forall₂ (InnerProductRound.Same (SamePoint (E.b : F))) rounds rounds') : ∀ {pv pv' : List (Proj F × S)}
    (_ : List.Forall₂ (SameClaim (E.b : F)) pv pv') (t : T),
    letI := Proj.curveOps E F S
    Option.Rel (fun r r' => List.Forall₂ (SameClaim (E.b : F)) r.1 r'.1 ∧ r.2 = r'.2) (verifyRounds tr rounds pv t)
      (verifyRounds tr rounds' pv' t) := by
  let := Proj.curveOps E F S
  induction h with
  | nil => intro pv pv' h t; exact .some ⟨h, rfl⟩
  | cons h1 _ ih =>
    intro pv pv' h t
    unfold verifyRounds
    rw [← h.length_eq]
    refine rel_bind (entries_same h1 _) fun es es' hes => ?_
    rw [appendRound_same (E := E) tr hes]
    refine rel_step _ fun ⟨ch, t⟩ => ?_
    refine rel_bind (ih (foldInstances_same ch h hes) t) fun ⟨a, b, c⟩ ⟨a', b', c'⟩ hr => ?_
    obtain ⟨h3, h4⟩ := hr
    obtain ⟨rfl, rfl⟩ := Prod.mk.inj h4
    exact .some ⟨h3, rfl⟩

theorem checkFinal_same {g g' : Proj F} (hg : SamePoint (E.b : F) g g') (chs invs points : List S) :
    ∀ {pv pv' : List (Proj F × S)} (_ : List.Forall₂ (SameClaim (E.b : F)) pv pv') (as : List S),
    letI := Proj.curveOps E F S
    checkFinal g chs invs points pv as = checkFinal g' chs invs points pv' as := by
  let := Proj.curveOps E F S
  induction points with
  | nil => intros; rfl
  | cons p points ih =>
    intro pv pv' h as
    cases h with
    | nil => rfl
    | @cons e e' _ _ h1 h2 =>
      cases as with
      | nil => rfl
      | cons a as =>
        obtain ⟨P, v⟩ := e
        obtain ⟨P', v'⟩ := e'
        obtain ⟨h1, rfl⟩ := h1
        have : CurveOps.ctEq P (CurveApi.mul g a) = CurveOps.ctEq P' (CurveApi.mul g' a) := SamePoint.ctEq E S h1 (hg.mul a)
        simp only [checkFinal, this, ih h2]

theorem verifyProof_same (tr : Transcript T F) {o o' : MultiPolynomialOpening (Proj F) S} (h : o.Same (SamePoint (E.b : F)) o')
    {instances instances' : List (PolynomialOpening (Proj F) S)} (hi : List.Forall₂ (fun i i' => SamePoint (E.b : F) i.commitment i'.commitment ∧
      i.opening = i'.opening ∧ i.point = i'.point) instances instances') (k : ℕ) (t : T) :
    letI := Proj.curveOps E F S
    Option.Rel (fun r r' => r.1 = r'.1 ∧ r.2.1 = r'.2.1 ∧ SamePoint (E.b : F) r.2.2.1 r'.2.2.1 ∧ r.2.2.2 = r'.2.2.2)
      (o.verifyProof tr instances k t) (o'.verifyProof tr instances' k t) := by
  let := Proj.curveOps E F S
  obtain ⟨rounds, a, g⟩ := o
  obtain ⟨rounds', a', g'⟩ := o'
  obtain ⟨h1, rfl, h2⟩ := h
  simp only at h1 h2
  unfold MultiPolynomialOpening.verifyProof
  simp only [h1.length_eq]
  split
  · exact .none
  refine rel_bind (verifyRounds_same tr h1 ?_ t) fun ⟨pv, chs, t⟩ ⟨pv', chs', t'⟩ hr => ?_
  · exact List.forall₂_map_left_iff.2 (List.forall₂_map_right_iff.2 (hi.imp fun _ _ h => ⟨h.1, h.2.1⟩))
  · obtain ⟨h3, h4⟩ := hr
    obtain ⟨rfl, rfl⟩ := Prod.mk.inj h4
    have hpt : instances.map (·.point) = instances'.map (·.point) := by
      clear h1 h2 h3 h4
      induction hi with
      | nil => rfl
      | cons h _ ih => simp [h.2.2, ih]
    simp only [hpt, checkFinal_same h2 _ _ _ h3]
    exact rel_step _ fun ok => .some ⟨rfl, rfl, h2, rfl⟩

/-- `Proof::verify` on two machines -/
theorem verify_same (tr : Transcript T F) {π π' : Proof (Proj F) S} (h : π.Same (SamePoint (E.b : F)) π')
    {lo lo' : Leftovers (Proj F) S} (hlo : lo.Same (SamePoint (E.b : F)) lo')
    {params : Params (Proj F)} {g : ℕ → Pt (E.b : F)} (hp : ValidParams (Denotes (E.b : F)) g params) {α : Type}
    (circuit : Var → Prog S α) (inputs : List S) {K K' : Option (Proj F)} (hK : Option.Rel (SamePoint (E.b : F)) K K') :
    letI := Proj.curveOps E F S
    SameResult (fun r r' => r.1 = r'.1 ∧ r.2.1.Same (SamePoint (E.b : F)) r'.2.1 ∧ r.2.2 = r'.2.2)
      (π.verify tr M.cpus M.lnCeil lo params circuit inputs K) (π'.verify tr M'.cpus M'.lnCeil lo' params circuit inputs K') := by
  let := Proj.curveOps E F S
  obtain ⟨s, y, gg, packed⟩ := lo
  obtain ⟨s', y', gg', packed'⟩ := lo'
  obtain ⟨hs, rfl, hgg, rfl⟩ := hlo
  obtain ⟨r, sCur, tp, tn, c, sNew, rx, rxy, sxOld, sxCur, txp, txn, sxNew, ip⟩ := π
  obtain ⟨r', sCur', tp', tn', c', sNew', rx', rxy', sxOld', sxCur', txp', txn', sxNew', ip'⟩ := π'
  obtain ⟨hr, hsCur, htp, htn, hc, hsNew, rfl, rfl, rfl, rfl, rfl, rfl, rfl, hip⟩ := h
  simp only at hs hgg hr hsCur htp htn hc hsNew hip
  have com : ∀ v r, SameResult (ε := Fail) (SamePoint (E.b : F)) (ofOption (params.commit M.cpus M.lnCeil v r))
      (ofOption (params.commit M'.cpus M'.lnCeil v r)) := fun v r => sameResult_ofOption (commit_same M M' hp v r)
  have ap := fun {p q : Proj F} (h : SamePoint (E.b : F) p q) (t : T) => appendPoint_same (E := E) S tr h t
  have am : ∀ {p q p' q' : Proj F}, SamePoint (E.b : F) p p' → SamePoint (E.b : F) q q' → ∀ z : S,
      SamePoint (E.b : F) (CurveApi.add (CurveApi.mul p z) q) (CurveApi.add (CurveApi.mul p' z) q') :=
    fun h h' z => SamePoint.add E S (h.mul z) h'
  unfold Proof.verify
  refine .step _ fun ⟨_, drv⟩ => .check ?_
  cases hK
  case' some h => refine SameResult.bind (R := SamePoint (E.b : F)) (.ok h) ?_
  case' none => refine SameResult.bind (com _ _) ?_
  all_goals
    intro k k' hk
    simp only [ap hk, ap hr, ap hsCur, ap htp, ap htn, ap hc, ap hsNew]
    refine .step _ fun ⟨yCur, t⟩ => .step _ fun ⟨x, t⟩ => .step _ fun ⟨yNew, t⟩ => .step _ fun kyOpening => ?_
    refine .step _ fun ⟨_, challengesOld, challengesOldInv, _⟩ => .step _ fun gxOld => .step _ fun ⟨z, t⟩ => ?_
    refine .bind (sameResult_ofOption (verifyProof_same tr hip ?_ _ t)) fun ⟨ok, pk, gn, fk, _⟩ ⟨ok', pk', gn', fk', _⟩ h => ?_
    · refine .cons ⟨?_, rfl, rfl⟩ (.cons ⟨hr, rfl, rfl⟩ (.cons ⟨hc, rfl, rfl⟩ (.cons ⟨?_, rfl, rfl⟩ (.cons ⟨hc, rfl, rfl⟩ .nil))))
      · exact am (am (am (am (am (am hr hs _) hsCur _) htp _) htn _) hsNew _) hgg _
      · exact SamePoint.add E S hc (hk.mul _)
    obtain ⟨rfl, rfl, hgn, h4⟩ := h
    obtain ⟨rfl, rfl⟩ := Prod.mk.inj h4
    refine .step _ fun ⟨_, cs, ci, _⟩ => .step _ fun bX => .step _ fun bXy => .step _ fun bYOld => .step _ fun bYCur => .step _ fun bYNew => ?_
    exact .ok ⟨rfl, ⟨hsNew, rfl, hgn, rfl⟩, rfl⟩

omit [DecidableEq S] in
/-- `Leftovers::verify` on two machines -/
theorem leftovers_same {lo lo' : Leftovers (Proj F) S} (hlo : lo.Same (SamePoint (E.b : F)) lo')
    {params : Params (Proj F)} {g : ℕ → Pt (E.b : F)} (hp : ValidParams (Denotes (E.b : F)) g params) {α : Type}
    (circuit : Var → Prog S α) :
    letI := Proj.curveOps E F S
    lo.verify M.cpus M.lnCeil params circuit = lo'.verify M'.cpus M'.lnCeil params circuit := by
  let := Proj.curveOps E F S
  have key : SameResult (· = ·) (lo.verify M.cpus M.lnCeil params circuit) (lo'.verify M'.cpus M'.lnCeil params circuit) := by
    obtain ⟨s, y, gg, packed⟩ := lo
    obtain ⟨s', y', gg', packed'⟩ := lo'
    obtain ⟨hs, rfl, hgg, rfl⟩ := hlo
    simp only at hs hgg
    unfold Leftovers.verify
    refine .step _ fun sx => .bind (sameResult_ofOption (commit_same M M' hp _ _)) fun c c' hc => ?_
    split
    · exact .error _
    refine .step _ fun _ => .step _ fun allinv => .bind (sameResult_ofOption (computeG_same M M' hp _ _)) fun G G' hG => .ok ?_
    have h1 : CurveOps.ctEq G gg = CurveOps.ctEq G' gg' := SamePoint.ctEq E S hG hgg
    have h2 : CurveOps.ctEq c s = CurveOps.ctEq c' s' := SamePoint.ctEq E S hc hs
    simp only [h1, h2]
  generalize lo.verify M.cpus M.lnCeil params circuit = x at key
  generalize lo'.verify M'.cpus M'.lnCeil params circuit = y at key
  cases key with
  | ok h => rw [h]
  | error e => rfl

/-- `Leftovers::dummy` on two machines -/
theorem dummy_same {params : Params (Proj F)} {g : ℕ → Pt (E.b : F)} (hp : ValidParams (Denotes (E.b : F)) g params) :
    letI := Proj.curveOps E F S
    Option.Rel (fun l l' : Leftovers (Proj F) S => l.Same (SamePoint (E.b : F)) l') (Leftovers.dummy M.cpus M.lnCeil params)
      (Leftovers.dummy M'.cpus M'.lnCeil params) := by
  let := Proj.curveOps E F S
  let := HaloCurve.module (E := E) (F := F) (S := S)
  have L := HaloCurve.lawfulOps (E := E) (F := F) (S := S)
  unfold Leftovers.dummy
  exact rel_step _ fun ⟨sq, _, _, allinv⟩ => rel_bind (computeG_same M M' hp _ _) fun G G' hG =>
    .some ⟨⟨_, L.zero, L.zero⟩, rfl, hG, rfl⟩

end Proofs
end Halo
