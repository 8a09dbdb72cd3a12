import Verif.Lemmas.Proofs.Extract
import Verif.Props.Proofs
/-!
# Soundness of the opening argument (C54)
-/
namespace Halo
namespace Proofs
open Util Circuit
variable {E : CurveConsts} {F : Type} [Field F] [DecidableEq F] [LawfulField F]
  {S : Type} [Field S] [DecidableEq S] [LawfulField S]

/-- **C54** (partial). A prover that answers three challenges with different squares at every round, and
is accepted on every branch (by the verifier and by the check that is left over), knows polynomials for
which the claims are true: the extractor computes them from the scalars of the branches.

What is missing: this is for branches on which the folded commitment is not the identity. On the others the
`==` of the curve compares with the identity on the left and accepts anything, see
`C54_identity_opens_to_anything`. -/
theorem C54_extract_partial [HaloCurve E F S] {k : ℕ} {g : ℕ → Pt (E.b : F)}
    {instances : List (PolynomialOpening (Proj F) S)} (tree : Tree (Proj F) S k) (hd : tree.Distinct) :
    letI := Proj.curveOps E F S
    letI := HaloCurve.module (E := E) (F := F) (S := S)
    ∀ (_ : ∀ rounds us a gNew, Branch tree rounds us a gNew →
        Accepted (F := F) (Denotes (E.b : F)) g instances k rounds us a gNew)
      (j : ℕ) (hj : j < instances.length)
      (_ : ∀ rounds us a gNew, Branch tree rounds us a gNew → ∃ A B,
        Denotes (E.b : F) instances[j].commitment A ∧ Folded (Denotes (E.b : F)) j rounds us A B ∧ B ≠ 0),
      ValidClaim (Denotes (E.b : F)) g k instances[j] (tree.extract j) := by
  let := Proj.curveOps E F S
  let := HaloCurve.module (E := E) (F := F) (S := S)
  exact fun hacc j hj hne => extract_valid (HaloCurve.lawfulOps (E := E) (F := F) (S := S)) tree hd hacc
    j hj hne

/-- The messages of the forger: identities and zeros. -/
def zeroRound (F S : Type) [Field F] [Field S] : InnerProductRound (Proj F) S :=
  ⟨[Proj.zero], [Proj.zero], [0], [0]⟩

theorem verifyRounds_zero [HaloCurve E F S] {T : Type} {tr : Transcript T F}
    (htr : ∀ t, ∃ r, squareChallenge S tr 256 t = some r) :
    letI := Proj.curveOps E F S
    ∀ (k : ℕ) (P : Proj F) (_ : Denotes (E.b : F) P 0) (t : T),
    ∃ chs t', chs.length = k ∧ (∀ ch ∈ chs, ch.Good) ∧ ∃ P', Denotes (E.b : F) P' 0 ∧ ∀ v,
      verifyRounds tr (List.replicate k (zeroRound F S)) [(P, v)] t =
        some ([(P', v)], chs, t') := by
  let := Proj.curveOps E F S
  let := HaloCurve.module (E := E) (F := F) (S := S)
  have L := HaloCurve.lawfulOps (E := E) (F := F) (S := S)
  intro k
  induction k with
  | zero => exact fun P hP t => ⟨[], t, rfl, by simp, P, hP, fun v => rfl⟩
  | succ k ih =>
    intro P hP t
    obtain ⟨⟨ch, t1⟩, hc⟩ := htr (appendRound tr [((Proj.zero : Proj F), (Proj.zero : Proj F), (0 : S), (0 : S))] t)
    have hz : Denotes (E.b : F) (Proj.zero : Proj F) 0 := denotes_proj_zero
    have hP' := L.add (L.add hP (L.mul ch.challengeSq hz)) (L.mul (ch.challengeInv ^ 2) hz)
    simp only [smul_zero, add_zero] at hP'
    obtain ⟨chs, t', h1, h2, P', h3, h4⟩ := ih _ hP' t1
    refine ⟨ch :: chs, t', by simp [h1], ?_, P', h3, fun v => ?_⟩
    · intro c hc'
      rcases List.mem_cons.1 hc' with rfl | hc'
      · exact squareChallenge_good hc
      · exact h2 _ hc'
    · rw [List.replicate_succ, verifyRounds]
      have he : (zeroRound F S).entries [(P, v)].length =
          some [((Proj.zero : Proj F), (Proj.zero : Proj F), (0 : S), (0 : S))] := rfl
      simp only [he, Option.bind_eq_bind, Option.bind_some, hc, List.zipWith_cons_cons, List.zipWith_nil_left,
        foldInstance, zero_mul, add_zero, h4]

/-- **C54** is false of the code in general: the identity, which is the commitment to zero, can be opened to
any value `v` at any point `x` (unless the folded vector of the powers of `x` happens to be zero, which
for `x = 0` is never so). The forger ignores the challenges; `us` are those of the transcript, and the check
that is left over accepts too. -/
theorem C54_identity_opens_to_anything [HaloCurve E F S] {T : Type} {tr : Transcript T F}
    (htr : ∀ t, ∃ r, squareChallenge S tr 256 t = some r) {k : ℕ} (hk : 1 ≤ k) (g : ℕ → Pt (E.b : F))
    (rightEdge : Bool) (t : T) :
    letI := Proj.curveOps E F S
    letI := HaloCurve.module (E := E) (F := F) (S := S)
    ∃ us : List S, us.length = k ∧ collapse us (fun i => (0 : S) ^ i) ≠ 0 ∧
      ∀ v x : S, collapse us (fun i => x ^ i) ≠ 0 → ∃ (proof : MultiPolynomialOpening (Proj F) S) (packed : List S) (gNew : Proj F) (forks : List ℕ)
        (t' : T),
        proof.verifyProof tr [⟨Proj.zero, v, x, rightEdge⟩] k t = some (true, packed, gNew, forks, t') ∧
        Roots packed us ∧ Denotes (E.b : F) gNew (collapse us g) := by
  let := Proj.curveOps E F S
  let := HaloCurve.module (E := E) (F := F) (S := S)
  have L := HaloCurve.lawfulOps (E := E) (F := F) (S := S)
  obtain ⟨chs, t', h1, h2, P', h3, h4⟩ := verifyRounds_zero (E := E) htr k Proj.zero denotes_proj_zero t
  have hus : chs.map (·.challenge) ≠ [] := by
    intro h0
    have := congrArg List.length h0
    simp at this
    simp [this] at h1
    omega
  have hne : ∀ u ∈ chs.map (·.challenge), u ≠ 0 := by
    intro u hu
    obtain ⟨c, hc, rfl⟩ := List.mem_map.1 hu
    exact (h2 c hc).ne
  have hroots : Roots (chs.map (·.challengeSqPacked)) (chs.map (·.challenge)) := by
    clear h1 h4 hus hne
    induction chs with
    | nil => exact .nil
    | cons c chs ih =>
      have hg := h2 c (List.mem_cons_self ..)
      exact .cons (by rw [hg.packed, hg.sqrt]) (ih fun c hc => h2 c (List.mem_cons_of_mem _ hc))
  have hinv : chs.map (·.challengeInv) = (chs.map (·.challenge)).map (·⁻¹) := by
    rw [List.map_map]
    exact List.map_congr_left fun c hc => (h2 c hc).inv
  obtain ⟨gN, hgN⟩ := L.total (collapse (chs.map (·.challenge)) g)
  refine ⟨chs.map (·.challenge), by simp [h1], ?_, fun v x hx => ?_⟩
  · rw [collapse_eq, Finset.sum_eq_single 0]
    · rw [sCoef_zero, pow_zero, smul_eq_mul, mul_one]
      refine List.prod_ne_zero fun h0 => ?_
      obtain ⟨u, hu, h0⟩ := List.mem_map.1 h0
      exact inv_ne_zero (hne u hu) h0
    · intro i _ hi
      simp [hi]
    · simp
  · refine ⟨⟨List.replicate k (zeroRound F S), [v / collapse (chs.map (·.challenge)) fun i => x ^ i], gN⟩,
      chs.map (·.challengeSqPacked), gN, chs.map (·.fork), t', ?_, hroots, hgN⟩
    have hct : CurveOps.ctEq (F := F) P'
        (CurveApi.mul gN (v / collapse (chs.map (·.challenge)) fun i => x ^ i)) = true :=
      (L.ctEq h3 (L.mul _ hgN)).2 (Or.inl rfl)
    have hchk : checkFinal gN (chs.map (·.challenge)) ((chs.map (·.challenge)).map (·⁻¹)) [x] [(P', v)]
        [v / collapse (chs.map (·.challenge)) fun i => x ^ i] = some true := by
      simp only [checkFinal, computeB_eq _ x hus, Option.bind_eq_bind, Option.bind_some, hct, not_true,
        if_false, div_mul_cancel₀ v hx, ne_eq]
    unfold MultiPolynomialOpening.verifyProof
    simp only [List.length_replicate, ne_eq, not_true, if_false, List.map_cons, List.map_nil, h4, hinv,
      Option.bind_eq_bind, Option.bind_some, hchk]

/-- With 16 generators that are not the identity, and the transcript of C43, the forger opens the identity to
7 and to 8 at the point 0. -/
example : ∃ (params : Params (Proj Fq)) (g : ℕ → Pt ((ec0.b : ℕ) : Fq)),
    letI := Proj.curveOps ec0 Fq Fp
    ValidParams (Denotes ((ec0.b : ℕ) : Fq)) g params ∧ (∀ i, g i ≠ 0) ∧
    ∀ v ∈ ([7, 8] : List Fp), ∃ (proof : MultiPolynomialOpening (Proj Fq) Fp) (packed : List Fp)
      (gNew : Proj Fq) (forks : List ℕ) (t' : Unit),
      proof.verifyProof (constTranscript Fq) [⟨Proj.zero, v, 0, false⟩] 4 () =
        some (true, packed, gNew, forks, t') := by
  obtain ⟨params, g, hp, -, h0⟩ := params_example (E := ec0) (F := Fq) (S := Fp) (k := 4) (by norm_num)
    (by norm_num)
  refine ⟨params, g, hp, h0, fun v _ => ?_⟩
  obtain ⟨us, -, h1, h2⟩ := C54_identity_opens_to_anything (E := ec0) (F := Fq) (S := Fp)
    (tr := constTranscript Fq)
    (fun t => (squareChallenge_const (E := ec0) t).imp fun _ h => squareChallenge_mono (by norm_num) h)
    (k := 4) (by norm_num) g false ()
  obtain ⟨proof, packed, gNew, forks, t', h3, -⟩ := h2 v 0 h1
  exact ⟨proof, packed, gNew, forks, t', h3⟩

/-! ### An accepted tree -/

/-- A transcript for the example: it ignores what it absorbs and always squeezes `c`. -/
def fixedTranscript (F : Type) [Field F] (c : ℕ) : Transcript Unit F where
  new := ()
  absorb _ _ := ()
  squeeze _ := some (c, ())

/-- the challenge that it gives -/
def fixedBits (c : ℕ) : BitVec 128 := BitVec.ofNat 128 c ||| (1#128 <<< 127)

omit [DecidableEq F] in
theorem fixed_challenge {c : ℕ} (hc : c < 2 ^ 128) (hsq : IsSquare (expandChallenge (fixedBits c) : S)) :
    ∃ ch : Challenge S, (∀ t, squareChallenge S (fixedTranscript F c) 256 t = some (ch, ())) ∧
      ch.challenge ^ 2 = expandChallenge (fixedBits c) := by
  have hF := (LawfulField.modulus_bound (F := F)).1
  have hS := (LawfulField.modulus_bound (F := S)).1
  have hpow : (2 : ℕ) ^ 128 ≤ 2 ^ 254 := Nat.pow_le_pow_right (by norm_num) (by norm_num)
  have e : FieldApi.lower128 ((c : ℕ) : F) = BitVec.ofNat 128 c := by
    apply BitVec.eq_of_toNat_eq
    rw [LawfulField.lower128_val, LawfulField.val_of_lt (by omega), BitVec.toNat_ofNat]
  have e3 : FieldApi.lower128 (FieldApi.fromU128 (fixedBits c) : S) = fixedBits c := by
    apply BitVec.eq_of_toNat_eq
    have := (fixedBits c).isLt
    rw [LawfulField.lower128_val, LawfulField.fromU128_eq, LawfulField.val_of_lt (by omega)]
    exact Nat.mod_eq_of_lt this
  have hg : ∀ t, getChallenge S (fixedTranscript F c) t = some (FieldApi.fromU128 (fixedBits c), ()) := by
    intro t
    simp only [getChallenge, fixedTranscript, e, Option.bind_eq_bind, Option.bind_some, fixedBits]
  obtain ⟨u, hu, huu⟩ := LawfulField.sqrt_some _ hsq
  have hu0 : u ≠ 0 := by
    rintro rfl
    rw [mul_zero] at huu
    exact Circuit.CurvePoint.expandChallenge_ne_zero _ huu.symm
  refine ⟨⟨u, u⁻¹, expandChallenge (fixedBits c), FieldApi.fromU128 (fixedBits c), 0⟩, fun t => ?_, by
    rw [← huu, sq]⟩
  apply squareChallenge_mono (fuel := 1) (by norm_num)
  simp only [squareChallenge, forkLoop, hg, Option.bind_eq_bind, Option.bind_some, getChallengeScalar, e3, hu,
      if_true, LawfulField.invert_eq _ hu0]

/-- 12, 20 and 28 give squares, which are different, and neither `-1` nor `-3/2`. -/
theorem fixed_check : ∃ y : Fin 3 → ℕ, ∀ i : Fin 3,
    let N := fun i : Fin 3 => expandN P fpConsts.betaRaw.toNat (fixedBits (12 + 8 * i))
    y i * y i % P = N i % P ∧ (N i + 1) % P ≠ 0 ∧ (2 * N i + 3) % P ≠ 0 ∧
      ∀ j, i ≠ j → N i % P ≠ N j % P :=
  ⟨![12345633927388332288408435851563522923562800519858532648854158327652633596991,
    9798722874272246737002148877067590251726564113398824747585663789254071087426,
    36193082578340896548169939771026088250863452014516359045969674940669577108408], by decide +kernel⟩

theorem fixed_scalars : ∃ ch : Fin 3 → Challenge Fp,
    (∀ (i : Fin 3) t, squareChallenge Fp (fixedTranscript Fq (12 + 8 * i)) 256 t = some (ch i, ())) ∧
    ∀ i, (ch i).Good ∧ (ch i).challenge ^ 2 + 1 ≠ 0 ∧ 2 * (ch i).challenge ^ 2 + 3 ≠ 0 ∧
      ∀ j, i ≠ j → (ch i).challenge ^ 2 ≠ (ch j).challenge ^ 2 := by
  have h : HaloCurve ec0 Fq Fp := inferInstance
  have hm : modulus Fp = P := fp_m
  have hb : LawfulField.val (FieldApi.beta : Fp) = fpConsts.betaRaw.toNat := Elem.beta_val
  obtain ⟨y, hy⟩ := fixed_check
  have hN : ∀ i : Fin 3, ((expandN P fpConsts.betaRaw.toNat (fixedBits (12 + 8 * i)) : ℕ) : Fp) =
      expandChallenge (fixedBits (12 + 8 * i)) := by
    intro i
    rw [← expandN_cast, hm, hb]
  have hsq : ∀ i : Fin 3, IsSquare (expandChallenge (fixedBits (12 + 8 * i)) : Fp) := by
    intro i
    refine ⟨(y i : Fp), ?_⟩
    rw [← hN, ← Nat.cast_mul, LawfulField.cast_eq_iff, hm]
    exact (hy i).1.symm
  choose ch hch hc using fun i : Fin 3 => fixed_challenge (F := Fq) (S := Fp) (c := 12 + 8 * i)
    (by have := i.isLt; omega) (hsq i)
  refine ⟨ch, hch, fun i => ⟨squareChallenge_good (hch i ()), ?_, ?_, fun j hij => ?_⟩⟩
  · rw [hc, ← hN]
    intro h0
    refine (hy i).2.1 ?_
    have := (LawfulField.cast_eq_iff (F := Fp)
      (expandN P fpConsts.betaRaw.toNat (fixedBits (12 + 8 * i)) + 1) 0).1
      (by push_cast; exact h0)
    rwa [hm] at this
  · rw [hc, ← hN]
    intro h0
    refine (hy i).2.2.1 ?_
    have := (LawfulField.cast_eq_iff (F := Fp)
      (2 * expandN P fpConsts.betaRaw.toNat (fixedBits (12 + 8 * i)) + 3) 0).1
      (by push_cast; exact h0)
    rwa [hm] at this
  · rw [hc, hc, ← hN, ← hN]
    intro h0
    refine (hy i).2.2.2 j hij ?_
    rw [LawfulField.cast_eq_iff, hm] at h0
    exact h0

omit [DecidableEq F] in
/-- the verifier, for one round and one instance -/
theorem verify_one_round {C G T : Type} [CurveOps C F S] [AddCommGroup G] [Module S G] {rep : C → G → Prop}
    (L : LawfulOps C F S G rep) {tr : Transcript T F} {ch : Challenge S} {t' : T}
    (hc : ∀ t, squareChallenge S tr 256 t = some (ch, t')) {p pL pR gN : C} {A Lo Hi γ : G} {v x l r a : S}
    {e : Bool} (hp : rep p A) (hL : rep pL Lo) (hR : rep pR Hi) (hg : rep gN γ)
    (h1 : A + ch.challenge ^ 2 • Lo + ch.challenge⁻¹ ^ 2 • Hi = a • γ)
    (h2 : v + l * ch.challenge ^ 2 + r * ch.challenge⁻¹ ^ 2 = a * (ch.challenge⁻¹ + ch.challenge * x)) (t : T) :
    (⟨[⟨[pL], [pR], [l], [r]⟩], [a], gN⟩ : MultiPolynomialOpening C S).verifyProof tr [⟨p, v, x, e⟩] 1 t =
      some (true, [ch.challengeSqPacked], gN, [ch.fork], t') := by
  have hg' := squareChallenge_good (hc t)
  have hct := (L.ctEq (L.add (L.add hp (L.mul (ch.challenge ^ 2) hL)) (L.mul (ch.challenge⁻¹ ^ 2) hR))
    (L.mul a hg)).2 (Or.inr h1)
  have he : (⟨[pL], [pR], [l], [r]⟩ : InnerProductRound C S).entries 1 = some [(pL, pR, l, r)] := rfl
  have hb : computeB x [ch.challenge] [ch.challenge⁻¹] = some (ch.challenge⁻¹ + ch.challenge * x) := rfl
  unfold MultiPolynomialOpening.verifyProof
  simp only [List.length_cons, List.length_nil, zero_add, ne_eq, not_true, if_false, List.map_cons, List.map_nil,
    verifyRounds, he, hc, Option.bind_eq_bind, Option.bind_some, List.zipWith_cons_cons, List.zipWith_nil_left,
    foldInstance, hg'.sq, hg'.inv, checkFinal, hb, hct, h2]

/-- The polynomial `2 + 3 X` with the opening 17 at 5: the messages of the honest prover and its answers to
three challenges make a tree that meets the hypotheses of `C54_extract_partial`. -/
example : ∃ (g : ℕ → Pt ((ec0.b : ℕ) : Fq)) (claim : PolynomialOpening (Proj Fq) Fp)
    (tree : Tree (Proj Fq) Fp 1),
    letI := Proj.curveOps ec0 Fq Fp
    letI := HaloCurve.module (E := ec0) (F := Fq) (S := Fp)
    claim.opening = 17 ∧ claim.point = 5 ∧ tree.Distinct ∧
    (∀ rounds us a gNew, Branch tree rounds us a gNew →
      Accepted (F := Fq) (Denotes ((ec0.b : ℕ) : Fq)) g [claim] 1 rounds us a gNew) ∧
    ∀ rounds us a gNew, Branch tree rounds us a gNew → ∃ A B,
      Denotes ((ec0.b : ℕ) : Fq) claim.commitment A ∧
        Folded (Denotes ((ec0.b : ℕ) : Fq)) 0 rounds us A B ∧ B ≠ 0 := by
  let := Proj.curveOps ec0 Fq Fp
  let := HaloCurve.module (E := ec0) (F := Fq) (S := Fp)
  have L := HaloCurve.lawfulOps (E := ec0) (F := Fq) (S := Fp)
  obtain ⟨A, -, hA0⟩ := one_denotes (E := ec0) (F := Fq) (S := Fp)
  obtain ⟨ch, hch, hg⟩ := fixed_scalars
  obtain ⟨P, hP⟩ := L.total ((5 : Fp) • A)
  obtain ⟨pL, hL⟩ := L.total ((2 : Fp) • A)
  obtain ⟨pR, hR⟩ := L.total ((3 : Fp) • A)
  choose gN hgN using fun i : Fin 3 => L.total (collapse [(ch i).challenge] fun _ => A)
  let round : InnerProductRound (Proj Fq) Fp := ⟨[pL], [pR], [10], [3]⟩
  let a : Fin 3 → Fp := fun i => 2 * (ch i).challenge + 3 * (ch i).challenge⁻¹
  have hB : ∀ i, (5 : Fp) • A + (ch i).challenge ^ 2 • (2 : Fp) • A + (ch i).challenge⁻¹ ^ 2 • (3 : Fp) • A =
      a i • ((ch i).challenge⁻¹ + (ch i).challenge) • A := by
    intro i
    have := (hg i).1.ne
    simp only [a, smul_smul, ← add_smul]
    congr 1
    field_simp
    ring
  have hcol : ∀ i, collapse [(ch i).challenge] (fun _ => A) =
      ((ch i).challenge⁻¹ + (ch i).challenge) • A := by
    intro i
    simp [collapse, add_smul]
  refine ⟨fun _ => A, ⟨P, 17, 5, false⟩, .node round (fun i => (ch i).challenge)
    (fun i => .leaf [a i] (gN i)), rfl, rfl, ⟨fun i j hij => (hg i).2.2.2 j hij, fun _ => trivial⟩, ?_, ?_⟩
  · rintro _ _ _ _ (_ | ⟨i, h⟩)
    cases h
    refine ⟨Unit, fixedTranscript Fq (12 + 8 * i), (), (), [(ch i).challengeSqPacked], [(ch i).fork], ?_, ?_,
      hgN i⟩
    · refine verify_one_round L (hch i) hP hL hR (hgN i) (by rw [hB i, hcol i]) ?_ ()
      have := (hg i).1.ne
      simp only [a]
      field_simp
      ring
    · exact .cons (by rw [(hg i).1.packed, (hg i).1.sqrt]) .nil
  · rintro _ _ _ _ (_ | ⟨i, h⟩)
    cases h
    refine ⟨_, _, hP, ⟨pL, pR, _, _, rfl, rfl, hL, hR, rfl⟩, ?_⟩
    rw [hB i, smul_smul]
    refine smul_ne_zero (mul_ne_zero ?_ ?_) hA0
    · have h0 := (hg i).1.ne
      intro h1
      apply (hg i).2.2.1
      have : 2 * (ch i).challenge ^ 2 + 3 = (ch i).challenge * a i := by
        simp only [a]; field_simp
      rw [this, h1, mul_zero]
    · have h0 := (hg i).1.ne
      intro h1
      apply (hg i).2.1
      have : (ch i).challenge ^ 2 + 1 = (ch i).challenge * ((ch i).challenge⁻¹ + (ch i).challenge) := by
        field_simp; ring
      rw [this, h1, mul_zero]

end Proofs
end Halo
