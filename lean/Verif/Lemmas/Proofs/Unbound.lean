import Verif.Lemmas.Proofs.SoundRun
/-!
# A proof for old leftovers that are chosen last
-/
namespace Halo
namespace Proofs
open Circuit Util
set_option linter.unusedSectionVars false

section
variable {T C F S G : Type} [Field F] [LawfulField F] [Field S] [DecidableEq S] [LawfulField S]
  [AddCommGroup G] [Module S G] [CurveOps C F S] {rep : C → G → Prop} {α : Type} {tr : Transcript T F}

theorem combine_mul (g : ℕ → G) (s : ℕ) (v : List S) (z : S) :
    combine g s (v.map (· * z)) = z • combine g s v := by
  simp only [combine, List.length_map, Finset.smul_sum, smul_smul]
  refine Finset.sum_congr rfl fun i hi => ?_
  have hi := Finset.mem_range.1 hi
  congr 1
  simp [List.getD, hi, mul_comm]

theorem combine_one (g : ℕ → G) (a : S) : combine g 0 [a] = a • g 0 := by
  simp [combine]

/-- the forged proof -/
def forged (Z SN : C) (tp : S) (ip : MultiPolynomialOpening C S) : Proof C S :=
  ⟨Z, Z, Z, Z, Z, SN, 0, 0, 0, 0, tp, 0, 0, ip⟩

theorem forge (L : LawfulOps C F S G rep) {fuel cpus : ℕ} (hcpus : 0 < cpus)
    {lnCeil : ℕ → ℕ} (hln : ∀ n, 32 ≤ n → n < 2 ^ 32 → 1 ≤ lnCeil n ∧ lnCeil n ≤ 57)
    (hfuel : fuel ≤ 256) (htr : ∀ t, ∃ r, squareChallenge S tr fuel t = some r)
    (hget : ∀ t, ∃ r, getChallenge S tr t = some r)
    {params : Params C} {g : ℕ → G} (hp : ValidParams rep g params)
    {circuit : Var → Prog S α} {s : System S} (hs : Shape circuit params.n s)
    (hq : s.lcs.length < 2 ^ params.k) {inputs : List S} (hin : inputs.length + 1 = s.inputs.length)
    {old : Leftovers C S} {A : G} (hso : rep old.sNewCommitment A) {us : List S}
    (hus : Roots old.challengesSqPackedNew us) (hlen : old.challengesSqPackedNew.length = params.k) :
    ∃ (gOld : C) (proof : Proof C S) (new : Leftovers C S) (d : Deferred S) (forks : List ℕ),
      proof.verify tr cpus lnCeil { old with gNew := gOld } params circuit inputs none = .ok (true, new, d, forks) ∧
      d.verify params.k = some true ∧ new.verify cpus lnCeil params circuit = .ok true ∧
      ValidLeftovers rep g params circuit new := by
  have hk := hp.k_le
  have hk' := hp.k_gt
  have h4n : 4 * params.n = 2 ^ params.k := by
    rw [hp.n_eq, show params.k = (params.k - 2) + 2 by omega, pow_add]
    simp [mul_comm]
  have hn0 : 0 < params.n := by rw [hp.n_eq]; positivity
  have hgl := hp.length
  have hus0 : us ≠ [] := by rw [← List.length_pos_iff, hus.length, hlen]; omega
  have hkl := (hs.kLength inputs).trans hq
  obtain ⟨a0, hsys⟩ := hs.system
  obtain ⟨dv, hdv, hrel⟩ := sim_inputMap.synthesize_of_system (b := [])
    ⟨.empty, rfl, rfl, rfl, rfl⟩ hsys trivial
  obtain ⟨K, hK, hKr⟩ := commit_rep L.toLawfulCurve hcpus hln hp.size hp.gens
    (v := kPoly (kInputs s inputs)) (by rw [hgl]; exact hkl) false
  let Z : C := CurveApi.zero
  obtain ⟨⟨y, t1⟩, hy⟩ := hget (appendPoint tr Z (appendPoint tr K tr.new))
  obtain ⟨⟨x, t2⟩, hx⟩ := hget (appendPoint tr Z (appendPoint tr Z (appendPoint tr Z t1)))
  obtain ⟨⟨yN, t3⟩, hyN⟩ := hget (appendPoint tr Z t2)
  have hy0 := getChallenge_ne_zero hy
  have hx0 := getChallenge_ne_zero hx
  obtain ⟨SN, hSN, hSNr⟩ := commit_rep L.toLawfulCurve hcpus hln hp.size hp.gens
    (v := sxVec params.n s.lcs yN) (by rw [hgl, sxVec_length]; omega) false
  have hky : params.computeOpening (kPoly (kInputs s inputs)) y false = some (opening (kPoly (kInputs s inputs)) y) := by
    rw [computeOpening_eq params (by rw [hgl]; exact hkl), combine_pow]
    simp [offset]
  set ky := opening (kPoly (kInputs s inputs)) y with hkyd
  let tp : S := -(ky * y ^ params.n) * x⁻¹
  obtain ⟨⟨z', t4⟩, hz⟩ := hget (appendScalar C tr (collapse us (x ^ ·)) (appendScalar C tr (0 : S)
    (appendScalar C tr (0 : S) (appendScalar C tr tp (appendScalar C tr (0 : S) (appendScalar C tr (0 : S)
    (appendScalar C tr (0 : S) (appendScalar C tr (0 : S) (appendScalar C tr ky (appendPoint tr SN t3))))))))))
  let z : S := getChallengeScalar z'
  let pO : S := (((((0 * z + 0) * z + 0) * z + tp) * z + 0) * z + 0) * z + collapse us (x ^ ·)
  obtain ⟨gO, hgO⟩ := L.total (pO • g 0 - z • (z • z • z • z • A + combine g 0 (sxVec params.n s.lcs yN)))
  let pr := forged Z SN tp ⟨[], [], Z⟩
  let cl := claims { old with gNew := gO } K pr (collapse us (x ^ ·)) ky y x yN z
  let vs : List (List S) := [[pO], [], [], (kPoly (kInputs s inputs)).map (· * z), []]
  have hv : ∀ i ∈ cl.zip vs, ValidClaim rep g params.k i.1 i.2 := by
    have hZ : rep Z 0 := L.zero
    have hnil : ∀ (x : S) (r : Bool), ValidClaim rep g params.k ⟨Z, 0, x, r⟩ [] := fun x r =>
      ⟨by simp, by simpa [combine] using hZ, by simp [combine]⟩
    simp only [cl, vs, claims, List.zip_cons_cons, List.zip_nil_right, List.forall_mem_cons, pr, forged]
    refine ⟨⟨by simp [Nat.one_le_two_pow], ?_, ?_⟩, hnil _ _, hnil _ _, ⟨by simpa using hkl, ?_, ?_⟩, hnil _ _, by simp⟩
    · have := L.add (L.mul z (L.add (L.mul z (L.add (L.mul z (L.add (L.mul z (L.add (L.mul z (L.add (L.mul z hZ) hso)) hZ)) hZ))
        hZ)) hSNr)) hgO
      convert this using 1
      simp only [offset, Bool.false_eq_true, if_false, combine_one]
      module
    · simp [offset, combine, pO]
    · have := L.add hZ (L.mul z hKr)
      convert this using 1
      simp only [offset, Bool.false_eq_true, if_false, combine_mul, zero_add]
    · simp only [offset, Bool.false_eq_true, if_false, combine_mul, combine_pow, hkyd, smul_eq_mul]
      ring
  obtain ⟨⟨ip, packed, gN, t5⟩, hip⟩ := newProof_some L.toReflOps hcpus hln hfuel htr (by omega) hgl hp.gens hv t4
  obtain ⟨forks, vs, hver, hpkl, hfl, hvs, hrepN, -⟩ := newProof_verify L.toReflOps hcpus hln hfuel (by omega)
    (by omega) hgl hp.gens hv hip
  have hvs0 : vs ≠ [] := by rw [← List.length_pos_iff, hvs.length, hpkl]; omega
  have hzip : (cl.zip [[pO], [], [], (kPoly (kInputs s inputs)).map (· * z), []]).map Prod.fst = cl := rfl
  rw [hzip] at hver
  have hil : inputs.length = dv.backend.length - 1 := by
    rw [hrel.inputs, List.length_map]; omega
  have hvalid : ValidLeftovers rep g params circuit ⟨SN, yN, gN, packed⟩ :=
    ⟨⟨_, hs.sx yN, by simpa [offset] using hSNr⟩, hpkl, vs, hvs, hrepN⟩
  refine ⟨gO, forged Z SN tp ip, ⟨SN, yN, gN, packed⟩, ⟨x, old.yNew, y, yN, ky, tp, 0, 0, 0, 0,
    old.challengesSqPackedNew, collapse us (x ^ ·), packed,
    collapse vs (x ^ ·), collapse vs ((x * y) ^ ·), collapse vs (old.yNew ^ ·), collapse vs (y ^ ·),
    collapse vs (yN ^ ·)⟩, forks, ?_, ?_, ?_, hvalid⟩
  · unfold Proof.verify
    simp only [hdv, Except.bind_ok, ne_eq, hil, not_true, if_false, hrel.inputs, forged, hK,
        ofOption, hy, hx, hyN, hky, expandChallenges_eq hus, computeB_eq us _ hus0, hz]
    have hver' := hver
    simp only [cl, claims, pr, forged] at hver'
    rw [hver']
    simp only [Except.bind_ok, expandChallenges_eq hvs, computeB_eq vs _ hvs0]
  · obtain ⟨b, h1, h2⟩ := verify_some (k := params.k) (d := ⟨x, old.yNew, y, yN, ky, tp, 0, 0, 0, 0,
      old.challengesSqPackedNew, collapse us (x ^ ·), packed,
      collapse vs (x ^ ·), collapse vs ((x * y) ^ ·), collapse vs (old.yNew ^ ·), collapse vs (y ^ ·),
      collapse vs (yN ^ ·)⟩) ⟨by omega, hx0, hy0, by rw [← List.length_pos_iff]; simp only [hlen]; omega,
        by rw [← List.length_pos_iff]; simp only [hpkl]; omega, (roots_iff _).1 ⟨us, hus⟩, (roots_iff _).1 ⟨vs, hvs⟩⟩
    rw [h1, h2.2 ⟨?_, ⟨us, hus, rfl⟩, ⟨vs, hvs, rfl, rfl, rfl, rfl, rfl⟩⟩]
    rw [DeferredRelation, ← hp.n_eq]
    simp only [tp]
    field_simp
    ring
  · obtain ⟨b, h1, h2⟩ := leftovers_verify_eq L hcpus hln hp (lo := ⟨SN, yN, gN, packed⟩) (hs.sx yN) hpkl hvs
      hSNr hrepN
    rw [h1, h2.2 ⟨.inr rfl, .inr (by simp [offset])⟩]

end
end Proofs
end Halo
