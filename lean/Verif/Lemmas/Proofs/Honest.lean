import Verif.Lemmas.Proofs.Relation
import Verif.Lemmas.Proofs.Deferred
import Verif.Lemmas.Satisfied
import Verif.Spec.Gadget
import Verif.Spec.ProverCheck
/-!
# Honest proofs are accepted
-/
namespace Halo
namespace Proofs
open Util Circuit

theorem bind_eq_ok {ε α β : Type} {x : Except ε α} {f : α → Except ε β} {b : β} :
    (x >>= f) = .ok b ↔ ∃ a, x = .ok a ∧ f a = .ok b := by
  cases x with
  | error e => simp [Except.bind_error]
  | ok a =>
    rw [Except.bind_ok]
    simp

theorem ofOption_eq_ok {α : Type} {x : Option α} {a : α} : ofOption x = .ok a ↔ x = some a := by
  cases x <;> simp [ofOption]

theorem ite_panic_eq_ok {β : Type} {p : Prop} [Decidable p] {f : Except Fail β} {b : β} :
    (if p then .error .panic else f) = .ok b ↔ ¬ p ∧ f = .ok b := by
  split <;> simp [*]

section inputs
variable {S : Type} [Field S]

/-- The constant one is the first public input. -/
theorem head_inputs {known : Bool} {α : Type} {circuit : Var → Prog S α} {a : α} {s : System S}
    (h : circuitSystem known circuit = .ok (a, s)) : s.inputs.head? = some (1, some 1) := by
  refine collect_inv (P := fun s : System S => s.inputs.head? = some (1, some 1)) ?_ ?_ ?_ ?_ _ h ?_
  · intro s v hs; rw [(fresh_inputs s v).1]; exact hs
  · intro s lc hs; exact hs
  · intro s v hs; exact hs
  · intro s v o hs
    simp only [System.expose, System.constrain, (fresh_inputs s v).1]
    rw [List.head?_append, hs]; rfl
  · rfl

theorem zip_publicInputs {known : Bool} {α : Type} {circuit : Var → Prog S α} {a : α} {s : System S}
    (h : circuitSystem known circuit = .ok (a, s)) {l : List (ℕ × S)}
    (hl : s.inputs = l.map fun p => (p.1, some p.2)) :
    (s.inputs.map fun p => p.1).zip (1 :: s.publicInputs) = l ∧
      s.publicInputs.length = s.inputs.length - 1 := by
  have hh := head_inputs h
  rw [hl] at hh
  cases l with
  | nil => simp at hh
  | cons p l =>
    simp only [List.map_cons, List.head?_cons, Option.some.injEq, Prod.mk.injEq] at hh
    have e : ∀ l : List (ℕ × S), (l.map Prod.fst).zip (l.map Prod.snd) = l := by
      intro l
      induction l with
      | nil => rfl
      | cons p l ih => rw [List.map_cons, List.map_cons, List.zip_cons_cons, ih]
    have := e (p :: l)
    rw [List.map_cons, List.map_cons, hh.2] at this
    rw [System.publicInputs, hl]
    simp only [List.map_cons, List.map_map, Function.comp_def, Option.getD_some, List.tail_cons,
      List.length_map, List.length_cons, Nat.add_sub_cancel, and_true]
    exact this

end inputs

section
variable {S G : Type} [Field S] [AddCommGroup G] [Module S G]

/-- The combination of the seven polynomials opened at `x` -/
theorem combine_px (g : ℕ → G) (z : S) {d : ℕ} {r a b c e f h : List S} (hr : r.length ≤ d)
    (ha : a.length ≤ d) (hb : b.length ≤ d) (hc : c.length ≤ d) (he : e.length ≤ d)
    (hf : f.length ≤ d) (hh : h.length ≤ d) :
    combine g 0 (addTo ((addTo ((addTo ((addTo ((addTo ((addTo
      ((List.replicate (d - r.length) 0 ++ r).map (· * z)) a).map (· * z)) b).map (· * z)) c).map
      (· * z)) e).map (· * z)) f).map (· * z)) h) =
    z • (z • (z • (z • (z • (z • combine g (d - r.length) r + combine g 0 a) + combine g 0 b) +
      combine g 0 c) + combine g 0 e) + combine g 0 f) + combine g 0 h := by
  have hl : (List.replicate (d - r.length) (0 : S) ++ r).length = d := by simp; omega
  rw [combine_addTo, combine_map_mul, combine_addTo, combine_map_mul, combine_addTo, combine_map_mul,
    combine_addTo, combine_map_mul, combine_addTo, combine_map_mul, combine_addTo, combine_map_mul,
    combine_replicate, zero_add] <;> simp only [addTo_length, List.length_map, hl] <;> assumption

theorem combine_sCoef (g : ℕ → G) (us : List S) :
    combine g 0 (Mem.arr (2 ^ us.length) (sCoef us)).toList = collapse us g := by
  rw [collapse_eq, combine, arr_toList]
  simp only [List.length_map, List.length_range]
  apply Finset.sum_congr rfl
  intro i hi
  have hi := Finset.mem_range.1 hi
  simp [List.getD, hi]

end

section
variable {T C F S G : Type} [Field F] [LawfulField F] [Field S] [DecidableEq S] [LawfulField S]
  [AddCommGroup G] [Module S G] [CurveOps C F S] {rep : C → G → Prop} {tr : Transcript T F}

omit [Field F] [LawfulField F] [Field S] [DecidableEq S] [LawfulField S] [AddCommGroup G] [Module S G]
  [CurveOps C F S] in
theorem or_bit_ne_zero (c : BitVec 128) : (c ||| (1#128 <<< 127)).toNat ≠ 0 := by
  intro h
  have : (c ||| (1#128 <<< 127)) = 0#128 := BitVec.eq_of_toNat_eq h
  have := congrArg (fun b : BitVec 128 => b.getLsbD 127) this
  simp at this

omit [DecidableEq S] in
/-- Challenges are not zero, since their bit 127 is set. -/
theorem getChallenge_ne_zero {t t' : T} {c : S} (h : getChallenge S tr t = some (c, t')) : c ≠ 0 := by
  simp only [getChallenge, Option.bind_eq_bind, Option.bind_eq_some_iff, Option.some.injEq,
    Prod.mk.injEq] at h
  obtain ⟨r, -, h, -⟩ := h
  rw [← h, LawfulField.fromU128_eq]
  intro h0
  have hm := (LawfulField.modulus_bound (F := S)).1
  have hlt : ((FieldApi.lower128 r.1 ||| (1#128 <<< 127)).toNat) < 2 ^ 254 :=
    lt_of_lt_of_le (BitVec.isLt _) (Nat.pow_le_pow_right (by norm_num) (by norm_num))
  have := LawfulField.val_of_lt (F := S) (hlt.trans hm)
  rw [h0, LawfulField.val_zero] at this
  exact or_bit_ne_zero _ this.symm

omit [LawfulField F] [DecidableEq S] [LawfulField S] in
/-- The five claims of the prover are true. -/
theorem claims_valid (L : ReflOps C F S G rep) {g : ℕ → G} {k : ℕ}
    {rx a b c e f h sy ky : List S} (hr : rx.length ≤ 2 ^ k) (ha : a.length ≤ 2 ^ k)
    (hb : b.length ≤ 2 ^ k) (hc : c.length ≤ 2 ^ k) (he : e.length ≤ 2 ^ k) (hf : f.length ≤ 2 ^ k)
    (hh : h.length ≤ 2 ^ k) (hsy : sy.length ≤ 2 ^ k) (hky : ky.length ≤ sy.length)
    {R A B P N Q H M K : C} (hR : rep R (combine g (offset (2 ^ k) true rx) rx))
    (hA : rep A (combine g 0 a)) (hB : rep B (combine g 0 b)) (hP : rep P (combine g 0 c))
    (hN : rep N (combine g 0 e)) (hQ : rep Q (combine g 0 f)) (hH : rep H (combine g 0 h))
    (hM : rep M (combine g 0 sy)) (hK : rep K (combine g 0 ky)) {x y yOld yNew z : S}
    (h1 : opening sy yOld = opening a x) (h2 : opening sy y = opening b x)
    (h3 : opening sy yNew = opening f x) {ro rxyo ao bo co eo fo ho ko : S}
    (hro : ro = combine (x ^ ·) (offset (2 ^ k) true rx) rx)
    (hrxyo : rxyo = combine ((x * y) ^ ·) (offset (2 ^ k) true rx) rx)
    (hao : ao = opening a x) (hbo : bo = opening b x) (hco : co = opening c x)
    (heo : eo = opening e x) (hfo : fo = opening f x) (hho : ho = opening h x)
    (hko : ko = opening ky y) :
    ∀ i ∈ ([(⟨CurveApi.add (CurveApi.mul (CurveApi.add (CurveApi.mul (CurveApi.add (CurveApi.mul
        (CurveApi.add (CurveApi.mul (CurveApi.add (CurveApi.mul (CurveApi.add (CurveApi.mul R z) A) z) B)
          z) P) z) N) z) Q) z) H,
        (((((ro * z + ao) * z + bo) * z + co) * z + eo) * z + fo) * z + ho, x, false⟩,
        addTo ((addTo ((addTo ((addTo ((addTo ((addTo
          ((List.replicate (2 ^ k - rx.length) 0 ++ rx).map (· * z)) a).map (· * z)) b).map (· * z))
          c).map (· * z)) e).map (· * z)) f).map (· * z)) h),
      (⟨R, rxyo, x * y, true⟩, rx), (⟨M, ao, yOld, false⟩, sy),
      (⟨CurveApi.add M (CurveApi.mul K z), bo + ko * z, y, false⟩, addTo sy (ky.map (· * z))),
      (⟨M, fo, yNew, false⟩, sy)] : List (PolynomialOpening C S × List S)),
      ValidClaim rep g k i.1 i.2 := by
  have pow0 : ∀ (v : List S) (x : S), combine (x ^ ·) 0 v = opening v x := fun v x => by
    rw [combine_pow, pow_zero, mul_one]
  intro i hi
  simp only [List.mem_cons, List.not_mem_nil, or_false] at hi
  rcases hi with rfl | rfl | rfl | rfl | rfl
  · refine ⟨?_, ?_, ?_⟩
    · simp only [addTo_length, List.length_map, List.length_append, List.length_replicate]; omega
    · show rep _ (combine g 0 _)
      rw [combine_px g z hr ha hb hc he hf hh]
      exact L.add (L.mul z (L.add (L.mul z (L.add (L.mul z (L.add (L.mul z (L.add (L.mul z
        (L.add (L.mul z hR) hA)) hB)) hP)) hN)) hQ)) hH
    · show _ = combine (x ^ ·) 0 _
      rw [combine_px (x ^ ·) z hr ha hb hc he hf hh]
      simp only [pow0, hro, hao, hbo, hco, heo, hfo, hho, smul_eq_mul, offset, if_true]
      ring
  · exact ⟨hr, hR, hrxyo⟩
  · exact ⟨hsy, hM, by rw [hao, ← h1]; exact (pow0 _ _).symm⟩
  · refine ⟨by simpa only [addTo_length] using hsy, ?_, ?_⟩
    · show rep _ (combine g 0 _)
      rw [combine_addTo _ _ _ _ (by simpa using hky), combine_map_mul]
      exact L.add hM (L.mul z hK)
    · show _ = combine (y ^ ·) 0 _
      rw [combine_addTo _ _ _ _ (by simpa using hky), combine_map_mul, pow0, pow0, h2, hbo, hko,
        smul_eq_mul, mul_comm z]
  · exact ⟨hsy, hM, by rw [hfo, ← h3]; exact (pow0 _ _).symm⟩

omit [LawfulField F] [DecidableEq S] [LawfulField S] in
/-- What is appended to a transcript depends only on the group element. -/
theorem appendPoint_congr (tr : Transcript T F) (L : ReflOps C F S G rep) {p q : C} {a : G}
    (hp : rep p a) (hq : rep q a) (t : T) : appendPoint tr p t = appendPoint tr q t := by
  have h := (L.getXy hp hq).2 rfl
  have key : ∀ p : C, appendPoint tr p t = tr.absorb ((CurveOps.getXy p).getD (0, 0)).2
      (tr.absorb ((CurveOps.getXy p).getD (0, 0)).1 t) := by
    intro p
    unfold appendPoint
    cases CurveOps.getXy p <;> rfl
  rw [key, key, h]

omit [DecidableEq S] in
/-- The two evaluators agree about `s(x, y)`. -/
theorem opening_sy {α : Type} {n : ℕ} {circuit : Var → Prog S α} {x y : S} {sx sy : List S}
    (hsx : computeSx n circuit y = .ok sx) (hsy : computeSy n circuit x = .ok sy) :
    opening (sy.map (· * x ^ n)) y = opening sx x := by
  obtain ⟨_, s, h1, -, rfl⟩ := computeSx_ok hsx
  obtain ⟨_, s', h2, hsc, rfl, hx⟩ := computeSy_ok hsy
  cases h1.symm.trans h2
  rw [opening_map_mul, opening_syVec, opening_sxVec hsc hx, mul_comm]

/-- The parts of a proof that the prover made -/
structure ShapedProof (rep : C → G → Prop) (k : ℕ) (π : Proof C S) : Prop where
  r : ∃ a, rep π.rCommitment a
  sCur : ∃ a, rep π.sCurCommitment a
  tPositive : ∃ a, rep π.tPositiveCommitment a
  tNegative : ∃ a, rep π.tNegativeCommitment a
  c : ∃ a, rep π.cCommitment a
  sNew : ∃ a, rep π.sNewCommitment a
  opening : ShapedOpening rep k 5 π.innerProduct

theorem honest (L : ReflOps C F S G rep) {fuel cpus : ℕ} (hcpus : 0 < cpus)
    {lnCeil : ℕ → ℕ} (hln : ∀ n, 32 ≤ n → n < 2 ^ 32 → 1 ≤ lnCeil n ∧ lnCeil n ≤ 57)
    (hfuel : fuel ≤ 256) {params : Params C} {g : ℕ → G} (hp : ValidParams rep g params) {α : Type}
    {circuit : Var → Prog S α} {old : Leftovers C S} (hold : ValidLeftovers rep g params circuit old)
    {proof : Proof C S} {new : Leftovers C S}
    (h : Proof.new tr fuel cpus lnCeil params circuit old = .ok (proof, new)) {a : α} {s : System S}
    (hs : circuitSystem true circuit = .ok (a, s)) {β : Type} {circuitV : Var → Prog S β} {b : β}
    {v : System S} (hv : circuitSystem false circuitV = .ok (b, v))
    (hpos : (v.inputs.map fun p => p.1) = s.inputs.map fun p => p.1) {cpus' : ℕ} (hcpus' : 0 < cpus')
    {lnCeil' : ℕ → ℕ} (hln' : ∀ n, 32 ≤ n → n < 2 ^ 32 → 1 ≤ lnCeil' n ∧ lnCeil' n ≤ 57) {kc : Option C}
    (hkc : ∀ K ∈ kc, rep K (combine g 0 (kPoly ((s.inputs.map fun p => p.1).zip (1 :: s.publicInputs))))) :
    ∃ d forks, proof.verify tr cpus' lnCeil' old params circuitV s.publicInputs kc =
        .ok (true, new, d, forks) ∧ forks.length = params.k ∧ WellFormedDeferred params.k d ∧
      TrueDeferred params.k d ∧ ValidLeftovers rep g params circuit new ∧ ShapedProof rep params.k proof := by
  obtain ⟨⟨sxO', hsxO', hrepO⟩, hlenO, us, hus, hrepG⟩ := hold
  have hk := hp.k_le
  have hk' := hp.k_gt
  have hn0 : 0 < params.n := by rw [hp.n_eq]; positivity
  have h4n : 4 * params.n = 2 ^ params.k := by
    rw [hp.n_eq, show params.k = (params.k - 2) + 2 by omega, pow_add]
    simp [mul_comm]
  have hgl := hp.length
  have hus0 : us ≠ [] := by
    rw [← List.length_pos_iff, hus.length, hlenO]; omega
  have husl : us.length = params.k := hus.length.trans hlenO
  have hcom := fun {w : List S} (hw : w.length ≤ 2 ^ params.k) (r : Bool) {P : C}
      (hP : params.commit cpus lnCeil w r = some P) =>
    show rep P (combine g (offset (2 ^ params.k) r w) w) by
      obtain ⟨P', h1, h2⟩ := commit_rep L.toLawfulCurve hcpus hln hp.size hp.gens (by rw [hgl]; exact hw) r
      rw [hP] at h1
      cases h1
      rw [← hgl]; exact h2
  have hop := fun {w : List S} (hw : w.length ≤ 2 ^ params.k) {x o : S}
      (ho : params.computeOpening w x false = some o) => show o = opening w x by
    rw [computeOpening_eq params (by rw [hgl]; exact hw), combine_pow] at ho
    simpa [offset] using ho.symm
  have hopR := fun {w : List S} (hw : w.length ≤ 2 ^ params.k) {x o : S}
      (ho : params.computeOpening w x true = some o) =>
      show o = combine (x ^ ·) (offset (2 ^ params.k) true w) w by
    rw [computeOpening_eq params (by rw [hgl]; exact hw), hgl] at ho
    exact (Option.some.inj ho).symm
  unfold Proof.new at h
  simp only [bind_eq_ok, ofOption_eq_ok, ite_panic_eq_ok, Except.bind_error,
    expandChallenges_eq hus, Option.some.injEq, exists_eq_left', computeGCoeffs_eq us hus.ne,
    computeB_eq us _ hus0] at h
  obtain ⟨⟨a1, drv⟩, hsyn, hn, hq, sxO, hsxO, h⟩ := h
  cases hsxO'.symm.trans hsxO
  obtain ⟨K, hK, R, hR, ⟨y, t1⟩, hy, yi, hyi, sxC, hsxC, SC, hSC, tx, htx, htxl, TP, hTP, h⟩ := h
  obtain ⟨TN, hTN, -, ⟨x, t2⟩, hx, sy0, hsy, Cc, hCc, ⟨yN, t3⟩, hyN, sxN, hsxN, SN, hSN, h⟩ := h
  obtain ⟨kyo, hkyo, tx0, htx0, htx0', rxo, hrxo, rxyo, hrxyo, sxOo, hsxOo, sxCo, hsxCo, h⟩ := h
  obtain ⟨tpo, htpo, tno, htno, sxNo, hsxNo, gxo, hgxo, hgxb, ⟨zp, t4⟩, hz, hrxl, hkl, h⟩ := h
  obtain ⟨⟨ip, packed, gN, t5⟩, hip, hfin⟩ := h
  dsimp only at *
  simp only [not_not] at hn hq htx0' htxl hgxb
  cases hfin
  have hx0 := getChallenge_ne_zero hx
  have hy0 := getChallenge_ne_zero hy
  rw [LawfulField.invert_eq _ hy0] at hyi
  cases hyi
  -- the circuit
  obtain ⟨s', hs', hrel⟩ := sim_prover.synthesize_ok (by exact ⟨.empty, rfl, rfl, rfl, rfl, rfl, rfl, rfl⟩)
    hsyn
  cases hs.symm.trans hs'
  obtain ⟨dv, hdv, hrelv⟩ := sim_inputMap.synthesize_of_system (b := [])
    (by exact ⟨.empty, rfl, rfl, rfl, rfl⟩) hv trivial
  obtain ⟨hzip, hpl⟩ := zip_publicInputs hs hrel.inputs
  have hwz : ∀ w : Var, s.gates < w.index → s.w w = 0 := hrel.inv.unused
  have hrx := rPoly_wiresOf params.n hwz
  rw [← hrel.wires] at hrx
  have hrxl : (rPoly params.n drv.backend.wires).length = 3 * params.n + 1 := by rw [hrx, rVec_length]
  have hsxl : ∀ {y : S} {sx : List S}, computeSx params.n circuit y = .ok sx →
      sx.length = 3 * params.n + 1 := by
    intro y sx h
    obtain ⟨_, s, -, -, rfl⟩ := computeSx_ok h
    exact sxVec_length _ _ _
  have hcl : ∀ {w : List S} {r : Bool} {P : C}, params.commit cpus lnCeil w r = some P →
      w.length ≤ 2 ^ params.k := by
    intro w r P h
    by_contra hlt
    rw [commit_none (by rw [hgl]; omega)] at h
    cases h
  have hsyl := hcl hCc
  have hgxl : (Mem.arr (2 ^ us.length) (sCoef us)).toList.length ≤ 2 ^ params.k := by simp [husl]
  rw [hp.d_eq] at hip
  obtain ⟨K', hK', hrK'⟩ : ∃ K', (kc = some K' ∨ kc = none ∧
      params.commit cpus' lnCeil' (kPoly drv.backend.inputs) false = some K') ∧
      rep K' (combine g 0 (kPoly drv.backend.inputs)) := by
    cases kc with
    | some c => exact ⟨c, .inl rfl, by rw [← hzip]; exact hkc c rfl⟩
    | none =>
      obtain ⟨P', h1, h2⟩ := commit_rep L.toLawfulCurve hcpus' hln' hp.size hp.gens
        (by rw [hgl]; exact hcl hK) false
      exact ⟨P', .inr ⟨rfl, h1⟩, h2⟩
  have hKK := appendPoint_congr tr L hrK' (hcom (hcl hK) false hK)
  obtain ⟨forks, vs, hver, hpkl, hfl, hvs, hrepN, hshape⟩ := newProof_verify L hcpus hln hfuel (by omega)
    (by omega) hgl hp.gens (claims_valid L (by omega) (by rw [hsxl hsxO]; omega)
      (by rw [hsxl hsxC]; omega) (by simp; omega) (by simp; omega) (by rw [hsxl hsxN]; omega) hgxl hsyl
      (not_lt.1 hkl) (hcom (by omega) true hR) hrepO
      (hcom (hcl hSC) false hSC) (hcom (hcl hTP) false hTP) (hcom (hcl hTN) false hTN)
      (hcom (hcl hSN) false hSN) (by rw [combine_sCoef]; exact hrepG) (hcom hsyl false hCc)
      hrK' (opening_sy hsxO hsy) (opening_sy hsxC hsy) (opening_sy hsxN hsy)
      (hopR (by omega) hrxo) (hopR (by omega) hrxyo) (hop (by rw [hsxl hsxO]; omega) hsxOo)
      (hop (hcl hSC) hsxCo) (hop (hcl hTP) htpo) (hop (hcl hTN) htno) (hop (hcl hSN) hsxNo)
      (hop hgxl hgxo) (hop (hcl hK) hkyo)) hip
  simp only [List.map_cons, List.map_nil] at hver
  have hvs0 : vs ≠ [] := by rw [← List.length_pos_iff, hvs.length, hpkl]; omega
  refine ⟨⟨x, old.yNew, y, yN, kyo, tpo, tno, sxCo, rxo, rxyo, old.challengesSqPackedNew, gxo, packed,
    collapse vs (x ^ ·), collapse vs ((x * y) ^ ·), collapse vs (old.yNew ^ ·), collapse vs (y ^ ·),
    collapse vs (yN ^ ·)⟩, forks, ?_, hfl, ⟨by omega, hx0, hy0, ?_, ?_, (roots_iff _).1 ⟨us, hus⟩,
      (roots_iff _).1 ⟨vs, hvs⟩⟩, ⟨?_, ⟨us, hus, hgxb⟩, ⟨vs, hvs, rfl, rfl, rfl, rfl, rfl⟩⟩,
      ⟨⟨sxN, hsxN, hcom (hcl hSN) false hSN⟩, hpkl, vs, hvs, hrepN⟩, ⟨_, hcom (by omega) true hR⟩,
      ⟨_, hcom (hcl hSC) false hSC⟩, ⟨_, hcom (hcl hTP) false hTP⟩, ⟨_, hcom (hcl hTN) false hTN⟩,
      ⟨_, hcom hsyl false hCc⟩, ⟨_, hcom (hcl hSN) false hSN⟩, hshape⟩
  · unfold Proof.verify
    have hil : s.publicInputs.length = dv.backend.length - 1 := by
      rw [hpl, hrelv.inputs, hpos]; simp
    rcases hK' with rfl | ⟨rfl, hK'⟩
    · simp only [hdv, Except.bind_ok, ne_eq, hil, not_true, if_false, hrelv.inputs, hpos, hzip, hKK,
        ofOption, hy, hx, hyN, hkyo, expandChallenges_eq hus, computeB_eq us _ hus0, ← hgxb, hz, hver,
        expandChallenges_eq hvs, computeB_eq vs _ hvs0]
    · simp only [hdv, Except.bind_ok, ne_eq, hil, not_true, if_false, hrelv.inputs, hpos, hzip, hKK,
        ofOption, hy, hx, hyN, hkyo, expandChallenges_eq hus, computeB_eq us _ hus0, ← hgxb, hz, hver,
        expandChallenges_eq hvs, computeB_eq vs _ hvs0, hK']
  · rw [← List.length_pos_iff]; simp only [hlenO]; omega
  · rw [← List.length_pos_iff]; simp only [hpkl]; omega
  · have hm := multiplyPolynomials_spec hcpus (rPoly params.n drv.backend.wires)
      (rPrime params.n (rxyPoly params.n (rPoly params.n drv.backend.wires) y y⁻¹)
        (sPrime params.n sxC y y⁻¹)) (by rw [← List.length_pos_iff]; omega)
      (by rw [← List.length_pos_iff, rPrime_length _ (sPrime_length (hsxl hsxC) _ _)]; omega)
      (by
        have : 2 ^ params.k ≤ 2 ^ 30 := Nat.pow_le_pow_right (by norm_num) hk
        rw [hrxl, rPrime_length _ (sPrime_length (hsxl hsxC) _ _)]; omega)
    rw [htx] at hm
    have := deferred_relation hn0 hrxl (hsxl hsxC) hx0 hy0 (Option.some.inj hm) htx0 htx0'
    have e : 2 ^ params.k - (3 * params.n + 1) = params.n - 1 := by omega
    rw [DeferredRelation, ← hp.n_eq]
    simp only
    rw [hopR (by omega) hrxo, hopR (by omega) hrxyo, hop (hcl hSC) hsxCo, hop (hcl hTP) htpo,
      hop (hcl hTN) htno, combine_pow, combine_pow]
    simp only [offset, if_true, hrxl, e]
    exact this

omit [DecidableEq S] [LawfulField S] in
/-- How far the constant coefficient is off -/
theorem violation_coeff {n : ℕ} {s : System S} (hin : s.InputsOk)
    (hwz : ∀ w : Var, s.gates < w.index → s.w w = 0) {l : List (ℕ × S)}
    (hl : s.inputs = l.map fun p => (p.1, some p.2))
    (hzip : (s.inputs.map fun p => p.1).zip (1 :: s.publicInputs) = l)
    {lcs : List (LC S)} (hlcs : lcs = s.lcs) (hsc : InScope n lcs) (hn : s.gates ≤ n) {y : S} (hy : y ≠ 0) :
    conv (fun i => (rVec n s.w).getD i 0) (fun i => (rPrimeVec n s.w lcs y).getD i 0) (4 * n) =
      opening (kPoly l) y * y ^ n + s.violation n y := by
  subst hlcs
  have hfst : l.map Prod.fst = s.inputs.map fun p => p.1 := by
    rw [hl, List.map_map]; rfl
  have hmem : ∀ p ∈ l, 1 ≤ p.1 ∧ p.1 ≤ s.lcs.length := fun p hp =>
    hin.range (p.1, some p.2) (by rw [hl]; exact List.mem_map.2 ⟨p, hp, rfl⟩)
  have hk : KOk l := ⟨by rw [hfst]; exact hin.sorted, fun p hp => by have := (hmem p hp).1; omega⟩
  have hgates : ∑ i ∈ Finset.range n, (s.w (.A (i + 1)) * s.w (.B (i + 1)) - s.w (.C (i + 1))) *
        (y ^ (i + 1) + (y ^ (i + 1))⁻¹) =
      ∑ i ∈ Finset.range s.gates, (s.w (.A (i + 1)) * s.w (.B (i + 1)) - s.w (.C (i + 1))) *
        (y ^ (i + 1) + (y ^ (i + 1))⁻¹) := by
    symm
    apply Finset.sum_subset (Finset.range_subset_range.2 hn)
    intro i _ hi
    rw [Finset.mem_range, not_lt] at hi
    rw [hwz (.A (i + 1)) (by simp [Var.index]; omega), hwz (.C (i + 1)) (by simp [Var.index]; omega)]
    ring
  rw [conv_const n s.w hsc hy, sum_mapIdx, hgates, System.violation, opening_kPoly hk fun p hp => (hmem p hp).2, hzip]
  simp only [mul_sub, Finset.sum_sub_distrib]
  ring

omit [Field S] [DecidableEq S] in
theorem bind_returns {A R : Type} {o : Option A} {f : A → Except Fail R} (hf : ∀ q, ∃ r, f q = .ok r) :
    (∃ r, (ofOption o >>= f) = .ok r) ↔ ∃ q, o = some q := by
  cases o with
  | none => simp [ofOption, bind, Except.bind]
  | some q =>
    obtain ⟨r, h⟩ := hf q
    simp [ofOption, bind, Except.bind, h]

/-- The prover checks its values at the first challenge. If they pass, it comes to the opening argument, and returns if that
does. -/
theorem prover_check (L : ReflOps C F S G rep) {cpus : ℕ} (hcpus : 0 < cpus)
    {lnCeil : ℕ → ℕ} (hln : ∀ n, 32 ≤ n → n < 2 ^ 32 → 1 ≤ lnCeil n ∧ lnCeil n ≤ 57)
    (hget : ∀ t, ∃ r, getChallenge S tr t = some r)
    {params : Params C} {g : ℕ → G} (hp : ValidParams rep g params) {α : Type}
    {circuit : Var → Prog S α} {old : Leftovers C S} (hold : ValidLeftovers rep g params circuit old)
    {a : α} {s : System S} (hs : circuitSystem true circuit = .ok (a, s)) {a0 : α} {s0 : System S}
    (hs0 : circuitSystem false circuit = .ok (a0, s0)) (hw : s0.wellScoped = true)
    (hgates : s0.gates = s.gates) (hlcs : s0.lcs = s.lcs) (hn : s.gates < params.n)
    (hq : s.lcs.length < params.d) :
    ∃ K R y t1, params.commit cpus lnCeil (kPoly ((s.inputs.map fun p => p.1).zip (1 :: s.publicInputs))) false = some K ∧
      params.commit cpus lnCeil (s.values params.n) true = some R ∧
      getChallenge S tr (appendPoint tr R (appendPoint tr K tr.new)) = some (y, t1) ∧ y ≠ 0 ∧
      (s.violation params.n y ≠ 0 → ∀ fuel, Proof.new tr fuel cpus lnCeil params circuit old = .error .panic) ∧
      (s.violation params.n y = 0 →
        ∃ (claims : List (PolynomialOpening C S × List S)) (t : T), (∀ i ∈ claims, ValidClaim rep g params.k i.1 i.2) ∧
        ∀ fuel, (∃ r, Proof.new tr fuel cpus lnCeil params circuit old = .ok r) ↔
          ∃ r, MultiPolynomialOpening.newProof tr fuel cpus lnCeil claims params.generators params.k t = some r) := by
  obtain ⟨⟨sxO, hsxO, hrepO⟩, hlenO, us, hus, hrepG⟩ := hold
  have hk := hp.k_le
  have hk' := hp.k_gt
  have hn0 : 0 < params.n := by rw [hp.n_eq]; positivity
  have h4n : 4 * params.n = 2 ^ params.k := by
    rw [hp.n_eq, show params.k = (params.k - 2) + 2 by omega, pow_add]
    simp [mul_comm]
  have hgl := hp.length
  have hus0 : us ≠ [] := by
    rw [← List.length_pos_iff, hus.length, hlenO]; omega
  have husl : us.length = params.k := hus.length.trans hlenO
  have hcom := fun (w : List S) (hw : w.length ≤ 2 ^ params.k) (r : Bool) =>
    show ∃ P, params.commit cpus lnCeil w r = some P ∧
        rep P (combine g (offset (2 ^ params.k) r w) w) by
      obtain ⟨P', h1, h2⟩ := commit_rep L.toLawfulCurve hcpus hln hp.size hp.gens (by rw [hgl]; exact hw) r
      rw [hgl] at h2
      exact ⟨P', h1, h2⟩
  have hop := fun (w : List S) (hw : w.length ≤ 2 ^ params.k) (x : S) =>
      show params.computeOpening w x false = some (opening w x) by
    rw [computeOpening_eq params (by rw [hgl]; exact hw), combine_pow]
    simp [offset]
  have hopR := fun (w : List S) (hw : w.length ≤ 2 ^ params.k) (x : S) =>
      show params.computeOpening w x true =
        some (combine (x ^ ·) (offset (2 ^ params.k) true w) w) by
    rw [computeOpening_eq params (by rw [hgl]; exact hw), hgl]
  obtain ⟨drv, hsyn, hrel⟩ := sim_prover.synthesize_of_system
    (b := (⟨0, 0, ⟨[], [], []⟩, []⟩ : Witness S))
    (by exact ⟨.empty, rfl, rfl, rfl, rfl, rfl, rfl, rfl⟩) hs trivial
  obtain ⟨hzip, hpl⟩ := zip_publicInputs hs hrel.inputs
  have hwz : ∀ w : Var, s.gates < w.index → s.w w = 0 := hrel.inv.unused
  have hrx := rPoly_wiresOf params.n hwz
  rw [← hrel.wires] at hrx
  have hin := inputsOk_circuit hs
  have hsc := (computeSx_of params.n (0 : S) hs0 hw).2
  have hsc' : InScope params.n s0.lcs := hsc.mono (by omega)
  have hsx : ∀ y : S, computeSx params.n circuit y = .ok (sxVec params.n s0.lcs y) := fun y =>
    (computeSx_of params.n y hs0 hw).1
  cases (hsx _).symm.trans hsxO
  have hsxl := fun y : S => sxVec_length params.n s0.lcs y
  have hd := hp.d_eq
  have hkyl : (kPoly drv.backend.inputs).length ≤ s.lcs.length + 1 := by
    have hfst : drv.backend.inputs.map Prod.fst = s.inputs.map fun p => p.1 := by
      rw [hrel.inputs, List.map_map]; rfl
    have hmem : ∀ p ∈ drv.backend.inputs, 1 ≤ p.1 ∧ p.1 ≤ s.lcs.length := fun p hp =>
      hin.range (p.1, some p.2) (by rw [hrel.inputs]; exact List.mem_map.2 ⟨p, hp, rfl⟩)
    have hk : KOk drv.backend.inputs :=
      ⟨by rw [hfst]; exact hin.sorted, fun p hp => by have := (hmem p hp).1; omega⟩
    rw [(kPoly_spec _ hk).2]
    cases hl : (drv.backend.inputs.map Prod.fst).getLast? with
    | none => simp
    | some i =>
      obtain ⟨p, hp, rfl⟩ := List.mem_map.1 (List.mem_of_getLast? hl)
      have := (hmem p hp).2
      simpa using this
  obtain ⟨K, hK, hKr⟩ := hcom (kPoly drv.backend.inputs) (by omega) false
  obtain ⟨R, hR, hRr⟩ := hcom (rVec params.n s.w) (by rw [rVec_length]; omega) true
  obtain ⟨⟨y, t1⟩, hy⟩ := hget (appendPoint tr R (appendPoint tr K tr.new))
  have hy0 := getChallenge_ne_zero hy
  obtain ⟨SC, hSC, hSCr⟩ := hcom (sxVec params.n s0.lcs y) (by rw [hsxl]; omega) false
  have hrpl := rPrimeVec_length params.n s.w s0.lcs y
  have hrl := rVec_length params.n s.w
  have hm := multiplyPolynomials_spec hcpus (rVec params.n s.w) (rPrimeVec params.n s.w s0.lcs y)
    (by rw [← List.length_pos_iff]; omega) (by rw [← List.length_pos_iff]; omega)
    (by
      have : 2 ^ params.k ≤ 2 ^ 30 := Nat.pow_le_pow_right (by norm_num) hk
      omega)
  have e7 : (rVec params.n s.w).length + (rPrimeVec params.n s.w s0.lcs y).length - 1 =
      7 * params.n + 1 := by omega
  rw [e7] at hm
  have htl : ((List.range (7 * params.n + 1)).map (conv (fun i => (rVec params.n s.w).getD i 0)
      fun i => (rPrimeVec params.n s.w s0.lcs y).getD i 0)).length = 7 * params.n + 1 := by simp
  have ht0 : ((List.range (7 * params.n + 1)).map (conv (fun i => (rVec params.n s.w).getD i 0)
      fun i => (rPrimeVec params.n s.w s0.lcs y).getD i 0))[4 * params.n]? =
      some (opening (kPoly drv.backend.inputs) y * y ^ params.n + s.violation params.n y) := by
    rw [List.getElem?_map, List.getElem?_range (by omega), Option.map_some,
      violation_coeff hin hwz hrel.inputs hzip hlcs hsc' (by omega) hy0]
  refine ⟨K, R, y, t1, by rw [hzip]; exact hK, hR, hy, hy0, ?_⟩
  generalize s.violation params.n y = viol at *
  generalize ((List.range (7 * params.n + 1)).map (conv (fun i => (rVec params.n s.w).getD i 0)
      fun i => (rPrimeVec params.n s.w s0.lcs y).getD i 0)) = tx at *
  obtain ⟨TP, hTP, hTPr⟩ := hcom (tx.drop (4 * params.n + 1)) (by rw [List.length_drop]; omega) false
  obtain ⟨TN, hTN, hTNr⟩ := hcom (tx.take (4 * params.n)) (by rw [List.length_take]; omega) false
  obtain ⟨⟨x, t2⟩, hx⟩ := hget (appendPoint tr TN (appendPoint tr TP (appendPoint tr SC t1)))
  have hx0 := getChallenge_ne_zero hx
  have hsy := computeSy_of hx0 hs0 hw (n := params.n) (by omega)
  have hsyl : ((syVec params.n s0.lcs x).map (· * x ^ params.n)).length = s.lcs.length + 1 := by
    simp [syVec, hlcs]
  obtain ⟨M, hM, hMr⟩ := hcom ((syVec params.n s0.lcs x).map (· * x ^ params.n)) (by omega) false
  obtain ⟨⟨yN, t3⟩, hyN⟩ := hget (appendPoint tr M t2)
  obtain ⟨SN, hSN, hSNr⟩ := hcom (sxVec params.n s0.lcs yN) (by rw [hsxl]; omega) false
  rw [rPrimeVec] at hm
  have hgxl : (Mem.arr (2 ^ us.length) (sCoef us)).toList.length ≤ 2 ^ params.k := by simp [husl]
  have hgx : opening (Mem.arr (2 ^ us.length) (sCoef us)).toList x = collapse us (x ^ ·) := by
    rw [← combine_sCoef, combine_pow, pow_zero, mul_one]
  have hnl := hrel.bn
  have hql := hrel.bq
  have hN := fun (z : S) =>
    (claims_valid L (z := z) (by omega) (by rw [hsxl]; omega) (by rw [hsxl]; omega)
      (by simp; omega) (by simp; omega) (by rw [hsxl]; omega) hgxl (by omega) (by omega) hRr hrepO
      hSCr hTPr hTNr hSNr (by rw [combine_sCoef]; exact hrepG) hMr hKr (opening_sy hsxO hsy)
      (opening_sy (hsx y) hsy) (opening_sy (hsx yN) hsy) rfl rfl rfl rfl rfl rfl rfl rfl rfl)
  choose gc hgc using hget
  rw [hd] at hq
  constructor
  · intro hne fuel
    unfold Proof.new
    simp only [hsyn, Except.bind_ok, hnl, hql, hn, hq, not_true, if_false, hsxO, ofOption,
      expandChallenges_eq hus, computeGCoeffs_eq us hus.ne, hK, hrx, hR, hy,
      LawfulField.invert_eq _ hy0, hsx, hSC, hm, ne_eq, htl, hTP, hTN, hgl.trans h4n.symm, hx, hsy, hM,
      hyN, hSN, hop (kPoly drv.backend.inputs) (by omega), ht0, hd, add_eq_left, hne, not_false_iff, if_true]
    rfl
  intro hzero
  rw [hzero, add_zero] at ht0
  apply Exists.intro
  apply Exists.intro
  refine And.intro ?_ fun fuel => ?_
  rotate_left 1
  unfold Proof.new
  simp only [hsyn, Except.bind_ok, hnl, hql, hn, hq, not_true, if_false, hsxO, ofOption,
    expandChallenges_eq hus, computeGCoeffs_eq us hus.ne, hK, hrx, hR, hy,
    LawfulField.invert_eq _ hy0, hsx, hSC, hm, ne_eq, htl, hTP, hTN, hgl.trans h4n.symm, hx, hsy, hM,
    hyN, hSN, hop (kPoly drv.backend.inputs) (by omega), ht0,
    hopR (rVec params.n s.w) (by omega), hop (sxVec params.n s0.lcs old.yNew) (by rw [hsxl]; omega),
    hop (sxVec params.n s0.lcs y) (by rw [hsxl]; omega),
    hop (tx.drop (4 * params.n + 1)) (by rw [List.length_drop]; omega),
    hop (tx.take (4 * params.n)) (by rw [List.length_take]; omega),
    hop (sxVec params.n s0.lcs yN) (by rw [hsxl]; omega), hop _ hgxl, hgx, computeB_eq us _ hus0,
    hd, show ¬ 2 ^ params.k < (rVec params.n s.w).length by omega,
    show ¬ ((syVec params.n s0.lcs x).map (· * x ^ params.n)).length <
      (kPoly drv.backend.inputs).length by omega]
  rw [← hgx]
  simp only [hgc, Except.bind_ok]
  apply bind_returns (o := MultiPolynomialOpening.newProof ..)
  rintro ⟨_, _, _, _⟩
  exact ⟨_, rfl⟩
  exact hN _

/-- The prover comes to the opening argument, and returns if that does. -/
theorem honest_opens (L : ReflOps C F S G rep) {cpus : ℕ} (hcpus : 0 < cpus)
    {lnCeil : ℕ → ℕ} (hln : ∀ n, 32 ≤ n → n < 2 ^ 32 → 1 ≤ lnCeil n ∧ lnCeil n ≤ 57)
    (hget : ∀ t, ∃ r, getChallenge S tr t = some r)
    {params : Params C} {g : ℕ → G} (hp : ValidParams rep g params) {α : Type}
    {circuit : Var → Prog S α} {old : Leftovers C S} (hold : ValidLeftovers rep g params circuit old)
    {a : α} {s : System S} (hs : circuitSystem true circuit = .ok (a, s)) {a0 : α} {s0 : System S}
    (hs0 : circuitSystem false circuit = .ok (a0, s0)) (hw : s0.wellScoped = true)
    (hgates : s0.gates = s.gates) (hlcs : s0.lcs = s.lcs) (hn : s.gates < params.n)
    (hq : s.lcs.length < params.d) (hsat : s.Satisfied s.w s.publicInputs) :
    ∃ (claims : List (PolynomialOpening C S × List S)) (t : T), (∀ i ∈ claims, ValidClaim rep g params.k i.1 i.2) ∧
      ∀ fuel, (∃ r, Proof.new tr fuel cpus lnCeil params circuit old = .ok r) ↔
        ∃ r, MultiPolynomialOpening.newProof tr fuel cpus lnCeil claims params.generators params.k t = some r := by
  obtain ⟨-, -, y, -, -, -, -, hy, -, h⟩ := prover_check L hcpus hln hget hp hold hs hs0 hw hgates hlcs hn hq
  refine h ?_
  have hpos : ∀ q ∈ Finset.range s.lcs.length, y ^ (q + 1) *
      ((s.lcs.getD q LC.zero).eval s.w - rhs ((s.inputs.map fun p => p.1).zip (1 :: s.publicInputs)) (q + 1)) = 0 := by
    intro q hq
    have hq := Finset.mem_range.1 hq
    rw [show s.lcs.getD q LC.zero = s.lcs[q] by simp [List.getD, hq], hsat.2 q s.lcs[q] (by simp [hq]), sub_self, mul_zero]
  rw [System.violation, Finset.sum_eq_zero hpos, Finset.sum_eq_zero, mul_zero, add_zero]
  intro i hi
  have := Finset.mem_range.1 hi
  rw [hsat.1 (i + 1) (by omega) (by omega), sub_self, zero_mul]

/-- The prover returns, if it finds its challenges. -/
theorem honest_some (L : ReflOps C F S G rep) {fuel cpus : ℕ} (hcpus : 0 < cpus)
    {lnCeil : ℕ → ℕ} (hln : ∀ n, 32 ≤ n → n < 2 ^ 32 → 1 ≤ lnCeil n ∧ lnCeil n ≤ 57)
    (hfuel : fuel ≤ 256) (htr : ∀ t, ∃ r, squareChallenge S tr fuel t = some r)
    (hget : ∀ t, ∃ r, getChallenge S tr t = some r)
    {params : Params C} {g : ℕ → G} (hp : ValidParams rep g params) {α : Type}
    {circuit : Var → Prog S α} {old : Leftovers C S} (hold : ValidLeftovers rep g params circuit old)
    {a : α} {s : System S} (hs : circuitSystem true circuit = .ok (a, s)) {a0 : α} {s0 : System S}
    (hs0 : circuitSystem false circuit = .ok (a0, s0)) (hw : s0.wellScoped = true)
    (hgates : s0.gates = s.gates) (hlcs : s0.lcs = s.lcs) (hn : s.gates < params.n)
    (hq : s.lcs.length < params.d) (hsat : s.Satisfied s.w s.publicInputs) :
    ∃ r, Proof.new tr fuel cpus lnCeil params circuit old = .ok r := by
  obtain ⟨claims, t, hv, h⟩ := honest_opens L hcpus hln hget hp hold hs hs0 hw hgates hlcs hn hq hsat
  have := hp.k_le
  exact (h fuel).2 (newProof_some L hcpus hln hfuel htr (by omega) hp.length hp.gens hv t)

end
end Proofs
end Halo
