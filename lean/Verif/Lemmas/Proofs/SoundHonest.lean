import Verif.Lemmas.Proofs.SoundRun
/-!
# The honest prover as a function of its challenges

This is for the example beside C66.
-/
namespace Halo
namespace Proofs
open Circuit Util
set_option linter.unusedSectionVars false

section
variable {C F S G : Type} [Field F] [LawfulField F] [Field S] [DecidableEq S] [LawfulField S]
  [AddCommGroup G] [Module S G] [CurveOps C F S] {α : Type}

/-- Words that a transcript may return and that also are challenges for the rounds of the opening argument -/
structure Pool (F S : Type) [FieldApi F] [Field S] [FieldApi S] (N : ℕ) where
  word : Fin N → F
  pk : Fin N → S
  root : Fin N → S
  get : ∀ i, (FieldApi.fromU128 (FieldApi.lower128 (word i) ||| (1#128 <<< 127)) : S) = pk i
  sqrt : ∀ i, FieldApi.sqrt (getChallengeScalar (pk i) : S) = some (root i)
  ne : ∀ i, root i ≠ 0
  inj : ∀ i j, (getChallengeScalar (pk i) : S) = getChallengeScalar (pk j) → i = j

theorem Pool.getChallenge {N : ℕ} (p : Pool F S N) {f : ℕ → F} {t : ℕ} {i : Fin N} (h : f t = p.word i) :
    getChallenge S (scripted f) t = some (p.pk i, t + 1) := by
  simp only [Proofs.getChallenge, scripted, h, Option.bind_eq_bind, Option.bind_some, p.get]

theorem Pool.squareChallenge {N : ℕ} (p : Pool F S N) {f : ℕ → F} {t : ℕ} {i : Fin N} (h : f t = p.word i)
    {fuel : ℕ} (hf : 0 < fuel) : squareChallenge S (scripted f) fuel t =
      some (⟨p.root i, (p.root i)⁻¹, getChallengeScalar (p.pk i), p.pk i, 0⟩, t + 1) := by
  apply squareChallenge_mono (fuel := 1) (by omega)
  have hg := p.getChallenge h
  have e : ∀ v, (scripted f).absorb v t = t := fun _ => rfl
  simp only [Proofs.squareChallenge, forkLoop, e, hg, Option.bind_eq_bind, Option.bind_some, p.sqrt,
    if_true, LawfulField.invert_eq _ (p.ne i)]

theorem appendRound_scripted (f : ℕ → F) (es : List (C × C × S × S)) (t : ℕ) :
    appendRound (scripted f) es t = t := by
  unfold appendRound
  induction es with
  | nil => rfl
  | cons e es ih => rw [List.foldl_cons, appendPoint_scripted, appendPoint_scripted, appendScalar_scripted,
      appendScalar_scripted, ih]

/-- the vectors of the instances and the generators, in front of a round -/
abbrev RoundState (C S : Type) : Type := List (List S × List S) × List C

/-- one round, for the root `u` of the challenge -/
def foldStep (cpus k : ℕ) (st : RoundState C S) (u : S) : RoundState C S :=
  (st.1.map (foldVectors (2 ^ (k - 1)) ⟨u, u⁻¹, 0, 0, 0⟩),
    ((generatorCollapse cpus st.2 u u⁻¹).getD []).take (2 ^ (k - 1)))

/-- several rounds -/
def foldAll (cpus : ℕ) : ℕ → RoundState C S → List S → RoundState C S
  | _, st, [] => st
  | k, st, u :: us => foldAll cpus (k - 1) (foldStep cpus k st u) us

theorem foldAll_append (cpus : ℕ) : ∀ (pre : List S) (k : ℕ) (st : RoundState C S) (us : List S),
    foldAll cpus k st (pre ++ us) = foldAll cpus (k - pre.length) (foldAll cpus k st pre) us
  | [], _, _, _ => rfl
  | u :: pre, k, st, us => by
    simp only [List.cons_append, foldAll, List.length_cons]
    rw [foldAll_append cpus pre, Nat.sub_sub, Nat.add_comm 1]

/-- the message in a round -/
def rawRound (cpus : ℕ) (lnCeil : ℕ → ℕ) (k : ℕ) (st : RoundState C S) : InnerProductRound C S :=
  let es := (st.1.mapM (proveEntry cpus lnCeil (2 ^ (k - 1)) st.2)).getD []
  ⟨es.map (·.1), es.map (·.2.1), es.map (·.2.2.1), es.map (·.2.2.2)⟩

/-- the messages -/
def rawRounds (cpus : ℕ) (lnCeil : ℕ → ℕ) : ℕ → RoundState C S → List S → List (InnerProductRound C S)
  | _, _, [] => []
  | k, st, u :: us => rawRound cpus lnCeil k st :: rawRounds cpus lnCeil (k - 1) (foldStep cpus k st u) us

/-- The model's prover sends these messages. -/
theorem proveRounds_script {N : ℕ} (p : Pool F S N) {cpus fuel : ℕ} (hfuel : 0 < fuel) {lnCeil : ℕ → ℕ}
    {f : ℕ → F} : ∀ (is : List (Fin N)) {ab : List (List S × List S)} {gens : List C} {t : ℕ}
    (_ : ∀ (j : ℕ) (i : Fin N), is[j]? = some i → f (t + j) = p.word i) {rounds packed ab' gens' t'}
    (_ : proveRounds (scripted f) fuel cpus lnCeil is.length ab gens t = some (rounds, packed, ab', gens', t')),
    rounds = rawRounds cpus lnCeil is.length (ab, gens) (is.map p.root) ∧ packed = is.map p.pk ∧
      (ab', gens') = foldAll cpus is.length (ab, gens) (is.map p.root)
  | [], ab, gens, t, _, rounds, packed, ab', gens', t', h => by
    simp only [List.length_nil, proveRounds, Option.some.injEq, Prod.mk.injEq] at h
    obtain ⟨rfl, rfl, rfl, rfl, -⟩ := h
    exact ⟨rfl, rfl, rfl⟩
  | i :: is, ab, gens, t, hf, rounds, packed, ab', gens', t', h => by
    have hl : 1 <<< is.length = 2 ^ is.length := by rw [Nat.shiftLeft_eq, one_mul]
    have h0 : f t = p.word i := hf 0 i rfl
    simp only [List.length_cons, proveRounds, hl, Option.bind_eq_bind, Option.bind_eq_some_iff,
      appendRound_scripted, p.squareChallenge h0 hfuel, Option.some.injEq, exists_eq_left'] at h
    obtain ⟨es, hes, gens1, hg, ⟨rounds1, packed1, ab1, gens2, t2⟩, hr, hfin⟩ := h
    simp only [Prod.mk.injEq] at hfin
    obtain ⟨rfl, rfl, rfl, rfl, -⟩ := hfin
    obtain ⟨e1, e2, e3⟩ := proveRounds_script p hfuel is (fun j k hj => by
      have := hf (j + 1) k (by simpa using hj)
      rw [← this]; congr 1; omega) hr
    have hst : foldStep cpus (is.length + 1) (ab, gens) (p.root i) =
        (ab.map (foldVectors (2 ^ is.length)
          ⟨p.root i, (p.root i)⁻¹, getChallengeScalar (p.pk i), p.pk i, 0⟩), gens1.take (2 ^ is.length)) := by
      simp only [foldStep, Nat.add_sub_cancel, hg, Option.getD_some]
      rfl
    refine ⟨?_, by rw [e2, List.map_cons], ?_⟩
    · rw [List.length_cons, List.map_cons, rawRounds, hst, Nat.add_sub_cancel, ← e1]
      simp only [rawRound, Nat.add_sub_cancel, hes, Option.getD_some]
    · rw [List.length_cons, List.map_cons, foldAll, hst, Nat.add_sub_cancel, ← e3]

end

section
variable {C F S G : Type} [Field F] [LawfulField F] [Field S] [DecidableEq S] [LawfulField S]
  [AddCommGroup G] [Module S G] [CurveOps C F S] {α : Type}

/-- What determines the vectors of the prover -/
structure HonestData (S α : Type) where
  n : ℕ
  k : ℕ
  cpus : ℕ
  circuit : Var → Prog S α
  asg : Witness S
  yOld : S
  usOld : List S

variable (D : HonestData S α)

/-- the vectors of coefficients -/
def HonestData.rx : List S := rPoly D.n D.asg.wires
def HonestData.ky : List S := kPoly D.asg.inputs
def HonestData.sx (y : S) : List S := ((computeSx D.n D.circuit y).toOption).getD []
def HonestData.tx (y : S) : List S :=
  (multiplyPolynomials D.cpus D.rx (rPrime D.n (rxyPoly D.n D.rx y y⁻¹) (sPrime D.n (D.sx y) y y⁻¹))).getD []
def HonestData.tp (y : S) : List S := (D.tx y).drop (4 * D.n + 1)
def HonestData.tn (y : S) : List S := (D.tx y).take (4 * D.n)
def HonestData.sy (x : S) : List S := (((computeSy D.n D.circuit x).toOption).getD []).map (· * x ^ D.n)
def HonestData.gx : List S := (Mem.arr (2 ^ D.usOld.length) (sCoef D.usOld)).toList
def HonestData.px (y yNew z : S) : List S :=
  addTo ((addTo ((addTo ((addTo ((addTo ((addTo
    ((List.replicate (2 ^ D.k - D.rx.length) 0 ++ D.rx).map (· * z)) (D.sx D.yOld)).map (· * z)) (D.sx y)).map (· * z))
    (D.tp y)).map (· * z)) (D.tn y)).map (· * z)) (D.sx yNew)).map (· * z)) D.gx
def HonestData.qy (x z : S) : List S := addTo (D.sy x) (D.ky.map (· * z))

/-- the vectors with which the opening argument starts -/
def HonestData.ab (y x yNew z : S) : List (List S × List S) :=
  [((padInstance D.k false (D.px y yNew z)).getD [], pointPowers D.k x),
   ((padInstance D.k true D.rx).getD [], pointPowers D.k (x * y)),
   ((padInstance D.k false (D.sy x)).getD [], pointPowers D.k D.yOld),
   ((padInstance D.k false (D.qy x z)).getD [], pointPowers D.k y),
   ((padInstance D.k false (D.sy x)).getD [], pointPowers D.k yNew)]

open Classical in
/-- a point of the curve -/
noncomputable def onCurve (rep : C → G → Prop) (p : Option C) : C :=
  match p with
  | some p => if ∃ a, rep p a then p else CurveApi.zero
  | none => CurveApi.zero

theorem onCurve_some {rep : C → G → Prop} {p : C} (h : ∃ a, rep p a) : onCurve rep (some p) = p := by
  simp only [onCurve, if_pos h]

theorem rep_onCurve {rep : C → G → Prop} (h0 : rep CurveApi.zero 0) (p : Option C) :
    ∃ a, rep (onCurve rep p) a := by
  unfold onCurve
  split
  · split
    · assumption
    · exact ⟨0, h0⟩
  · exact ⟨0, h0⟩

open Classical in
/-- a message of points of the curve -/
noncomputable def guardRound (rep : C → G → Prop) (r : InnerProductRound C S) : InnerProductRound C S :=
  if (∀ q ∈ r.L, ∃ a, rep q a) ∧ ∀ q ∈ r.R, ∃ a, rep q a then r else ⟨[], [], [], []⟩

theorem guardRound_ok (rep : C → G → Prop) (r : InnerProductRound C S) :
    (∀ q ∈ (guardRound rep r).L, ∃ a, rep q a) ∧ ∀ q ∈ (guardRound rep r).R, ∃ a, rep q a := by
  unfold guardRound
  split
  · assumption
  · simp

/-- The honest prover. -/
noncomputable def honestProver (rep : C → G → Prop) (lnCeil : ℕ → ℕ) (params : Params C) (D : HonestData S α) :
    Prover C S where
  r := onCurve rep (params.commit D.cpus lnCeil D.rx true)
  sCur y := onCurve rep (params.commit D.cpus lnCeil (D.sx y) false)
  tPositive y := onCurve rep (params.commit D.cpus lnCeil (D.tp y) false)
  tNegative y := onCurve rep (params.commit D.cpus lnCeil (D.tn y) false)
  c _ x := onCurve rep (params.commit D.cpus lnCeil (D.sy x) false)
  sNew _ _ yNew := onCurve rep (params.commit D.cpus lnCeil (D.sx yNew) false)
  openings y x yNew := ⟨(params.computeOpening D.rx x true).getD 0, (params.computeOpening D.rx (x * y) true).getD 0,
    (params.computeOpening (D.sx D.yOld) x false).getD 0, (params.computeOpening (D.sx y) x false).getD 0,
    (params.computeOpening (D.tp y) x false).getD 0, (params.computeOpening (D.tn y) x false).getD 0,
    (params.computeOpening (D.sx yNew) x false).getD 0⟩
  round y x yNew z pre := guardRound rep (rawRound D.cpus lnCeil (D.k - pre.length)
    (foldAll D.cpus D.k (D.ab y x yNew z, params.generators) pre))
  last y x yNew z us :=
    (((foldAll D.cpus D.k (D.ab y x yNew z, params.generators) us).1.mapM fun ab => theOnly ab.1).getD [],
      onCurve rep (theOnly (foldAll D.cpus D.k (D.ab y x yNew z, params.generators) us).2))

theorem honestProver_onCurve {rep : C → G → Prop} (h0 : rep CurveApi.zero 0) (lnCeil : ℕ → ℕ) (params : Params C) :
    (honestProver rep lnCeil params D).OnCurve rep :=
  ⟨rep_onCurve h0 _, fun _ => rep_onCurve h0 _, fun _ => rep_onCurve h0 _, fun _ => rep_onCurve h0 _,
    fun _ _ => rep_onCurve h0 _, fun _ _ _ => rep_onCurve h0 _, fun _ _ _ _ _ => (guardRound_ok rep _).1,
    fun _ _ _ _ _ => (guardRound_ok rep _).2, fun _ _ _ _ _ => rep_onCurve h0 _⟩

theorem honestProver_rounds {rep : C → G → Prop} {lnCeil : ℕ → ℕ} {params : Params C} (y x yNew z : S) :
    ∀ us pre, (honestProver rep lnCeil params D).rounds y x yNew z pre us =
      (rawRounds D.cpus lnCeil (D.k - pre.length)
        (foldAll D.cpus D.k (D.ab y x yNew z, params.generators) pre) us).map (guardRound rep)
  | [], _ => rfl
  | u :: us, pre => by
    rw [Prover.rounds, honestProver_rounds y x yNew z us, rawRounds, List.map_cons, foldAll_append]
    simp only [honestProver, List.length_append, List.length_singleton, foldAll, Nat.sub_sub]

/-- **The model's prover is this one.** -/
theorem new_eq {N : ℕ} (p : Pool F S N) {rep : C → G → Prop} {fuel : ℕ} (hfuel : 0 < fuel) {lnCeil : ℕ → ℕ}
    {params : Params C} (hn : params.n = D.n) (hk : params.k = D.k) (hd : params.d = 2 ^ D.k)
    {old : Leftovers C S} (hy : old.yNew = D.yOld) (hus : Roots old.challengesSqPackedNew D.usOld) {a1 : α} {drv}
    (hsyn : Basic.synthesize proverBackend ⟨0, 0, ⟨[], [], []⟩, []⟩ D.circuit = .ok (a1, drv))
    (hasg : drv.backend = D.asg) {f : ℕ → F} {iy ix iyn iz : Fin N} {is : List (Fin N)} (his : is.length = D.k)
    (f0 : f 0 = p.word iy) (f1 : f 1 = p.word ix) (f2 : f 2 = p.word iyn) (f3 : f 3 = p.word iz)
    (f4 : ∀ (j : ℕ) (i : Fin N), is[j]? = some i → f (4 + j) = p.word i) {proof : Proof C S} {new : Leftovers C S}
    (h : Proof.new (scripted f) fuel D.cpus lnCeil params D.circuit old = .ok (proof, new))
    (hsh : ShapedProof rep params.k proof) :
    proof = (honestProver rep lnCeil params D).proof (p.pk iy) (p.pk ix) (p.pk iyn)
        (getChallengeScalar (p.pk iz)) (is.map p.root) ∧
      new.challengesSqPackedNew = is.map p.pk ∧ D.rx.length ≤ 2 ^ D.k ∧
      D.ky.length ≤ (D.sy (p.pk ix)).length := by
  have g0 := p.getChallenge f0
  have g1 := p.getChallenge f1
  have g2 := p.getChallenge f2
  have g3 := p.getChallenge f3
  have enew : (scripted f).new = 0 := rfl
  have hsx : ∀ {y : S} {sx : List S}, computeSx params.n D.circuit y = .ok sx → D.sx y = sx := by
    intro y sx h
    rw [HonestData.sx, ← hn, h]
    rfl
  have hsy : ∀ {x : S} {sy : List S}, computeSy params.n D.circuit x = .ok sy →
      D.sy x = sy.map (· * x ^ params.n) := by
    intro x sy h
    rw [HonestData.sy, ← hn, h]
    rfl
  have hrx : rPoly params.n drv.backend.wires = D.rx := by rw [HonestData.rx, hn, hasg]
  have hkyp : kPoly drv.backend.inputs = D.ky := by rw [HonestData.ky, hasg]
  unfold Proof.new at h
  simp only [bind_eq_ok, ofOption_eq_ok, ite_panic_eq_ok, Except.bind_error,
    expandChallenges_eq hus, Option.some.injEq, exists_eq_left', computeGCoeffs_eq D.usOld hus.ne,
    appendPoint_scripted, appendScalar_scripted, enew, g0, hsyn, Except.ok.injEq, hrx, hkyp] at h
  obtain ⟨-, -, sxO, hsxO, h⟩ := h
  obtain ⟨K, hK, R, hR, yi, hyi, sxC, hsxC, SC, hSC, tx, htx, htxl, TP, hTP, h⟩ := h
  obtain ⟨TN, hTN, -, ⟨x, t2⟩, hx, sy0, hsy0, Cc, hCc, ⟨yN, t3⟩, hyN, sxN, hsxN, SN, hSN, h⟩ := h
  obtain ⟨kyo, hkyo, tx0, htx0, htx0', rxo, hrxo, rxyo, hrxyo, sxOo, hsxOo, sxCo, hsxCo, h⟩ := h
  obtain ⟨tpo, htpo, tno, htno, sxNo, hsxNo, gxo, hgxo, b, hb, hgxb, ⟨zp, t4⟩, hz, hrxl, hkl, h⟩ := h
  obtain ⟨⟨ip, packed, gN, t5⟩, hip, hfin⟩ := h
  dsimp only at *
  have q1 := Option.some.inj (hx.symm.trans g1)
  simp only [Prod.mk.injEq] at q1
  obtain ⟨rfl, rfl⟩ := q1
  have q2 := Option.some.inj (hyN.symm.trans g2)
  simp only [Prod.mk.injEq] at q2
  obtain ⟨rfl, rfl⟩ := q2
  have q3 := Option.some.inj (hz.symm.trans g3)
  simp only [Prod.mk.injEq] at q3
  obtain ⟨rfl, rfl⟩ := q3
  rw [LawfulField.invert_eq _ (getChallenge_ne_zero g0)] at hyi
  obtain rfl := Option.some.inj hyi
  rw [hy] at hsxO
  obtain rfl := hsx hsxO
  obtain rfl := hsx hsxC
  obtain rfl := hsx hsxN
  rw [← hsy hsy0] at hCc hkl hip
  have htx' : D.tx (p.pk iy) = tx := by
    rw [HonestData.tx, ← hn, htx]
    rfl
  subst htx'
  have htp : List.drop (4 * params.n + 1) (D.tx (p.pk iy)) = D.tp (p.pk iy) := by rw [HonestData.tp, hn]
  have htn : List.take (4 * params.n) (D.tx (p.pk iy)) = D.tn (p.pk iy) := by rw [HonestData.tn, hn]
  have hgx : (Mem.arr (2 ^ D.usOld.length) (sCoef D.usOld)).toList = D.gx := rfl
  rw [htp] at hTP htpo hip
  rw [htn] at hTN htno hip
  rw [hgx] at hip
  cases hfin
  rw [not_lt] at hkl hrxl
  rw [hd] at hrxl
  unfold MultiPolynomialOpening.newProof at hip
  simp only [Option.bind_eq_bind, Option.bind_eq_some_iff, Option.some.injEq, Prod.mk.injEq] at hip
  obtain ⟨ab, hab, ⟨rounds, packed', ab', gens', t'⟩, hr, as, has, gl, hgl, rfl, rfl, rfl, rfl⟩ := hip
  have hab' : ab = D.ab (p.pk iy) (p.pk ix) (p.pk iyn) (getChallengeScalar (p.pk iz)) := by
    rw [mapM_some_iff] at hab
    simp only [List.forall₂_cons_left_iff, List.forall₂_nil_left_iff,
      Option.bind_eq_some_iff, Option.some.injEq] at hab
    obtain ⟨_, l1, ⟨v1, e1, rfl⟩, ⟨_, l2, ⟨v2, e2, rfl⟩, ⟨_, l3, ⟨v3, e3, rfl⟩, ⟨_, l4, ⟨v4, e4, rfl⟩,
      ⟨_, l5, ⟨v5, e5, rfl⟩, rfl, rfl⟩, rfl⟩, rfl⟩, rfl⟩, rfl⟩ := hab
    rw [hk] at e1 e2 e3 e4 e5
    obtain rfl := Option.some.inj (e3.symm.trans e5)
    rw [hd] at e1
    rw [hy]
    simp only [HonestData.ab, HonestData.px, HonestData.qy, e1, e2, e3, e4, hk, Option.getD_some]
  subst hab'
  rw [hk, ← his] at hr
  obtain ⟨r1, r2, r3⟩ := proveRounds_script p hfuel is f4 hr
  rw [his] at r1 r3
  refine ⟨?_, r2, hrxl, hkl⟩
  have hlast : (honestProver rep lnCeil params D).last (p.pk iy) (p.pk ix) (p.pk iyn) (getChallengeScalar (p.pk iz))
      (is.map p.root) = (as, gl) := by
    simp only [honestProver, ← r3, has, hgl, Option.getD_some, onCurve_some hsh.opening.g]
  have hrounds : (honestProver rep lnCeil params D).rounds (p.pk iy) (p.pk ix) (p.pk iyn)
      (getChallengeScalar (p.pk iz)) [] (is.map p.root) = rounds := by
    rw [honestProver_rounds]
    simp only [List.length_nil, Nat.sub_zero, foldAll]
    rw [← r1, List.map_congr_left (g := id), List.map_id]
    intro r hr
    exact if_pos (hsh.opening.points r hr)
  unfold Prover.proof
  rw [hlast, hrounds]
  simp only [honestProver, hR, hSC, hTP, hTN, hCc, hSN, hrxo, hrxyo, hsxOo, hsxCo, htpo, htno, hsxNo,
    Option.getD_some, onCurve_some hsh.r, onCurve_some hsh.sCur, onCurve_some hsh.tPositive,
    onCurve_some hsh.tNegative, onCurve_some hsh.c, onCurve_some hsh.sNew]
end

end Proofs
end Halo
