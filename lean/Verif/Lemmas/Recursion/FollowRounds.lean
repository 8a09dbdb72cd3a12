import Verif.Lemmas.Recursion.Follow
import Verif.Lemmas.Proofs.Inner
import Verif.Lemmas.Gadget.EccCheat
import Verif.Spec.CheatCircuit
/-!
# The circuit follows the native verifier: the inner product argument
-/
set_option linter.unusedSectionVars false

namespace Halo
namespace Proofs
variable {T F S : Type} [Field F] [FieldApi F] [Field S] [DecidableEq S] [LawfulField S] {tr : Transcript T F}

omit [DecidableEq S] in
theorem forkLoop_fork {t : T} {fuel : ℕ} : ∀ {c : ℕ} {r}, forkLoop S tr t fuel (c : F) c = some r →
    r.1 = (r.2.1 : F) := by
  induction fuel with
  | zero => intro c r h; simp [forkLoop] at h
  | succ fuel ih =>
    intro c r hr
    rw [forkLoop] at hr
    cases hg : getChallenge S tr (tr.absorb (c : F) t) with
    | none => simp [hg] at hr
    | some p =>
      simp only [hg, Option.bind_eq_bind, Option.bind_some] at hr
      cases hs : FieldApi.sqrt (Util.getChallengeScalar p.1 : S) with
      | none =>
        simp only [hs] at hr
        exact ih (c := c + 1) (by push_cast; exact hr)
      | some u =>
        simp only [hs, Option.some.injEq] at hr
        subst hr
        rfl

theorem squareChallenge_fork {t t' : T} {fuel : ℕ} {ch : Challenge S}
    (hr : squareChallenge S tr fuel t = some (ch, t')) :
    getChallenge S tr (tr.absorb (ch.fork : F) t) = some (ch.challengeSqPacked, t') ∧ ch.fork < fuel := by
  unfold squareChallenge at hr
  cases hf : forkLoop S tr t fuel 0 0 with
  | none => simp [hf] at hr
  | some p =>
    obtain ⟨-, -, h3⟩ := forkLoop_some hf
    have h4 : p.1 = (p.2.1 : F) := forkLoop_fork (c := 0) (by simpa using hf)
    obtain ⟨f, c, packed, sq, u⟩ := p
    simp only at h3 h4
    simp only [hf, Option.bind_eq_bind, Option.bind_some] at hr
    cases hg : getChallenge S tr (tr.absorb f t) with
    | none => simp [hg] at hr
    | some q =>
      simp only [hg, Option.bind_some] at hr
      split at hr
      · rename_i he
        by_cases h0 : u = 0
        · simp [h0, LawfulField.invert_zero] at hr
        · rw [LawfulField.invert_eq _ h0] at hr
          simp only [Option.bind_some, Option.some.injEq, Prod.mk.injEq] at hr
          obtain ⟨rfl, rfl⟩ := hr
          refine ⟨?_, by simpa using h3⟩
          simp only [← h4, hg, ← he]
      · simp at hr

end Proofs

namespace Recursion
open Circuit Proofs
open Circuit.Sha256 (foldProg index)
variable {E : CurveConsts} {F S : Type} [Field F] [DecidableEq F] [LawfulField F] [Field S] [DecidableEq S]
  [LawfulField S] {w : Var → F} {one : Var} {N : Prop}

local notation s " ⋆ " A => LawfulField.val s • A

theorem PtOk.congr {P : CurvePoint F} {A B : Pt (E.b : F)} (h : PtOk N w P A) (e : N → A = B) : PtOk N w P B := by
  obtain ⟨A', hA, eA⟩ := h
  exact ⟨A', hA, fun n => (eA n).trans (e n)⟩

/-- An entry of a round -/
abbrev Entry (F S : Type) := Proj F × Proj F × S × S

/-- A witnessed entry of a round -/
def EntOk (N : Prop) (w : Var → F) (G : Pt (E.b : F)) (x : CurvePoint F × CurvePoint F × CurvePoint F × CurvePoint F)
    (e : Entry F S) : Prop :=
  (∃ A : Pt (E.b : F), Denotes (E.b : F) e.1 A ∧ PtOk N w x.1 A) ∧
  (∃ A : Pt (E.b : F), Denotes (E.b : F) e.2.1 A ∧ PtOk N w x.2.1 A) ∧
  PtOk N w x.2.2.1 (e.2.2.1 ⋆ G) ∧ PtOk N w x.2.2.2 (e.2.2.2 ⋆ G)

/-- A commitment and an opening -/
def PvOk (N : Prop) (w : Var → F) (G : Pt (E.b : F)) (x : CurvePoint F × CurvePoint F) (pv : Proj F × S) : Prop :=
  (∃ A : Pt (E.b : F), Denotes (E.b : F) pv.1 A ∧ PtOk N w x.1 A) ∧ PtOk N w x.2 (pv.2 ⋆ G)

/-- The entries of round `i` -/
def EntriesAre (proof : Option (RecursiveProof F S)) (i : ℕ) (G : Pt (E.b : F)) (es : List (Entry F S)) : Prop :=
  ∀ j, (h : j < es.length) → ∃ P Q, roundEntry E proof i j = .pure (es[j].1, es[j].2.1, P, Q) ∧
    (∃ A : Pt (E.b : F), Denotes (E.b : F) es[j].1 A) ∧ (∃ A : Pt (E.b : F), Denotes (E.b : F) es[j].2.1 A) ∧
    Denotes (E.b : F) P (es[j].2.2.1 ⋆ G) ∧ Denotes (E.b : F) Q (es[j].2.2.2 ⋆ G)

theorem witnessEntry_follow [HaloCurve E F S] (h1 : w one = 1) {proof : Option (RecursiveProof F S)} {i j : ℕ}
    {G : Pt (E.b : F)} (hG : Denotes (E.b : F) (Proj.one E) G) {es : List (Entry F S)}
    (he : EntriesAre proof i G es) (hj : j < es.length)
    {s : List (CurvePoint F × CurvePoint F × CurvePoint F × CurvePoint F) × RescueGadget F} {T : Rescue F}
    (ht : TrOk N h1 s.2 T) :
    letI := Proj.curveOps E F S
    Complete w (witnessEntry E one proof i s j) fun r => ∃ x, r.1 = s.1 ++ [x] ∧ EntOk N w G x es[j] ∧
      TrOk N h1 r.2 (appendRound Transcript.rescue [es[j]] T) := by
  let := Proj.curveOps E F S
  obtain ⟨P, Q, e, ⟨A, hA⟩, ⟨B, hB⟩, hP, hQ⟩ := he j hj
  rw [witnessEntry, e]
  have gc := HaloCurve.good E F S
  refine Complete.bind (P := fun r => r = (es[j].1, es[j].2.1, P, Q)) (by exact rfl) ?_
  rintro _ rfl
  refine Complete.bind (witness_follow (N := N) (S := S) h1 hA) fun L hL => ?_
  refine Complete.bind (witness_follow (N := N) (S := S) h1 hB) fun R hR => ?_
  refine Complete.bind (witness_follow (N := N) (S := S) h1 hP) fun l hl => ?_
  refine Complete.bind (witness_follow (N := N) (S := S) h1 hQ) fun r hr => ?_
  refine Complete.bind (commitPoint_follow (S := S) h1 ht hL hA) fun t ht => ?_
  refine Complete.bind (commitPoint_follow (S := S) h1 ht hR hB) fun t ht => ?_
  refine Complete.bind (commitPoint_follow (S := S) h1 ht hl (denotes_mul gc hG _)) fun t ht => ?_
  refine Complete.bind (commitPoint_follow (S := S) h1 ht hr (denotes_mul gc hG _)) fun t ht => ?_
  exact (complete_ret _ _).2 ⟨_, rfl, ⟨⟨A, hA, hL⟩, ⟨B, hB, hR⟩, hl, hr⟩, ht⟩

theorem witnessEntries_follow [HaloCurve E F S] (h1 : w one = 1) {proof : Option (RecursiveProof F S)} {i : ℕ}
    {G : Pt (E.b : F)} (hG : Denotes (E.b : F) (Proj.one E) G) {es : List (Entry F S)}
    (he : EntriesAre proof i G es) {t : RescueGadget F} {T : Rescue F} (ht : TrOk N h1 t T) :
    letI := Proj.curveOps E F S
    Complete w (foldProg (witnessEntry E one proof i) (List.range es.length) ([], t)) fun r =>
      List.Forall₂ (EntOk N w G) r.1 es ∧ TrOk N h1 r.2 (appendRound Transcript.rescue es T) := by
  let := Proj.curveOps E F S
  have := (Logic.complete w).foldProg (f := witnessEntry E one proof i) (xs := List.range es.length)
    (s := ([], t)) (fun i r => List.Forall₂ (EntOk N w G) r.1 (es.take i) ∧
      TrOk N h1 r.2 (appendRound Transcript.rescue (es.take i) T)) 0 ⟨.nil, ht⟩ ?_
  · simp only [zero_add, List.length_range, List.take_length] at this
    exact this
  · intro j x s hx hs
    obtain ⟨hj, rfl⟩ := List.getElem?_eq_some_iff.1 hx
    rw [List.length_range] at hj
    rw [zero_add] at hs ⊢
    rw [List.getElem_range]
    refine Complete.mono ?_ (witnessEntry_follow (S := S) h1 hG he hj hs.2)
    rintro r ⟨x, e, hx, ht⟩
    rw [List.take_succ_eq_append_getElem hj, e]
    refine ⟨List.rel_append hs.1 (.cons hx .nil), ?_⟩
    rw [appendRound, List.foldl_append]
    exact ht

theorem foldEntry_follow [HaloCurve E F S] (h1 : w one = 1) {G : Pt (E.b : F)}
    {bits : List AllocatedBit} {ch : Challenge S} (hc : ChOk N w bits ch.challengeSqPacked)
    (hg : N → ch.Good) {x : CurvePoint F × CurvePoint F} {pv : Proj F × S} (hx : PvOk N w G x pv)
    {y : CurvePoint F × CurvePoint F × CurvePoint F × CurvePoint F} {e : Entry F S} (hy : EntOk N w G y e) :
    letI := Proj.curveOps E F S
    Complete w (foldEntry E S one bits x y) fun r => PvOk N w G r (foldInstance ch pv e) := by
  let := Proj.curveOps E F S
  have gc := HaloCurve.good E F S
  obtain ⟨⟨A, hA, hp⟩, hv⟩ := hx
  obtain ⟨⟨B, hB, hL⟩, ⟨C, hC, hR⟩, hl, hr⟩ := hy
  have c1 : N → Util.getChallengeScalar ch.challengeSqPacked = ch.challengeSq := fun n => (hg n).packed
  have c2 : N → (Util.getChallengeScalar ch.challengeSqPacked)⁻¹ = ch.challengeInv ^ 2 := fun n => by
    rw [c1 n, (hg n).inv, (hg n).sq, inv_pow]
  refine Complete.bind (endo_follow h1 hL hc) fun L hL => ?_
  refine Complete.bind (invEndo_follow h1 hR hc) fun R hR => ?_
  refine Complete.bind (endo_follow h1 hl hc) fun l hl => ?_
  refine Complete.bind (invEndo_follow h1 hr hc) fun r hr => ?_
  refine Complete.bind (add_follow (S := S) h1 hp hL) fun p hp => ?_
  refine Complete.bind (add_follow (S := S) h1 hp hR) fun p hp => ?_
  refine Complete.bind (add_follow (S := S) h1 hv hl) fun v hv => ?_
  refine Complete.bind (add_follow (S := S) h1 hv hr) fun v hv => ?_
  refine (complete_ret _ _).2 ⟨⟨_, denotes_add gc (denotes_add gc hA (denotes_mul gc hB _)) (denotes_mul gc hC _),
    hp.congr fun n => ?_⟩, hv.congr fun n => ?_⟩
  · rw [c2 n, c1 n]
  · rw [c2 n, c1 n, foldInstance]
    simp only [HaloCurve.smul_add_scalar, ← HaloCurve.smul_mul_scalar, mul_comm]

theorem foldEntries_follow [HaloCurve E F S] (h1 : w one = 1) {G : Pt (E.b : F)}
    {bits : List AllocatedBit} {ch : Challenge S} (hc : ChOk N w bits ch.challengeSqPacked)
    (hg : N → ch.Good) : ∀ {x : List (CurvePoint F × CurvePoint F)} {pv : List (Proj F × S)}
    {y : List (CurvePoint F × CurvePoint F × CurvePoint F × CurvePoint F)} {es : List (Entry F S)},
    List.Forall₂ (PvOk N w G) x pv → List.Forall₂ (EntOk N w G) y es →
    letI := Proj.curveOps E F S
    Complete w (mapProg (fun e => foldEntry E S one bits e.1 e.2) (x.zip y)) fun r =>
      List.Forall₂ (PvOk N w G) r (List.zipWith (foldInstance ch) pv es)
  | _, _, _, _, .nil, _ => (Logic.complete w).ret .nil
  | _, _, _, _, .cons _ _, .nil => (Logic.complete w).ret .nil
  | _, _, _, _, .cons h hs, .cons k ks => by
    let := Proj.curveOps E F S
    exact Complete.bind (foldEntry_follow h1 hc hg h k) fun r hr =>
      Complete.bind (foldEntries_follow h1 hc hg hs ks) fun rs hrs => (complete_ret _ _).2 (.cons hr hrs)

/-- One round; if there is no proof then the fork value is not the one of a challenge. -/
theorem verifyRound_follow [HaloCurve E F S] (h1 : w one = 1) {c : VerificationCircuit F S} {i : ℕ}
    {G : Pt (E.b : F)} (hG : Denotes (E.b : F) (Proj.one E) G) {es : List (Entry F S)}
    (he : EntriesAre c.proof i G es) {s : RoundState F} {T T' : Rescue F}
    (hlen : es.length = s.pv.length) (ht : TrOk N h1 s.transcript T)
    {ch : Challenge S} {fs : List ℕ} (hfs : c.forkvalues = some fs) (hf : fs[i]? = some ch.fork)
    {fold : Fold F} {Q : List (CurvePoint F × CurvePoint F) → Prop}
    (hfold : ∀ bits y, List.Forall₂ (EntOk N w G) y es → ChOk N w bits ch.challengeSqPacked → (N → ch.Good) →
      Complete w (fold one i bits (s.pv.zip y)) Q)
    (hN : letI := Proj.curveOps E F S
      N → squareChallenge S Transcript.rescue 256 (appendRound Transcript.rescue es T) = some (ch, T')) :
    Complete w (verifyRoundWith E fold one c s i) fun s' => TrOk N h1 s'.transcript T' ∧ Q s'.pv ∧
      ∃ bits, s'.challenges = s.challenges ++ [bits] ∧ ChOk N w bits ch.challengeSqPacked := by
  let := Proj.curveOps E F S
  rw [verifyRoundWith, ← hlen]
  refine Complete.bind (witnessEntries_follow (S := S) h1 hG he ht) ?_
  rintro ⟨tmp, t⟩ ⟨htmp, ht⟩
  refine Complete.bind (P := fun r => r = .ok (FieldApi.fromU128 (BitVec.ofNat 128 ch.fork) : F)) ?_ ?_
  · rw [hfs]
    simp only [forkValue, index, hf]
    exact rfl
  rintro _ rfl
  refine Complete.bind (AllocatedNum.alloc_complete _) fun forkvalue hfv => ?_
  have hn : N → (Num.ofAllocated forkvalue).wire w = (ch.fork : F) := fun n => by
    rw [Num.wire_ofAllocated, hfv.2, LawfulField.fromU128_eq, BitVec.toNat_ofNat, Nat.mod_eq_of_lt]
    exact (squareChallenge_fork (hN n)).2.trans (by norm_num)
  refine Complete.bind (absorb_follow h1 ht (Num.honest_ofAllocated hfv.1) hn) fun t ht => ?_
  refine Complete.bind (getChallenge_follow h1 ht fun n => (squareChallenge_fork (hN n)).1) ?_
  rintro ⟨bits, t⟩ ⟨hbits, ht⟩
  refine Complete.bind (hfold bits tmp htmp hbits fun n => squareChallenge_good (hN n)) fun r hr => ?_
  exact (complete_ret _ _).2 ⟨ht, hr, bits, rfl, hbits⟩

/-- The commitments and openings after some rounds -/
def pvAfter (E : CurveConsts) : List (List (Entry F S)) → List (Challenge S) → List (Proj F × S) → List (Proj F × S)
  | es :: ess, ch :: chs, pv =>
    letI := Proj.curveOps E F S
    pvAfter E ess chs (List.zipWith (foldInstance ch) pv es)
  | _, _, pv => pv

/-- The transcript of some rounds -/
def RoundsRun (E : CurveConsts) : List (List (Entry F S)) → List (Challenge S) → Rescue F → Rescue F → Prop
  | es :: ess, ch :: chs, T, T' =>
    letI := Proj.curveOps E F S
    ∃ T1, squareChallenge S Transcript.rescue 256 (appendRound Transcript.rescue es T) = some (ch, T1) ∧
      RoundsRun E ess chs T1 T'
  | _, _, T, T' => T' = T

theorem verifyRounds_follow [HaloCurve E F S] (h1 : w one = 1) {c : VerificationCircuit F S}
    {G : Pt (E.b : F)} (hG : Denotes (E.b : F) (Proj.one E) G) {fs : List ℕ} (hfs : c.forkvalues = some fs)
    {fold : Fold F} {Q : ℕ → List (CurvePoint F × CurvePoint F) → Prop} {m : ℕ}
    (hm : ∀ j x, Q j x → x.length = m) :
    ∀ {ess : List (List (Entry F S))} {chs : List (Challenge S)} {i : ℕ} {s : RoundState F} {T T' : Rescue F},
    ess.length = chs.length → (∀ es ∈ ess, es.length = m) →
    (∀ j, (h : j < ess.length) → EntriesAre c.proof (i + j) G ess[j]) →
    (∀ j, (h : j < chs.length) → fs[i + j]? = some chs[j].fork) →
    (∀ j, (h : j < ess.length) → (h' : j < chs.length) → ∀ bits x y, Q (i + j) x →
      List.Forall₂ (EntOk N w G) y ess[j] → ChOk N w bits chs[j].challengeSqPacked → (N → chs[j].Good) →
      Complete w (fold one (i + j) bits (x.zip y)) (Q (i + j + 1))) →
    Q i s.pv → TrOk N h1 s.transcript T → (N → RoundsRun E ess chs T T') →
    Complete w (foldProg (verifyRoundWith E fold one c) (List.range' i ess.length) s) fun s' =>
      TrOk N h1 s'.transcript T' ∧ Q (i + ess.length) s'.pv ∧
      ∃ cs, s'.challenges = s.challenges ++ cs ∧
        List.Forall₂ (fun bits (ch : Challenge S) => ChOk N w bits ch.challengeSqPacked) cs chs := by
  intro ess
  induction ess with
  | nil =>
    intro chs i s T T' hl _ _ _ _ hpv ht hN
    obtain rfl : chs = [] := List.length_eq_zero_iff.1 hl.symm
    refine (complete_ret _ _).2 ⟨?_, hpv, [], by simp, .nil⟩
    obtain ⟨st, h, hT⟩ := ht
    exact ⟨st, h, fun n => by
      have : T' = T := hN n
      rw [this]; exact hT n⟩
  | cons es ess ih =>
    intro chs i s T T' hl hlen he hf hfold hpv ht hN
    let := Proj.curveOps E F S
    obtain ⟨ch, chs, rfl⟩ : ∃ ch chs', chs = ch :: chs' := by
      cases chs with
      | nil => simp at hl
      | cons ch chs => exact ⟨ch, chs, rfl⟩
    have hl' : es.length = s.pv.length := by rw [hlen es (by simp), hm i _ hpv]
    obtain ⟨T1, hT1⟩ : ∃ T1, N → squareChallenge S Transcript.rescue 256 (appendRound Transcript.rescue es T) =
        some (ch, T1) ∧ RoundsRun E ess chs T1 T' := by
      by_cases n : N
      · obtain ⟨T1, h⟩ := hN n
        exact ⟨T1, fun _ => h⟩
      · exact ⟨T, fun h => absurd h n⟩
    refine Complete.bind (verifyRound_follow (es := es) (ch := ch) h1 hG (he 0 (by simp)) hl' ht hfs (hf 0 (by simp))
      (fun bits y hy hb hg => hfold 0 (by simp) (by simp) bits s.pv y hpv hy hb hg) fun n => (hT1 n).1) ?_
    rintro s' ⟨ht', hpv', bits, hc, hb⟩
    refine Complete.mono ?_ (ih (i := i + 1) (by simpa using hl) (fun es' h => hlen es' (by simp [h])) (fun j h => ?_)
      (fun j h => ?_) (fun j h h' bits x y hx hy hb hg => ?_) hpv' ht' fun n => (hT1 n).2)
    · rintro s'' ⟨a, b, cs, hcs, hcs'⟩
      refine ⟨a, ?_, bits :: cs, by rw [hcs, hc]; simp, .cons hb hcs'⟩
      rw [List.length_cons, show i + (ess.length + 1) = i + 1 + ess.length by omega]
      exact b
    · have := he (j + 1) (by simpa using h)
      rwa [show i + (j + 1) = i + 1 + j by omega] at this
    · have := hf (j + 1) (by simpa using h)
      rwa [show i + (j + 1) = i + 1 + j by omega] at this
    · have := hfold (j + 1) (by simpa using h) (by simpa using h') bits x y
        (by rwa [show i + (j + 1) = i + 1 + j by omega]) hy hb hg
      rwa [show i + (j + 1) = i + 1 + j by omega] at this

/-- A point with these coordinates, those of the given point if `N` -/
def XyOk (N : Prop) (w : Var → F) (P : CurvePoint F) (A : Pt (E.b : F)) : Prop :=
  ∃ c, CurvePoint.HonestXy w P c ∧ (N → c = coordinates A)

theorem PtOk.xy {P : CurvePoint F} {A : Pt (E.b : F)} (h : PtOk N w P A) : XyOk N w P A := by
  obtain ⟨A', hA, e⟩ := h
  exact ⟨_, hA.xy, fun n => by rw [e n]⟩

/-- This way of folding leads to points that pass the final check. -/
def Folds (N : Prop) (w : Var → F) (one : Var) (fold : Fold F) (G GN : Pt (E.b : F))
    (ess : List (List (Entry F S))) (chs : List (Challenge S)) (ins : List ((Proj F × S) × S)) (as : List S) : Prop :=
  ∃ Q : ℕ → List (CurvePoint F × CurvePoint F) → Prop,
    (∀ x, List.Forall₂ (PvOk N w G) x (ins.map (·.1)) → Q 0 x) ∧
    (∀ j x, Q j x → x.length = ins.length) ∧
    (∀ j, (h : j < ess.length) → (h' : j < chs.length) → ∀ bits x y, Q j x →
      List.Forall₂ (EntOk N w G) y ess[j] → ChOk N w bits chs[j].challengeSqPacked → (N → chs[j].Good) →
      Complete w (fold one j bits (x.zip y)) (Q (j + 1))) ∧
    (∀ x, Q ess.length x → ∀ j, (h : j < x.length) → ∀ y a, (ins.map (·.2))[j]? = some y → as[j]? = some a →
      XyOk N w x[j].1 (a ⋆ GN) ∧ XyOk N w x[j].2 ((a * y) ⋆ G))

theorem pvAfter_length : ∀ {ess : List (List (Entry F S))} {chs : List (Challenge S)} {pv : List (Proj F × S)},
    (∀ es ∈ ess, es.length = pv.length) → (pvAfter E ess chs pv).length = pv.length
  | [], _, _, _ => by simp [pvAfter]
  | _ :: _, [], _, _ => by simp [pvAfter]
  | es :: ess, ch :: chs, pv, h => by
    let := Proj.curveOps E F S
    have e : (List.zipWith (foldInstance ch) pv es).length = pv.length := by
      rw [List.length_zipWith, h es (by simp), min_self]
    rw [pvAfter, pvAfter_length fun es' h' => by rw [h es' (by simp [h']), e], e]

theorem pvAfter_take : ∀ {ess : List (List (Entry F S))} {chs : List (Challenge S)} {pv : List (Proj F × S)} {j : ℕ}
    (h : j < ess.length) (h' : j < chs.length),
    letI := Proj.curveOps E F S
    pvAfter E (ess.take (j + 1)) (chs.take (j + 1)) pv =
      List.zipWith (foldInstance chs[j]) (pvAfter E (ess.take j) (chs.take j) pv) ess[j]
  | [], _, _, _, h, _ => absurd h (by simp)
  | _ :: _, [], _, _, _, h' => absurd h' (by simp)
  | _ :: _, _ :: _, _, 0, _, _ => by simp [pvAfter]
  | es :: ess, ch :: chs, pv, j + 1, h, h' => by
    simp only [List.take_succ_cons, pvAfter, List.getElem_cons_succ]
    exact pvAfter_take (by simpa using h) (by simpa using h')

/-- If the native verifier ends with points that pass the final check then so does the way of the code. -/
theorem folds_real [HaloCurve E F S] (h1 : w one = 1) {G GN : Pt (E.b : F)} {ess : List (List (Entry F S))}
    {chs : List (Challenge S)} {ins : List ((Proj F × S) × S)} {as : List S} (hl : ess.length = chs.length)
    (hlen : ∀ es ∈ ess, es.length = ins.length)
    (hfinal : N → ∀ (j : ℕ) p v (y a : S), (pvAfter E ess chs (ins.map (·.1)))[j]? = some (p, v) →
      (ins.map (·.2))[j]? = some y → as[j]? = some a → Denotes (E.b : F) p (a ⋆ GN) ∧ v = a * y) :
    Folds N w one (realFold E S) G GN ess chs ins as := by
  let := Proj.curveOps E F S
  refine ⟨fun j x => List.Forall₂ (PvOk N w G) x (pvAfter E (ess.take j) (chs.take j) (ins.map (·.1))), ?_, ?_, ?_, ?_⟩
  · intro x hx
    simpa [pvAfter] using hx
  · intro j x hx
    rw [hx.length_eq, pvAfter_length fun es h => by
      rw [List.length_map]; exact hlen es (List.mem_of_mem_take h), List.length_map]
  · intro j h h' bits x y hx hy hb hg
    beta_reduce
    rw [pvAfter_take h h']
    exact foldEntries_follow h1 hb hg hx hy
  · intro x hx j hj y a hy ha
    rw [List.take_length, hl, List.take_length] at hx
    have hj' : j < (pvAfter E ess chs (ins.map (·.1))).length := by rw [← hx.length_eq]; exact hj
    obtain ⟨⟨A, hA, hP⟩, hV⟩ := (List.forall₂_iff_get.1 hx).2 j hj hj'
    simp only [List.get_eq_getElem] at hA hP hV
    have := fun n => hfinal n j _ _ _ _ (List.getElem?_eq_getElem hj') hy ha
    simp only [List.get_eq_getElem] at this
    exact ⟨(hP.congr fun n => denotes_unique hA (this n).1).xy, (hV.congr fun n => by rw [(this n).2]).xy⟩

end Recursion
end Halo
