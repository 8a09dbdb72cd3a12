import Verif.Lemmas.Recursion.FollowRounds
/-!
# The circuit follows the native verifier: the whole proof
-/
set_option linter.unusedSectionVars false

namespace Halo
namespace Recursion
open Circuit Proofs
open Circuit.Sha256 (foldProg index)
variable {E : CurveConsts} {F S : Type} [Field F] [DecidableEq F] [LawfulField F] [Field S] [DecidableEq S]
  [LawfulField S] {w : Var → F} {one : Var} {N : Prop}

local notation s " ⋆ " A => LawfulField.val s • A

theorem forEach_follow {α : Type} {f : α → Prog F Unit} {xs : List α}
    (h : ∀ x ∈ xs, Complete w (f x) fun _ => True) : Complete w (foldProg (fun _ x => f x) xs ()) fun _ => True := by
  have := (Logic.complete w).foldProg (f := fun (_ : Unit) x => f x) (xs := xs) (s := ()) (fun _ _ => True) 0
    trivial (fun i x _ hx _ => h x (List.mem_of_getElem? hx))
  exact this

theorem allocBits_follow (vs : List Bool) : Complete w (mapProg (fun b => AllocatedBit.alloc (F := F) (.ok b)) vs)
    fun bits => List.Forall₂ (fun b v => b.Honest w v) bits vs := by
  refine Logic.mono (Logic.complete w) ((Logic.complete w).mapProg
    (f := fun b => AllocatedBit.alloc (.ok b)) (P := fun (v : Bool) (b : AllocatedBit) => b.Honest w v)
    fun v _ => AllocatedBit.alloc_complete v) fun bits h => h.flip

theorem witnessBits_follow (s : S) : Complete w (witnessBitsFromFe (F := F) s) fun bits =>
    BsOk N w bits (bytesBits (bytes32 s)) :=
  (allocBits_follow _).mono fun _ h => .of h

theorem samePoint_follow (h1 : w one = 1) {b : AllocatedBit} {v : Bool} (hb : b.Honest w v) (hv : v = true ∨ N)
    {P Q : CurvePoint F} {A B : Pt (E.b : F)} (hP : XyOk N w P A) (hQ : XyOk N w Q B) (hAB : N → A = B) :
    Complete w (samePoint one b P Q) fun _ => True := by
  obtain ⟨A', hA, eA⟩ := hP
  obtain ⟨B', hB, eB⟩ := hQ
  have e : v = true ∨ (P.x.wire w, P.y.wire w) = (Q.x.wire w, Q.y.wire w) :=
    hv.imp id fun n => by rw [hA.xy, hB.xy, eA n, eB n, hAB n]
  refine Complete.bind (numEqual_complete h1 hb (Combination.honest_ofNum hA.x) (Combination.honest_ofNum hB.x)
    (e.imp id fun e => ?_)) fun _ _ => numEqual_complete h1 hb (Combination.honest_ofNum hA.y)
    (Combination.honest_ofNum hB.y) (e.imp id fun e => ?_)
  · rw [Combination.wire_ofNum, Combination.wire_ofNum]; exact congrArg Prod.fst e
  · rw [Combination.wire_ofNum, Combination.wire_ofNum]; exact congrArg Prod.snd e

theorem checkEntry_follow [HaloCurve E F S] (h1 : w one = 1) {c : VerificationCircuit F S} {b : AllocatedBit}
    {v : Bool} (hb : b.Honest w v) (hv : v = true ∨ N) {G GN : Pt (E.b : F)} {g gNew : CurvePoint F}
    (hg : PtOk N w g G) (hgn : PtOk N w gNew GN)
    {e : ((CurvePoint F × CurvePoint F) × List AllocatedBit) × ℕ} {a : S}
    (ha : finalScalar c.proof e.2 = (.pure a : Prog F S)) {y : S}
    (hy : BsOk N w e.1.2 (bytesBits (bytes32 y))) (hp : XyOk N w e.1.1.1 (a ⋆ GN))
    (hq : XyOk N w e.1.1.2 ((a * y) ⋆ G)) :
    Complete w (checkEntry E one c b gNew g e) fun _ => True := by
  rw [checkEntry, ha]
  refine Complete.bind (P := fun r => r = a) (by exact rfl) ?_
  rintro _ rfl
  refine Complete.bind (witnessBits_follow (N := N) _) fun bits hbits => ?_
  refine Complete.bind (multiply_follow (S := S) h1 hgn hbits) fun ag hag => ?_
  refine Complete.bind (samePoint_follow h1 hb hv hp hag.xy fun _ => rfl) fun _ _ => ?_
  refine Complete.bind (multiply_follow (S := S) h1 hg hbits) fun tmp htmp => ?_
  refine Complete.bind (multiply_follow (S := S) h1 htmp hy) fun abg habg => ?_
  refine samePoint_follow h1 hb hv hq habg.xy fun _ => ?_
  rw [mul_comm, HaloCurve.smul_mul_scalar]

/-- What `verify_inner_product` is called with -/
def InstOk (N : Prop) (w : Var → F) (G : Pt (E.b : F)) (x : (CurvePoint F × CurvePoint F) × List AllocatedBit)
    (i : (Proj F × S) × S) : Prop :=
  PvOk N w G x.1 i.1 ∧ BsOk N w x.2 (bytesBits (bytes32 i.2))

theorem verifyInnerProduct_follow [HaloCurve E F S] (h1 : w one = 1) {c : VerificationCircuit F S}
    {b : AllocatedBit} {v : Bool} (hb : b.Honest w v) (hv : v = true ∨ N)
    {G GN : Pt (E.b : F)} (hG : Denotes (E.b : F) (Proj.one E) G) (hG0 : G ≠ 0)
    {instances : List ((CurvePoint F × CurvePoint F) × List AllocatedBit)} {ins : List ((Proj F × S) × S)}
    (hins : List.Forall₂ (InstOk N w G) instances ins) {t : RescueGadget F} {T T' : Rescue F} (ht : TrOk N h1 t T)
    {fs : List ℕ} (hfs : c.forkvalues = some fs) {ess : List (List (Entry F S))} {chs : List (Challenge S)}
    (hk : ess.length = c.params.k) (hl : ess.length = chs.length) (hlen : ∀ es ∈ ess, es.length = ins.length)
    (he : ∀ j, (h : j < ess.length) → EntriesAre c.proof j G ess[j])
    (hf : ∀ j, (h : j < chs.length) → fs[j]? = some chs[j].fork) (hN : N → RoundsRun E ess chs T T')
    (hgn : Denotes (E.b : F) (match c.proof with
      | some proof => proof.proof.innerProduct.g
      | none => .zero) GN)
    {as : List S} (has : as.length = ins.length)
    (hfin : ∀ j, (h : j < as.length) → finalScalar c.proof j = (.pure as[j] : Prog F S))
    {fold : Fold F} (hfold : Folds N w one fold G GN ess chs ins as) :
    Complete w (verifyInnerProductWith E fold one c b t instances) fun r => PtOk N w r.1 GN ∧
      List.Forall₂ (fun bits (ch : Challenge S) => ChOk N w bits ch.challengeSqPacked) r.2 chs := by
  have hpv : List.Forall₂ (PvOk N w G) (instances.map (·.1)) (ins.map (·.1)) := by
    rw [List.forall₂_map_left_iff, List.forall₂_map_right_iff]
    exact hins.imp fun _ _ h => h.1
  obtain ⟨Q, f1, f2, f3, f4⟩ := hfold
  rw [verifyInnerProductWith, ← hk, List.range_eq_range']
  refine Complete.bind (verifyRounds_follow (i := 0) (s := ⟨t, instances.map (·.1), []⟩) (Q := Q) h1 hG hfs f2 hl hlen
    (by simpa using he) (by simpa using hf) (by simpa using f3) (f1 _ hpv) ht hN) ?_
  rintro s ⟨hst, hspv, cs, hcs, hcs'⟩
  rw [zero_add] at hspv
  refine Complete.bind (witness_follow (N := N) (S := S) h1 hgn) fun gNew hgNew => ?_
  refine Complete.bind (generator_follow (N := N) hG hG0) fun g hg => ?_
  refine Complete.bind (forEach_follow (f := fun e => checkEntry E one c b gNew g e) fun e hm => ?_) fun _ _ => ?_
  · obtain ⟨j, hj, hej⟩ := List.getElem_of_mem hm
    rw [List.getElem_zipIdx, List.getElem_zip] at hej
    rw [List.length_zipIdx, List.length_zip, List.length_map] at hj
    have hj1 : j < s.pv.length := by omega
    have hj2 : j < instances.length := by omega
    have hj3 : j < ins.length := by rw [← hins.length_eq]; exact hj2
    have hj5 : j < as.length := by omega
    obtain ⟨-, i2⟩ := (List.forall₂_iff_get.1 hins).2 j hj2 hj3
    subst hej
    simp only [List.get_eq_getElem] at i2
    obtain ⟨q1, q2⟩ := f4 s.pv hspv j hj1 ins[j].2 as[j]
      (by rw [List.getElem?_map, List.getElem?_eq_getElem hj3]; rfl) (List.getElem?_eq_getElem hj5)
    refine checkEntry_follow (S := S) (a := as[j]) (y := ins[j].2) h1 hb hv hg hgNew ?_ ?_ q1 q2
    · simpa using hfin j hj5
    · simpa using i2
  · exact (complete_ret _ _).2 ⟨hgNew, by rw [hcs]; exact hcs'⟩

end Recursion
end Halo
