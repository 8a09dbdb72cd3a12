import Verif.Lemmas.Gadget.SlopeCheat
import Verif.Props.Ecc
/-!
# Multiplication by a challenge is not enforced (C49)
-/
namespace Halo
open Circuit CurvePoint FieldApi
variable {F : Type} [Field F] [DecidableEq F] [LawfulField F] {E : CurveConsts}
variable (S : Type) [Field S] [LawfulField S]

/-- The circuit that witnesses a point, allocates the bits of a challenge and multiplies the point by it. It
returns the point, the bits and the product. -/
def endoCircuit (E : CurveConsts) (p : Proj F) (c : BitVec 128) (one : Var) :
    Prog F (CurvePoint F × List AllocatedBit × CurvePoint F) := do
  let P ← witness E one (.ok p)
  let bits ← mapProg (fun v => AllocatedBit.alloc (.ok v)) ((List.range 128).map fun i => c.getLsbD i)
  let R ← multiplyEndo one P bits
  return (P, bits, R)

/-- **C49 is false**, for every point but the identity and every challenge: all but at most 190 points of the curve
are accepted as the product. For each of them the constraint system that a verifier synthesizes has a satisfying
assignment in which the point and the challenge are the given ones and the product is this other point. -/
theorem C49_multiply_endo_false [HaloCurve E F S] (c : BitVec 128) {p : Proj F} {A : Pt (E.b : F)}
    (hp : Denotes (E.b : F) p A) (hA : A ≠ 0) :
    ∃ bad : Finset (Pt (E.b : F)), bad.card ≤ 190 ∧ ∀ D ∉ bad, ∃ r sys w,
      circuitSystem false (endoCircuit E p c) = .ok (r, sys) ∧ sys.Satisfied w [] ∧ r.1.Means w A ∧
        List.Forall₂ (fun b v => b.Means w v) r.2.1 ((List.range 128).map fun i => c.getLsbD i) ∧
        r.2.2.Means w D := by
  classical
  obtain ⟨bad, hc, h⟩ := exists_endoOk (S := S) c (List.range' 1 63)
  refine ⟨bad.image fun s => LawfulField.val s • A, Finset.card_image_le.trans (by simpa using hc), fun D hD => ?_⟩
  obtain ⟨s, rfl⟩ := (star_bijective (S := S) hA).2 D
  obtain ⟨t, ht, rfl⟩ := h s fun hs => hD (Finset.mem_image_of_mem _ hs)
  clear hD
  generalize hvs : (List.range 128).map (fun i => c.getLsbD i) = vs
  have hlen : vs.length = 128 := by rw [← hvs]; simp
  have e : BitVec.ofNat 128 (bitsValue vs) = c := by
    apply BitVec.eq_of_toNat_eq
    rw [← hvs]
    have : ((List.range 128).map fun i => c.getLsbD i) = (List.range 128).map fun i => c.toNat.testBit i := rfl
    rw [this, bitsValue_range, BitVec.toNat_ofNat, Nat.mod_mod, Nat.mod_eq_of_lt c.isLt]
  let cheat : Var → Prog F (CurvePoint F × List AllocatedBit × CurvePoint F) := fun one => do
    let P ← witness E one (.ok p)
    let bits ← mapProg (fun v => AllocatedBit.alloc (.ok v)) vs
    let R ← multiplyEndoFrom (coordinates (LawfulField.val t • A)) one P bits
    return (P, bits, R)
  have key : Provable cheat fun w r => r.1.Means w A ∧ List.Forall₂ (fun b v => b.Means w v) r.2.1 vs ∧
      r.2.2.Means w (LawfulField.val ((List.range' 1 63).foldl (endoScalar c) t) • A) := by
    refine provable_of_complete fun w one h1 => ?_
    refine Complete.bind (witness_complete h1 hp) fun P hP => ?_
    refine Complete.bind (P := fun bits => List.Forall₂ (fun b v => b.Honest w v) bits vs) ?_ fun bits hb => ?_
    · refine Logic.mono (Logic.complete w) ((Logic.complete w).mapProg (f := fun b => AllocatedBit.alloc (.ok b))
        (P := fun (v : Bool) (b : AllocatedBit) => b.Honest w v) fun v _ => AllocatedBit.alloc_complete v) fun bits h => h.flip
    have hb' := bitsOf_forall₂ hb hlen
    rw [e] at hb'
    refine Complete.bind (multiplyEndoFrom_complete h1 hP hA hb' ht) fun R hR => ?_
    exact ⟨hP.means, hb.imp fun _ _ h => h.1, hR.means⟩
  refine accepted_of_twin key (R := fun a b => (∃ V, Like V a.1 b.1 ∧ Like V a.2.2 b.2.2) ∧
    a.2.1.map (·.var) = b.2.1.map (·.var)) ?_ ?_
  · intro V one hV
    unfold endoCircuit
    rw [hvs]
    refine Twin.bind (twin_witness hV (by rintro _ ⟨⟩; exact ⟨A, hp⟩)) fun P P' hP => ?_
    refine Twin.bind (twin_mapProg (A := fun _ _ => True) (List.forall₂_iff_zip.2 ⟨rfl, fun _ => trivial⟩)
      fun b b' _ => twin_bitAlloc') fun bs bs' hb => ?_
    have hb1 : Bits V bs bs' := hb.1.imp fun _ _ h => h.1
    refine Twin.bind (twin_multiplyEndoFrom _ hV hP.1.1 hb1 (hb.2.trans hlen)) fun R R' hR => ?_
    refine Twin.ret ⟨⟨V, hP.1.1, hR⟩, ?_⟩
    rw [← List.forall₂_eq_eq_eq, List.forall₂_map_left_iff, List.forall₂_map_right_iff]
    exact hb1.imp fun _ _ h => h.var.symm
  · rintro w a b ⟨⟨V, hP, hR⟩, hbits⟩ ⟨hm1, hm2, hm3⟩
    refine ⟨hP.means hm1, ?_, hR.means hm3⟩
    have hm : List.Forall₂ (fun x (v : Bool) => w x = if v then 1 else 0) (a.2.1.map (·.var)) vs :=
      List.forall₂_map_left_iff.2 hm2
    rw [hbits] at hm
    exact (List.forall₂_map_left_iff (f := AllocatedBit.var)).1 hm

/-- So the circuit does not enforce that the product is the product. -/
theorem C49_not_enforced [HaloCurve E F S] (c : BitVec 128) {p : Proj F} {A : Pt (E.b : F)}
    (hp : Denotes (E.b : F) p A) (hA : A ≠ 0) :
    ¬ Enforces (endoCircuit E p c) fun w r => r.1.Means w A →
      List.Forall₂ (fun b v => b.Means w v) r.2.1 ((List.range 128).map fun i => c.getLsbD i) →
        r.2.2.Means w (LawfulField.val (Util.expandChallenge c : S) • A) := by
  classical
  intro h
  obtain ⟨bad, hc, hbad⟩ := C49_multiply_endo_false S c hp hA
  have hcard := (HaloCurve.is (E := E) (F := F) (S := S)).card rfl
  have hm := (LawfulField.modulus_bound (F := S)).1
  have : Finite (Pt (E.b : F)) := Nat.finite_of_card_ne_zero (by rw [hcard]; omega)
  have := Fintype.ofFinite (Pt (E.b : F))
  obtain ⟨D, hD⟩ : ∃ D, D ∉ insert (LawfulField.val (Util.expandChallenge c : S) • A) bad := by
    by_contra hne
    push Not at hne
    have h1 := Finset.card_insert_le (LawfulField.val (Util.expandChallenge c : S) • A) bad
    rw [Finset.eq_univ_of_forall hne, Finset.card_univ, ← Nat.card_eq_fintype_card, hcard] at h1
    omega
  rw [Finset.mem_insert, not_or] at hD
  obtain ⟨r, sys, w, e1, e2, e3, e4, e5⟩ := hbad D hD.2
  exact hD.1 (e5.unique (h _ _ _ _ _ e1 e2 e3 e4))

example : ∃ A : Pt ((ec0.b : ℕ) : Fq), A ≠ 0 ∧ Denotes _ (Proj.one ec0) A ∧
    ∃ bad : Finset (Pt ((ec0.b : ℕ) : Fq)), bad.card ≤ 190 ∧ ∀ D ∉ bad, ∃ r sys w,
      circuitSystem false (endoCircuit ec0 (Proj.one ec0) 12345#128) = .ok (r, sys) ∧ sys.Satisfied w [] ∧
        r.1.Means w A ∧
        List.Forall₂ (fun b v => b.Means w v) r.2.1 ((List.range 128).map fun i => (12345#128).getLsbD i) ∧
        r.2.2.Means w D := by
  obtain ⟨A, hA, h0⟩ := one_denotes (E := ec0) (F := Fq) (S := Fp)
  exact ⟨A, h0, hA, C49_multiply_endo_false Fp _ hA h0⟩

end Halo
