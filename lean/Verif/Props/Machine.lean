import Verif.Props.Malleable
import Verif.Lemmas.Recursion.Machine
/-!
# Proofs and verdicts do not depend on the machine (C82)

The code splits multiexponentiations and products of polynomials among the cores of the machine, and chooses the window of a
multiexponentiation with a floating-point logarithm. `M` and `M'` are any two machines.
-/
namespace Halo
namespace Proofs
open Util Circuit
variable {E : CurveConsts} {F : Type} [Field F] [DecidableEq F] [LawfulField F]
  {S : Type} [Field S] [DecidableEq S] [LawfulField S] {T : Type} [HaloCurve E F S] (M M' : Machine)

/-- **C82**, proving. For any transcript, parameters and circuit, proving on the two machines fails in the same way, or makes
proofs and leftovers with the same points and the same scalars. -/
theorem C82_new (tr : Transcript T F) (fuel : ℕ) {params : Params (Proj F)} {g : ℕ → Pt (E.b : F)}
    (hp : ValidParams (Denotes (E.b : F)) g params) {α : Type} (circuit : Var → Prog S α) {old old' : Leftovers (Proj F) S}
    (ho : old.Same (SamePoint (E.b : F)) old') :
    letI := Proj.curveOps E F S
    SameResult (fun r r' => r.1.Same (SamePoint (E.b : F)) r'.1 ∧ r.2.Same (SamePoint (E.b : F)) r'.2)
      (Proof.new tr fuel M.cpus M.lnCeil params circuit old) (Proof.new tr fuel M'.cpus M'.lnCeil params circuit old') :=
  new_same M M' tr fuel hp circuit ho

/-- **C82**, verifying. For proofs with the same points and scalars, the machines fail in the same way, or return the same
verdict, the same new leftovers, deferred record and forks. -/
theorem C82_verify (tr : Transcript T F) {π π' : Proof (Proj F) S} (h : π.Same (SamePoint (E.b : F)) π')
    {lo lo' : Leftovers (Proj F) S} (hlo : lo.Same (SamePoint (E.b : F)) lo')
    {params : Params (Proj F)} {g : ℕ → Pt (E.b : F)} (hp : ValidParams (Denotes (E.b : F)) g params) {α : Type}
    (circuit : Var → Prog S α) (inputs : List S) {K K' : Option (Proj F)} (hK : Option.Rel (SamePoint (E.b : F)) K K') :
    letI := Proj.curveOps E F S
    SameResult (fun r r' => r.1 = r'.1 ∧ r.2.1.Same (SamePoint (E.b : F)) r'.2.1 ∧ r.2.2 = r'.2.2)
      (π.verify tr M.cpus M.lnCeil lo params circuit inputs K) (π'.verify tr M'.cpus M'.lnCeil lo' params circuit inputs K') :=
  verify_same M M' tr h hlo hp circuit inputs hK

omit [DecidableEq S] in
/-- **C82**, leftovers. Both machines give the same answer for the same leftovers. -/
theorem C82_leftovers {lo lo' : Leftovers (Proj F) S} (hlo : lo.Same (SamePoint (E.b : F)) lo')
    {params : Params (Proj F)} {g : ℕ → Pt (E.b : F)} (hp : ValidParams (Denotes (E.b : F)) g params) {α : Type}
    (circuit : Var → Prog S α) :
    letI := Proj.curveOps E F S
    lo.verify M.cpus M.lnCeil params circuit = lo'.verify M'.cpus M'.lnCeil params circuit :=
  leftovers_same M M' hlo hp circuit

omit [LawfulField F] [DecidableEq S] [LawfulField S] [HaloCurve E F S] in
theorem flatProof_same {b : F} {O O' : Proj F} (h : SamePoint b O O') (a : S) :
    (flatProof O a).Same (SamePoint b) (flatProof O' a) := by
  have hl : List.Forall₂ (SamePoint b) (List.replicate 5 O) (List.replicate 5 O') := .cons h (.cons h (.cons h (.cons h (.cons h .nil))))
  have hr : (flatRound O : InnerProductRound (Proj F) S).Same (SamePoint b) (flatRound O') := ⟨hl, hl, rfl, rfl⟩
  exact ⟨h, h, h, h, h, h, rfl, rfl, rfl, rfl, rfl, rfl, rfl,
    ⟨.cons hr (.cons hr (.cons hr (.cons hr (.cons hr .nil)))), rfl, h⟩⟩

/-- A machine with one core, and one with 64 and another logarithm. There are parameters for the curve of the code, and there
are old leftovers, which are the same but differ in the encodings of their points, and so for proofs. -/
example : ∃ (M M' : Machine) (params : Params (Proj Fq)) (g : ℕ → Pt ((ec0.b : ℕ) : Fq)) (old old' : Leftovers (Proj Fq) Fp)
    (π π' : Proof (Proj Fq) Fp), M.cpus ≠ M'.cpus ∧ M.lnCeil ≠ M'.lnCeil ∧ ValidParams (Denotes _) g params ∧
    old.Same (SamePoint ((ec0.b : ℕ) : Fq)) old' ∧ old.gNew ≠ old'.gNew ∧
    π.Same (SamePoint ((ec0.b : ℕ) : Fq)) π' ∧ π.rCommitment ≠ π'.rCommitment := by
  obtain ⟨params, g, hp, hk, -⟩ := params_example (E := ec0) (F := Fq) (S := Fp) (k := 5) (by norm_num)
    (by norm_num)
  have h2 : (2 : Fq) ≠ 0 := (HaloCurve.good ec0 Fq Fp).two_ne
  have h : SamePoint ((ec0.b : ℕ) : Fq) ⟨0, 1, 0⟩ ⟨0, 2, 0⟩ := ⟨0, .zero one_ne_zero, .zero h2⟩
  have hne : (⟨0, 1, 0⟩ : Proj Fq) ≠ ⟨0, 2, 0⟩ := by
    intro h
    have := (Proj.mk.injEq .. ▸ h).2.1
    exact one_ne_zero (α := Fq) (by linear_combination -this)
  exact ⟨⟨1, fun _ => 1, by norm_num, by simp⟩, ⟨64, fun _ => 57, by norm_num, by simp⟩, params, g, ⟨⟨0, 1, 0⟩, 3, ⟨0, 1, 0⟩, [1]⟩,
    ⟨⟨0, 2, 0⟩, 3, ⟨0, 2, 0⟩, [1]⟩, flatProof ⟨0, 1, 0⟩ 1, flatProof ⟨0, 2, 0⟩ 1, by norm_num,
    fun h => absurd (congrFun h 0) (by norm_num), hp, ⟨h, rfl, h, rfl⟩, hne,
    flatProof_same h 1, hne⟩

end Proofs

namespace Recursion
open Circuit Proofs
variable {B S : Type} [Field B] [DecidableEq B] [LawfulField B] [Field S] [DecidableEq S] [LawfulField S]
  {E1 E2 : CurveConsts} [HaloCurve E1 B S] [HaloCurve E2 S B] (M M' : Machine)

/-- **C82**, recursive proofs. From the same old proof, or from none, the machines fail in the same way, or make the same
recursive proof. -/
theorem C82_create (fuel : ℕ) {old old' : Option (RecursiveProof S B)}
    (h : Option.Rel (RecursiveProof.Same (E2.b : S) (E1.b : B)) old old')
    {params1 : Params (Proj B)} {g1 : ℕ → Pt (E1.b : B)} (hp1 : ValidParams (Denotes (E1.b : B)) g1 params1)
    {params2 : Params (Proj S)} {g2 : ℕ → Pt (E2.b : S)} (hp2 : ValidParams (Denotes (E2.b : S)) g2 params2)
    (inner1 : RecursiveCircuit S) (inner2 : RecursiveCircuit B) (payload : List (BitVec 8)) :
    SameResult (RecursiveProof.Same (E1.b : B) (E2.b : S))
      (RecursiveProof.createProof E1 E2 M.cpus M.lnCeil fuel params1 params2 old inner1 inner2 payload)
      (RecursiveProof.createProof E1 E2 M'.cpus M'.lnCeil fuel params1 params2 old' inner1 inner2 payload) :=
  createProof_same M M' fuel h hp1 hp2 inner1 inner2 payload

/-- **C82**, verdicts on recursive proofs. The verdict, or the failure, is the same on both machines. -/
theorem C82_recursive {p p' : RecursiveProof B S} (h : p.Same (E1.b : B) (E2.b : S) p')
    {params1 : Params (Proj B)} {g1 : ℕ → Pt (E1.b : B)} (hp1 : ValidParams (Denotes (E1.b : B)) g1 params1)
    {params2 : Params (Proj S)} {g2 : ℕ → Pt (E2.b : S)} (hp2 : ValidParams (Denotes (E2.b : S)) g2 params2)
    (inner1 : RecursiveCircuit S) (inner2 : RecursiveCircuit B) :
    p.verify E1 E2 M.cpus M.lnCeil params1 params2 inner1 inner2 =
      p'.verify E1 E2 M'.cpus M'.lnCeil params1 params2 inner1 inner2 :=
  recursiveVerify_same M M' h hp1 hp2 inner1 inner2

/-- In the setup of C60, for the curves of the code and 2^22 generators, there are the parameters, and two recursive proofs
that differ in the encodings of points only. -/
example : ∃ (s : Setup ec0 ec1 Fq Fp) (p p' : RecursiveProof Fq Fp), s.params1.k = 22 ∧
    ValidParams (Denotes ((ec0.b : ℕ) : Fq)) s.g1 s.params1 ∧ ValidParams (Denotes ((ec1.b : ℕ) : Fp)) s.g2 s.params2 ∧
    p.Same ((ec0.b : ℕ) : Fq) ((ec1.b : ℕ) : Fp) p' ∧ p ≠ p' := by
  obtain ⟨s, hs, hk, -⟩ := setup_example (E1 := ec0) (E2 := ec1) (B := Fq) (S := Fp) (k := 22) (by norm_num)
    (by norm_num)
  have h2 : (2 : Fq) ≠ 0 := (HaloCurve.good ec0 Fq Fp).two_ne
  have h : SamePoint ((ec0.b : ℕ) : Fq) ⟨0, 1, 0⟩ ⟨0, 2, 0⟩ := ⟨0, .zero one_ne_zero, .zero h2⟩
  have h' : SamePoint ((ec1.b : ℕ) : Fp) ⟨0, 1, 0⟩ ⟨0, 1, 0⟩ := .refl (.zero one_ne_zero)
  have hne : (⟨0, 1, 0⟩ : Proj Fq) ≠ ⟨0, 2, 0⟩ := by
    intro h
    have := (Proj.mk.injEq .. ▸ h).2.1
    exact one_ne_zero (α := Fq) (by linear_combination -this)
  obtain ⟨d, -⟩ := dummy_record (E := ec1) (F := Fp) (S := Fq) (k := 22) (by norm_num)
  exact ⟨s, ⟨flatProof ⟨0, 1, 0⟩ 1, ⟨⟨0, 1, 0⟩, 3, ⟨0, 1, 0⟩, [1]⟩, ⟨⟨0, 1, 0⟩, 3, ⟨0, 1, 0⟩, [1]⟩, d, [2#8]⟩,
    ⟨flatProof ⟨0, 2, 0⟩ 1, ⟨⟨0, 2, 0⟩, 3, ⟨0, 2, 0⟩, [1]⟩, ⟨⟨0, 1, 0⟩, 3, ⟨0, 1, 0⟩, [1]⟩, d, [2#8]⟩, hk,
    hs.one.valid, hs.two.valid,
    ⟨flatProof_same h 1, ⟨h, rfl, h, rfl⟩, ⟨h', rfl, h', rfl⟩, rfl, rfl⟩,
    fun e => hne (congrArg (fun p => p.oldproof1.gNew) e)⟩

end Recursion
end Halo
