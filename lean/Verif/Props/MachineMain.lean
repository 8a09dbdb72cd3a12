import Verif.Props.Machine
import Verif.Props.ProverCheck
import Verif.Props.Params
import Verif.Lemmas.Proofs.Fuel
import Verif.Model.Example.Main
/-!
# Proofs and verdicts do not depend on the machine: whole programs, and how often a challenge is tried (C82)
-/
namespace Halo
namespace Proofs
open Util Circuit
variable {E : CurveConsts} {F : Type} [Field F] [DecidableEq F] [LawfulField F]
  {S : Type} [Field S] [DecidableEq S] [LawfulField S] {T : Type}

/-- **C82**, the bound on trying challenges. The code tries challenges until it finds one that will do, the model `fuel` times.
If the prover returns within this bound, then it returns the same with any larger bound. -/
theorem C82_fuel (tr : Transcript T F) (cpus : ℕ) (lnCeil : ℕ → ℕ) {fuel fuel' : ℕ} (hf : fuel ≤ fuel')
    {params : Params (Proj F)} {α : Type} (circuit : Var → Prog S α) (old : Leftovers (Proj F) S)
    {r : Proof (Proj F) S × Leftovers (Proj F) S} :
    letI := Proj.curveOps E F S
    Proof.new tr fuel cpus lnCeil params circuit old = .ok r → Proof.new tr fuel' cpus lnCeil params circuit old = .ok r :=
  letI := Proj.curveOps E F S
  new_fuel tr cpus lnCeil hf circuit old r

/-- A run that returns after the first challenge, and so does with a larger bound. -/
example : letI := Proj.curveOps ec0 Fq Fp
    ∃ (params : Params (Proj Fq)) (circuit : Var → Prog Fp Unit) (old : Leftovers (Proj Fq) Fp) (r : Proof (Proj Fq) Fp × Leftovers (Proj Fq) Fp),
      Proof.new (constTranscript Fq) 1 4 (fun _ => 3) params circuit old = .ok r ∧
      Proof.new (constTranscript Fq) 1000 4 (fun _ => 3) params circuit old = .ok r := by
  obtain ⟨params, circuit, -, old, new, proof, -, -, -, -, -, h, -⟩ := C83_bad_challenge
  exact ⟨params, circuit, old, _, h, C82_fuel _ _ _ (by norm_num) _ _ h⟩

end Proofs

namespace Recursion
open Circuit Proofs
variable {B S : Type} [Field B] [DecidableEq B] [LawfulField B] [Field S] [DecidableEq S] [LawfulField S]

/-- **C82**, the bound on trying challenges, for recursive proofs -/
theorem C82_fuel_recursive (E1 E2 : CurveConsts) (cpus : ℕ) (lnCeil : ℕ → ℕ) {fuel fuel' : ℕ} (hf : fuel ≤ fuel')
    (params1 : Params (Proj B)) (params2 : Params (Proj S)) (old : Option (RecursiveProof S B)) (inner1 : RecursiveCircuit S)
    (inner2 : RecursiveCircuit B) (payload : List (BitVec 8)) {p : RecursiveProof B S} :
    RecursiveProof.createProof E1 E2 cpus lnCeil fuel params1 params2 old inner1 inner2 payload = .ok p →
      RecursiveProof.createProof E1 E2 cpus lnCeil fuel' params1 params2 old inner1 inner2 payload = .ok p :=
  createProof_fuel E1 E2 cpus lnCeil hf params1 params2 old inner1 inner2 payload p

end Recursion

namespace Example
open Circuit Proofs Recursion

section cycle
variable {B S : Type} [Field B] [DecidableEq B] [LawfulField B] [Field S] [DecidableEq S] [LawfulField S]
  {E1 E2 : CurveConsts} [HaloCurve E1 B S] [HaloCurve E2 S B] (M M' : Machine)

/-- The same curve's turn, with the same last proof -/
inductive CycleStep.Same (b1 : B) (b2 : S) : CycleStep B S → CycleStep B S → Prop
  | stepA {old old'} : Option.Rel (RecursiveProof.Same b2 b1) old old' → Same b1 b2 (.stepA old) (.stepA old')
  | stepB {old old'} : Option.Rel (RecursiveProof.Same b1 b2) old old' → Same b1 b2 (.stepB old) (.stepB old')

theorem unwrap_same {α β : Type} {R : α → β → Prop} {x : Except Fail α} {y : Except Fail β} (h : SameResult R x y) :
    SameResult R (unwrap x) (unwrap y) := by
  cases h with
  | ok h => exact .ok h
  | error e => exact .error _

theorem cycle_same (fuel : ℕ) {params1 : Params (Proj B)} {g1 : ℕ → Pt (E1.b : B)}
    (hp1 : ValidParams (Denotes (E1.b : B)) g1 params1)
    {params2 : Params (Proj S)} {g2 : ℕ → Pt (E2.b : S)} (hp2 : ValidParams (Denotes (E2.b : S)) g2 params2)
    (circuit1 : RecursiveCircuit S) (circuit2 : RecursiveCircuit B) {step step' : CycleStep B S}
    (h : step.Same (E1.b : B) (E2.b : S) step') (input : List (BitVec 8)) :
    SameResult (CycleStep.Same (E1.b : B) (E2.b : S))
      (cycle E1 E2 M.cpus M.lnCeil fuel params1 params2 circuit1 circuit2 step input)
      (cycle E1 E2 M'.cpus M'.lnCeil fuel params1 params2 circuit1 circuit2 step' input) := by
  cases h with
  | stepA h =>
    have hc := C82_create M M' fuel h hp1 hp2 circuit1 circuit2 input
    simp only [cycle]
    refine .bind (unwrap_same hc) fun _ _ hr => ?_
    rw [C82_recursive M M' hr hp1 hp2 circuit1 circuit2]
    exact .step _ fun _ => .step _ fun _ => .ok (.stepB (.some hr))
  | stepB h =>
    have hc := C82_create M M' fuel h hp2 hp1 circuit2 circuit1 input
    simp only [cycle]
    refine .bind (unwrap_same hc) fun _ _ hr => ?_
    rw [C82_recursive M M' hr hp2 hp1 circuit2 circuit1]
    exact .step _ fun _ => .step _ fun _ => .ok (.stepA (.some hr))

theorem cycles_same (fuel : ℕ) {params1 : Params (Proj B)} {g1 : ℕ → Pt (E1.b : B)}
    (hp1 : ValidParams (Denotes (E1.b : B)) g1 params1)
    {params2 : Params (Proj S)} {g2 : ℕ → Pt (E2.b : S)} (hp2 : ValidParams (Denotes (E2.b : S)) g2 params2)
    (circuit1 : RecursiveCircuit S) (circuit2 : RecursiveCircuit B) (inputs : List (List (BitVec 8))) {step step' : CycleStep B S}
    (h : step.Same (E1.b : B) (E2.b : S) step') :
    SameResult (CycleStep.Same (E1.b : B) (E2.b : S))
      (cycles E1 E2 M.cpus M.lnCeil fuel params1 params2 circuit1 circuit2 step inputs)
      (cycles E1 E2 M'.cpus M'.lnCeil fuel params1 params2 circuit1 circuit2 step' inputs) := by
  induction inputs generalizing step step' with
  | nil => exact .ok h
  | cons input inputs ih =>
    simp only [cycles, List.foldlM_cons]
    exact .bind (cycle_same M M' fuel hp1 hp2 circuit1 circuit2 h input) fun _ _ h' => ih h'

end cycle

section program
variable {B0 B1 : Type} [Field B0] [DecidableEq B0] [LawfulField B0] [Field B1] [DecidableEq B1] [LawfulField B1]
  {E0 E1 : CurveConsts} [HaloCurve E0 B0 B1] [HaloCurve E1 B1 B0] (M M' : Machine)

theorem program_same (fuel : ℕ) {o0 : Option (Params (Proj B0))} {o1 : Option (Params (Proj B1))}
    (h0 : ∀ p, o0 = some p → ∃ g, ValidParams (Denotes (E0.b : B0)) g p)
    (h1 : ∀ p, o1 = some p → ∃ g, ValidParams (Denotes (E1.b : B1)) g p)
    (circuit0 : RecursiveCircuit B1) (circuit1 : RecursiveCircuit B0) (inputs : List (List (BitVec 8))) :
    SameResult (fun _ _ : Unit => True)
      (do
        let params0 ← ofOption o0
        let params1 ← ofOption o1
        let _ ← cycles E1 E0 M.cpus M.lnCeil fuel params1 params0 circuit1 circuit0 (.stepA none) inputs
        .ok ())
      (do
        let params0 ← ofOption o0
        let params1 ← ofOption o1
        let _ ← cycles E1 E0 M'.cpus M'.lnCeil fuel params1 params0 circuit1 circuit0 (.stepA none) inputs
        .ok ()) := by
  cases o0 with
  | none => exact .error _
  | some p0 =>
    cases o1 with
    | none => exact .error _
    | some p1 =>
      obtain ⟨g0, v0⟩ := h0 _ rfl
      obtain ⟨g1, v1⟩ := h1 _ rfl
      exact .bind (cycles_same M M' fuel v1 v0 circuit1 circuit0 inputs (.stepA .none)) fun _ _ _ => .ok trivial

theorem new_valid {E : CurveConsts} {F S : Type} [Field F] [DecidableEq F] [LawfulField F] [Field S] [DecidableEq S] [LawfulField S]
    [HaloCurve E F S] {k : ℕ} (hk : k ≤ 30) {attempts : ℕ → List (Vector (BitVec 8) 32)} (p : Params (Proj F))
    (h : Params.new E F k attempts = some p) : ∃ g, ValidParams (Denotes (E.b : F)) g p := by
  obtain ⟨-, -, g, v, -⟩ := (C55_params (S := S)).1 _ h
  exact ⟨g, v hk⟩

attribute [local irreducible] Params.new in
/-- **C82**, whole programs. The programs of the examples, with any circuits, randomness for the parameters and inputs, end in the
same way on both machines. -/
theorem C82_program (fuel : ℕ) (attempts0 attempts1 : ℕ → List (Vector (BitVec 8) 32))
    (circuit0 : RecursiveCircuit B1) (circuit1 : RecursiveCircuit B0) (inputs : List (List (BitVec 8))) :
    program E0 E1 M.cpus M.lnCeil fuel attempts0 attempts1 circuit0 circuit1 inputs =
      program E0 E1 M'.cpus M'.lnCeil fuel attempts0 attempts1 circuit0 circuit1 inputs := by
  have h : 22 ≤ 30 := by norm_num
  have : SameResult (fun _ _ : Unit => True) (program E0 E1 M.cpus M.lnCeil fuel attempts0 attempts1 circuit0 circuit1 inputs)
      (program E0 E1 M'.cpus M'.lnCeil fuel attempts0 attempts1 circuit0 circuit1 inputs) :=
    program_same M M' fuel (new_valid (S := B1) h) (new_valid (S := B0) h) circuit0 circuit1 inputs
  generalize program E0 E1 M.cpus M.lnCeil fuel attempts0 attempts1 circuit0 circuit1 inputs = x at this ⊢
  generalize program E0 E1 M'.cpus M'.lnCeil fuel attempts0 attempts1 circuit0 circuit1 inputs = y at this ⊢
  cases this with
  | ok h => rfl
  | error e => rfl

end program

/-- The programs of both examples, on the curves of the code -/
example (M M' : Machine) (attempts0 attempts1 : ℕ → List (Vector (BitVec 8) 32)) :
    paperMain (B0 := Fq) (B1 := Fp) ec0 ec1 M.cpus M.lnCeil 1000 attempts0 attempts1 =
      paperMain (B0 := Fq) (B1 := Fp) ec0 ec1 M'.cpus M'.lnCeil 1000 attempts0 attempts1 ∧
    bitcoinMain (B0 := Fq) (B1 := Fp) ec0 ec1 M.cpus M.lnCeil 1000 attempts0 attempts1 =
      bitcoinMain (B0 := Fq) (B1 := Fp) ec0 ec1 M'.cpus M'.lnCeil 1000 attempts0 attempts1 :=
  ⟨C82_program M M' _ _ _ _ _ _, C82_program M M' _ _ _ _ _ _⟩

end Example
end Halo
