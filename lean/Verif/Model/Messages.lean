import Verif.Model.Named
import Verif.Model.Dev
/-!
# `is_satisfied` with the names in its error messages (`src/dev.rs:65-289`)

`isSatisfied` in `Verif.Model.Dev` is this function for circuits without names.
-/
namespace Halo
namespace Circuit

/-- `src/dev.rs:69-72` `MultType` -/
inductive MultName where
  | allocation (a b : List Char)
  | constraint (path : List Char)
deriving DecidableEq

/-- `src/dev.rs:112-145`: the name of the variable `var` of this gate -/
def MultName.setName (path : List Char) (var : Var) : MultName → MultName
  | .allocation a b => match var with
    | .A _ => .allocation path b
    | .B _ => .allocation a path
    | .C _ => .allocation a b
  | .constraint p => .constraint p

/-- `src/dev.rs:268-271`: how a gate is named in the error -/
def MultName.message : MultName → List Char
  | .allocation a b => "allocation(".toList ++ a ++ ", ".toList ++ b ++ ")".toList
  | .constraint path => path

/-- `src/dev.rs:74-84` `Assignment`: the names, and everything else -/
structure LabelState (F : Type) where
  base : SatState F
  currentNamespace : List Name
  multNames : List MultName
  lcNames : List (List Char)

/-- `src/synthesis.rs:188` -/
def linearName : Name := "TODO_LINEAR".toList

/-- `src/dev.rs:86-224`, where the annotation, if there is one, gives this name. A name with a slash is a panic; for
`new_multiplication_gate` this is done in `runSat`, and `new_linear_constraint` gets only `TODO_LINEAR`. -/
def labelBackend {F : Type} [Field F] (name : Name) : Backend F (LabelState F) ℕ where
  getVar s var := satBackend.getVar s.base var
  setVar s annotated var value := do
    let (base, called) ← satBackend.setVar s.base annotated var value
    if annotated then
      match computePath s.currentNamespace name with
      | none => .error .panic
      | some path =>
        .ok ({ s with base, multNames := s.multNames.modify (var.index - 1) (.setName path var) }, called)
    else .ok ({ s with base }, called)
  newGate s annotated :=
    { s with
      base := satBackend.newGate s.base annotated
      multNames := s.multNames ++
        [if annotated then .constraint ((computePath s.currentNamespace name).getD [])
          else .allocation "unused".toList "unused".toList] }
  newLinear s :=
    ({ s with
        base := (satBackend.newLinear s.base).1
        lcNames := s.lcNames ++ [(computePath s.currentNamespace linearName).getD []] },
      (satBackend.newLinear s.base).2)
  insertCoeff s var coeff y := do
    let base ← satBackend.insertCoeff s.base var coeff y
    .ok { s with base }
  newK s index value := do
    let base ← satBackend.newK s.base index value
    .ok { s with base }

namespace LabelState
variable {F : Type}

/-- `src/dev.rs:212-219` `push_namespace` -/
def push (s : LabelState F) (name : Name) : LabelState F :=
  { s with currentNamespace := s.currentNamespace ++ [name] }

/-- `src/dev.rs:221-223` `pop_namespace`; `none` is a panic. -/
def pop (s : LabelState F) : Option (LabelState F) :=
  if s.currentNamespace = [] then none else some { s with currentNamespace := s.currentNamespace.dropLast }

end LabelState

variable {F : Type} [Field F]

/-- The calls of a circuit on the synthesizer (`src/synthesis.rs:112-245`) with this backend. On an error the
namespaces are left, which has no effect. -/
def runSat {α : Type} : Named F α → Driver (LabelState F) → Except Fail (α × Driver (LabelState F))
  | .pure a, d => .ok (a, d)
  | .throw e, _ => .error (.err e)
  | .panic, _ => .error .panic
  | .alloc name v k, d => do
    let ((x, o), d) ← Basic.alloc (labelBackend name) d v
    runSat (k x o) d
  | .allocInput name v k, d => do
    let ((x, o), d) ← Basic.allocInput (labelBackend name) d v
    runSat (k x o) d
  | .enforceZero lc k, d => do
    let d ← Basic.enforceZero (labelBackend []) d lc
    runSat k d
  | .multiply name v k, d =>
    match computePath d.backend.currentNamespace name with
    | none => .error .panic
    | some _ => do
      let ((a, b, c, o), d) ← Basic.multiply (labelBackend name) d v
      runSat (k a b c o) d
  | .push name k, d => runSat k { d with backend := d.backend.push name }
  | .pop k, d => match d.backend.pop with
    | none => .error .panic
    | some b => runSat k { d with backend := b }

/-- `src/dev.rs:49-55` `SatisfactionError`, or a panic -/
inductive NamedError (F : Type) where
  | synthesis (e : SynthesisError)
  | inputLength (given expected : ℕ)
  | multiplication (path : List Char) (a b c : F)
  | linear (path : List Char) (lhs rhs : F)
  | panic

variable [DecidableEq F]

/-- `src/dev.rs:263-278` -/
def checkGatesNamed : List (((F × F) × F) × MultName) → Except (NamedError F) Unit
  | [] => .ok ()
  | (((a, b), c), name) :: rest =>
    if a * b ≠ c then .error (.multiplication name.message a b c) else checkGatesNamed rest

/-- `src/dev.rs:280-286` -/
def checkLinearNamed (w : Wires F) : List ((LC F × F) × List Char) → Except (NamedError F) Unit
  | [] => .ok ()
  | ((lc, rhs), path) :: rest => match lc.evaluate w.a w.b w.c with
    | none => .error .panic
    | some lhs => if lhs ≠ rhs then .error (.linear path lhs rhs) else checkLinearNamed w rest

/-- `src/dev.rs:65-289` `is_satisfied`, for the `Basic` driver (`src/synthesis.rs:253-276`) -/
def isSatisfiedNamed (circuit : Var → Named F Unit) (inputs : List F) : Except (NamedError F) Bool :=
  match Basic.allocInput (labelBackend "one".toList)
      ⟨⟨⟨0, 0, ⟨[], [], []⟩, [], [], []⟩, [], [], []⟩, none, 0, 0⟩ (.ok 1) with
  | .error _ => .error .panic
  | .ok ((one, _), d) =>
    if one ≠ .A 1 then .error .panic
    else match runSat (circuit Basic.ONE) d with
      | .error (.err e) => .error (.synthesis e)
      | .error .panic => .error .panic
      | .ok (_, d) =>
        let s := d.backend.base
        if s.n = s.wires.a.length ∧ s.n = s.wires.b.length ∧ s.n = s.wires.c.length ∧
            s.n = s.mults.length ∧ s.q = s.lcs.length then
          if inputs.length + 1 ≠ s.inputs.length then
            .error (.inputLength inputs.length (s.inputs.length - 1))
          else match placeInputs s.lcs ((1 :: inputs).zip s.inputs) with
            | none => .error .panic
            | some lcs => do
              checkGatesNamed (((s.wires.a.zip s.wires.b).zip s.wires.c).zip d.backend.multNames)
              checkLinearNamed s.wires (lcs.zip d.backend.lcNames)
              .ok true
        else .error .panic

end Circuit
end Halo
