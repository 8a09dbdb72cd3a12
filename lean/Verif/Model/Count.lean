import Verif.Model.Named
/-!
# `constraint_count` (`src/dev.rs`)
-/
namespace Halo
namespace Circuit

/-- `src/dev.rs:584-590` `ConstraintCounts` -/
structure Counts where
  allocations : ℕ
  multConstraints : ℕ
  totalMults : ℕ
  totalLcs : ℕ
deriving DecidableEq

namespace Counts

/-- `src/dev.rs:584` `Default` -/
instance : Zero Counts := ⟨⟨0, 0, 0, 0⟩⟩

/-- `src/dev.rs:602-609` `AddAssign` -/
instance : Add Counts := ⟨fun s o => ⟨s.allocations + o.allocations, s.multConstraints + o.multConstraints,
  s.totalMults + o.totalMults, s.totalLcs + o.totalLcs⟩⟩

end Counts

/-- `src/dev.rs:620-625` `Assignment`. The map is a function: the order of its keys is not modelled. -/
structure CountState where
  counts : List Char → Option Counts
  currentNamespace : List Name
  countStack : List Counts
  currentCounts : Counts

/-- `src/dev.rs:627-673`; the value of a variable is never asked for. -/
def countBackend (F : Type) : Backend F CountState ℕ where
  getVar _ _ := .ok none
  setVar s annotated _ _ :=
    if annotated then
      .ok ({ s with currentCounts := { s.currentCounts with allocations := s.currentCounts.allocations + 1 } }, false)
    else .ok (s, false)
  newGate s annotated :=
    let counts := { s.currentCounts with totalMults := s.currentCounts.totalMults + 1 }
    { s with
      currentCounts :=
        if annotated then { counts with multConstraints := counts.multConstraints + 1 } else counts }
  newLinear s :=
    let counts := { s.currentCounts with totalLcs := s.currentCounts.totalLcs + 1 }
    ({ s with currentCounts := counts }, counts.totalLcs)
  insertCoeff s _ _ _ := .ok s
  newK s _ _ := .ok s

namespace CountState

/-- `src/dev.rs:675-688` `push_namespace` -/
def push (s : CountState) (name : Name) : CountState :=
  { s with
    currentNamespace := s.currentNamespace ++ [name]
    countStack := s.countStack ++ [s.currentCounts]
    currentCounts := 0 }

/-- `src/dev.rs:690-702` `pop_namespace`; `none` is a panic. -/
def pop (s : CountState) : Option CountState := do
  let node ← s.currentNamespace.getLast?
  let path ← computePath s.currentNamespace.dropLast node
  some {
    counts := fun key => if key = path then some s.currentCounts else s.counts key
    currentNamespace := s.currentNamespace.dropLast
    countStack := s.countStack.dropLast
    currentCounts := s.currentCounts + s.countStack.getLast?.getD 0 }

/-- Leave that many namespaces; `none` is a panic. -/
def popMany : ℕ → CountState → Option CountState
  | 0, s => some s
  | n + 1, s => s.pop.bind (popMany n)

end CountState

variable {F : Type} [Field F]

/-- The calls of a circuit on the synthesizer (`src/synthesis.rs:112-245`) with this backend. On an error the
namespaces are left (`src/circuits.rs:175-207`), which is a panic if there is a slash in one of the names. -/
def runCount {α : Type} : Named F α → Driver CountState → Except Fail (α × Driver CountState)
  | .pure a, d => .ok (a, d)
  | .throw e, d => match d.backend.popMany d.backend.currentNamespace.length with
    | none => .error .panic
    | some _ => .error (.err e)
  | .panic, _ => .error .panic
  | .alloc _ v k, d => do
    let ((x, o), d) ← Basic.alloc (countBackend F) d v
    runCount (k x o) d
  | .allocInput _ v k, d => do
    let ((x, o), d) ← Basic.allocInput (countBackend F) d v
    runCount (k x o) d
  | .enforceZero lc k, d => do
    let d ← Basic.enforceZero (countBackend F) d lc
    runCount k d
  | .multiply _ v k, d => do
    let ((a, b, c, o), d) ← Basic.multiply (countBackend F) d v
    runCount (k a b c o) d
  | .push name k, d => runCount k { d with backend := d.backend.push name }
  | .pop k, d => match d.backend.pop with
    | none => .error .panic
    | some b => runCount k { d with backend := b }

/-- `src/dev.rs:617-720` `constraint_count`, for the `Basic` driver (`src/synthesis.rs:253-276`) -/
def constraintCount {α : Type} (circuit : Var → Named F α) : Except Fail (List Char → Option Counts) :=
  match Basic.allocInput (countBackend F) ⟨⟨fun _ => none, [], [], 0⟩, none, 0, 0⟩ (.ok 1) with
  | .error _ => .error .panic
  | .ok ((one, _), d) =>
    if one = .A 1 then do
      let (_, d) ← runCount (circuit Basic.ONE) d
      .ok fun key => if key = [] then some d.backend.currentCounts else d.backend.counts key
    else .error .panic

end Circuit
end Halo
