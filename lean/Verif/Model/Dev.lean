import Verif.Model.Circuit
/-!
# Development tools (`src/dev.rs`): `is_satisfied` and `determinism_check`

Paths and annotation strings only occur in error messages; they are modelled in `Verif.Model.Messages`.
-/
namespace Halo
namespace Circuit

/-- The three assignment vectors `a`, `b`, `c` (`src/dev.rs:78-80`, `src/proofs.rs:347-349`). -/
structure Wires (F : Type) where
  a : List F
  b : List F
  c : List F

namespace Wires
variable {F : Type} [Field F]

/-- `src/dev.rs:90-96`, `src/proofs.rs:356-362`: read a variable; `none` is a panic. -/
def get (w : Wires F) : Var → Option F
  | .A i => at1 w.a i
  | .B i => at1 w.b i
  | .C i => at1 w.c i

/-- `v[index - 1] = value`; `none` is a panic. -/
def set1 (l : List F) (index : ℕ) (value : F) : Option (List F) :=
  if 0 < index ∧ index ≤ l.length then some (l.set (index - 1) value) else none

/-- `src/dev.rs:112-145`, `src/proofs.rs:377-387`: write a variable; `none` is a panic. -/
def set (w : Wires F) (var : Var) (value : F) : Option (Wires F) :=
  match var with
  | .A i => (set1 w.a i value).map fun a => { w with a }
  | .B i => (set1 w.b i value).map fun b => { w with b }
  | .C i => (set1 w.c i value).map fun c => { w with c }

/-- `src/dev.rs:156-159`, `src/proofs.rs:398-400` -/
def push (w : Wires F) : Wires F := ⟨w.a ++ [0], w.b ++ [0], w.c ++ [0]⟩

end Wires

/-- `src/dev.rs:74-84` `Assignment`.  A gate is recorded in `mults` as `true` if it is a
constraint, and as `false` if it is used for allocations. -/
structure SatState (F : Type) where
  n : ℕ
  q : ℕ
  wires : Wires F
  mults : List Bool
  lcs : List (LC F × F)
  inputs : List ℕ

/-- `src/dev.rs:86-224`.  `setVar`: the annotated assignment to a `C` variable or to a gate that
is not an allocation is refused after the assignment has been made; the state is not used any more
then. -/
def satBackend {F : Type} [Field F] : Backend F (SatState F) ℕ where
  getVar s var := match s.wires.get var with
    | some v => .ok (some v)
    | none => .error .panic
  setVar s annotated var value := match value with
    | .error e => .error (.err e)
    | .ok v => match s.wires.set var v with
      | none => .error .panic
      | some wires =>
        if annotated then
          match var with
          | .C _ => .error (.err .violation)
          | .A i | .B i => match at1 s.mults i with
            | none => .error .panic
            | some true => .error (.err .violation)
            | some false => .ok ({ s with wires }, true)
        else .ok ({ s with wires }, true)
  newGate s annotated :=
    { s with n := s.n + 1, wires := s.wires.push, mults := s.mults ++ [annotated] }
  newLinear s :=
    ({ s with q := s.q + 1, lcs := s.lcs ++ [(LC.zero, 0)] }, s.lcs.length + 1)
  insertCoeff s var coeff y := match at1 s.lcs y with
    | none => .error .panic
    | some lc => .ok { s with lcs := s.lcs.set (y - 1) (lc.1.add coeff var, lc.2) }
  newK s index _ := .ok { s with inputs := s.inputs ++ [index] }

/-- `src/dev.rs:49-55` `SatisfactionError`, without paths, or a panic. -/
inductive SatError (F : Type) where
  | synthesis (e : SynthesisError)
  | inputLength (given expected : ℕ)
  | multiplication (a b c : F)
  | linear (lhs rhs : F)
  | panic

section
variable {F : Type} [Field F] [DecidableEq F]

/-- `src/dev.rs:254-261`: put the public inputs on the right-hand sides of their constraints. -/
def placeInputs (lcs : List (LC F × F)) : List (F × ℕ) → Option (List (LC F × F))
  | [] => some lcs
  | (value, idx) :: rest => do
    let lc ← at1 lcs idx
    placeInputs (lcs.set (idx - 1) (lc.1, value)) rest

/-- `src/dev.rs:263-278` -/
def checkGates : List ((F × F) × F) → Except (SatError F) Unit
  | [] => .ok ()
  | ((a, b), c) :: rest =>
    if a * b ≠ c then .error (.multiplication a b c) else checkGates rest

/-- `src/dev.rs:280-286` -/
def checkLinear (w : Wires F) : List (LC F × F) → Except (SatError F) Unit
  | [] => .ok ()
  | (lc, rhs) :: rest => match lc.evaluate w.a w.b w.c with
    | none => .error .panic
    | some lhs => if lhs ≠ rhs then .error (.linear lhs rhs) else checkLinear w rest

/-- `src/dev.rs:240-289`: what `is_satisfied` does when the circuit has been synthesized -/
def checkAssignment (s : SatState F) (inputs : List F) : Except (SatError F) Bool :=
  if s.n = s.wires.a.length ∧ s.n = s.wires.b.length ∧ s.n = s.wires.c.length ∧
      s.n = s.mults.length ∧ s.q = s.lcs.length then
    if inputs.length + 1 ≠ s.inputs.length then
      .error (.inputLength inputs.length (s.inputs.length - 1))
    else match placeInputs s.lcs ((1 :: inputs).zip s.inputs) with
      | none => .error .panic
      | some lcs => do
        checkGates ((s.wires.a.zip s.wires.b).zip s.wires.c)
        checkLinear s.wires lcs
        .ok true
  else .error .panic

/-- `src/dev.rs:65-289` `is_satisfied`, for the `Basic` driver. -/
def isSatisfied (circuit : Var → Prog F Unit) (inputs : List F) : Except (SatError F) Bool :=
  match Basic.synthesize satBackend ⟨0, 0, ⟨[], [], []⟩, [], [], []⟩ circuit with
  | .error (.err e) => .error (.synthesis e)
  | .error .panic => .error .panic
  | .ok (_, d) => checkAssignment d.backend inputs

/-- `src/dev.rs:368-373` `Event` -/
inductive Event (F : Type) where
  | alloc
  | inputAlloc
  | multiplication
  | enforceZero (lc : LC F)
deriving DecidableEq

/-- `src/dev.rs:375-463`: run a circuit on `Record`; closures are not invoked.  The state is `vars`
and the events recorded so far. -/
def record {α : Type} : Prog F α → ℕ → List (Event F) → Except Fail (List (Event F))
  | .pure _, _, ev => .ok ev
  | .throw e, _, _ => .error (.err e)
  | .panic, _, _ => .error .panic
  | .alloc _ k, vars, ev => record (k (.A vars) none) (vars + 1) (ev ++ [.alloc])
  | .allocInput _ k, vars, ev => record (k (.A vars) none) (vars + 1) (ev ++ [.inputAlloc])
  | .enforceZero lc k, vars, ev => record k vars (ev ++ [.enforceZero lc])
  | .multiply _ k, vars, ev =>
    record (k (.A vars) (.A (vars + 1)) (.A (vars + 2)) none) (vars + 3) (ev ++ [.multiplication])

/-- `src/dev.rs:517-524`: the comparison of two linear combinations -/
def sameLC (a b : LC F) : Bool :=
  a.terms.length = b.terms.length &&
    (a.terms.zip b.terms).all fun p => p.1.1.index = p.2.1.index && p.1.2 = p.2.2

/-- `src/dev.rs:465-579`: run a circuit on `Enforce`, which invokes every closure and compares with
the recorded events. -/
def enforceEvents {α : Type} : Prog F α → ℕ → List (Event F) → Except Fail Unit
  | .pure _, _, _ => .ok ()
  | .throw e, _, _ => .error (.err e)
  | .panic, _, _ => .error .panic
  | .alloc value k, vars, ev => match value with
    | .error e => .error (.err e)
    | .ok v => match ev with
      | .alloc :: ev => enforceEvents (k (.A vars) (some v)) (vars + 1) ev
      | _ => .error .panic
  | .allocInput value k, vars, ev => match value with
    | .error e => .error (.err e)
    | .ok v => match ev with
      | .inputAlloc :: ev => enforceEvents (k (.A vars) (some v)) (vars + 1) ev
      | _ => .error .panic
  | .enforceZero lc k, vars, ev => match ev with
    | .enforceZero other :: ev => if sameLC other lc then enforceEvents k vars ev else .error .panic
    | _ => .error .panic
  | .multiply values k, vars, ev => match values with
    | .error e => .error (.err e)
    | .ok v => match ev with
      | .multiplication :: ev =>
        enforceEvents (k (.A vars) (.A (vars + 1)) (.A (vars + 2)) (some v)) (vars + 3) ev
      | _ => .error .panic

/-- `src/dev.rs:367-582` `determinism_check`; `ONE` is `A(0)` here (`src/dev.rs:383`, `473`). -/
def determinismCheck (circuit : Var → Prog F Unit) : Except Fail Unit := do
  let events ← record (circuit (.A 0)) 1 []
  enforceEvents (circuit (.A 0)) 1 events

end
end Circuit
end Halo
