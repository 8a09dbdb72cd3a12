import Verif.Model.Dev
/-!
# Circuits that go on after a call has failed (`src/circuits.rs`, `src/synthesis.rs`)

A circuit gets a `Result` from `alloc`, `alloc_input` and `multiply`, and need not pass an error on.
`Circuit.Prog` has the errors passed on with `?`; here are the programs that may do anything with
them, and the synthesizer with the state that a failed call leaves behind.
-/
namespace Halo
namespace Circuit

/-- A program that makes calls to a `ConstraintSystem` (`src/circuits.rs:39-108`) and sees their
results.  If a call succeeds, the program also sees what the closure has returned, if it was invoked,
as in `Prog`. -/
inductive RProg (F : Type) (α : Type) where
  | pure (a : α)
  | throw (e : SynthesisError)
  | panic
  | alloc (value : Except SynthesisError F)
      (k : Except SynthesisError (Var × Option F) → RProg F α)
  | allocInput (value : Except SynthesisError F)
      (k : Except SynthesisError (Var × Option F) → RProg F α)
  | enforceZero (lc : LC F) (k : RProg F α)
  | multiply (values : Except SynthesisError (F × F × F))
      (k : Except SynthesisError (Var × Var × Var × Option (F × F × F)) → RProg F α)

/-- A call of the synthesizer: it panics (`none`), or returns a `Result` and leaves the state that the
executed part of it has produced. -/
abbrev Keep (β α : Type) := Driver β → Option (Except SynthesisError α × Driver β)

namespace Keep
variable {F β ι α γ : Type} [Field F]

/-- `?` -/
def andThen (m : Keep β α) (f : α → Keep β γ) : Keep β γ := fun d =>
  match m d with
  | none => none
  | some (.error e, d) => some (.error e, d)
  | some (.ok a, d) => f a d

/-- `Ok(a)` -/
def done (a : α) : Keep β α := fun d => some (.ok a, d)

/-- An assignment to fields of the synthesizer -/
def modify (f : Driver β → Driver β) : Keep β Unit := fun d => some (.ok (), f d)

/-- A call of the backend that returns a `Result`: on `Err` the backend is as before.  This is so for
the backends of the library: `set_var` and `new_k_power` evaluate the value before they change
anything (`src/dev.rs:110`, `src/proofs.rs:375`, `431-440`), except that the satisfaction checker
assigns before it returns `Violation`, which the synthesizer never causes. -/
def backend (f : β → Except Fail (β × α)) : Keep β α := fun d =>
  match f d.backend with
  | .ok (b, a) => some (.ok a, { d with backend := b })
  | .error (.err e) => some (.error e, d)
  | .error .panic => none

variable (B : Backend F β ι)

/-- `src/synthesis.rs:112-164` `alloc`, statement by statement -/
def alloc (value : Except SynthesisError F) : Keep β (Var × Option F) := fun d =>
  match d.cur with
  | some index =>
    (modify fun d => { d with cur := none }).andThen (fun _ =>
    (backend fun b => (B.getVar b (.A index)).map fun v => (b, v)).andThen fun valueA =>
    (backend fun b => B.setVar b true (.B index) (do
      let valueB ← value
      let _ ← orMissing valueA
      .ok valueB)).andThen fun called =>
    let product : Option F := if called then
        match value, valueA with
        | .ok vb, some va => some (va * vb)
        | _, _ => none
      else none
    (backend fun b => B.setVar b false (.C index) (orMissing product)).andThen fun _ =>
    (modify fun d => { d with cur := none }).andThen fun _ =>
    done (.B index, if called then value.toOption else none)) d
  | none =>
    (modify fun d => { d with n := d.n + 1 }).andThen (fun _ =>
    (modify fun d => { d with backend := B.newGate d.backend false }).andThen fun _ =>
    (backend fun b => B.setVar b true (.A (d.n + 1)) value).andThen fun called =>
    (modify fun d' => { d' with cur := some (d.n + 1) }).andThen fun _ =>
    done (.A (d.n + 1), if called then value.toOption else none)) d

/-- `src/synthesis.rs:185-193` `enforce_zero`; `insert_coefficient` returns nothing, so the backend can
only panic. -/
def enforceZero (lc : LC F) : Keep β Unit := fun d =>
  let (b, y) := B.newLinear d.backend
  match lc.terms.foldlM (fun b t => B.insertCoeff b t.1 t.2 y) b with
  | .error _ => none
  | .ok b => some (.ok (), { d with backend := b, q := d.q + 1 })

/-- `src/synthesis.rs:166-183` `alloc_input` -/
def allocInput (value : Except SynthesisError F) : Keep β (Var × Option F) :=
  (alloc B value).andThen fun x =>
  (enforceZero B (LC.zero.addVar x.1)).andThen fun _ => fun d =>
  ((backend fun b => (B.newK b d.q value.toOption).map fun b => (b, ())).andThen fun _ =>
  done (x.1, value.toOption)) d

/-- `src/synthesis.rs:195-234` `multiply` -/
def multiply (values : Except SynthesisError (F × F × F)) :
    Keep β (Var × Var × Var × Option (F × F × F)) := fun d =>
  let index := d.n + 1
  ((modify fun d => { d with n := index }).andThen fun _ =>
  (modify fun d => { d with backend := B.newGate d.backend true }).andThen fun _ =>
  (backend fun b => B.setVar b false (.A index) (values.map fun v => v.1)).andThen fun called =>
  let vals : Option (F × F × F) := if called then values.toOption else none
  (backend fun b => B.setVar b false (.B index) (orMissing (vals.map fun v => v.2.1))).andThen fun _ =>
  (backend fun b => B.setVar b false (.C index) (orMissing (vals.map fun v => v.2.2))).andThen fun _ =>
  done (.A index, .B index, .C index, vals)) d

/-- Run a program on the synthesizer. -/
def run {α : Type} : RProg F α → Keep β α
  | .pure a, d => some (.ok a, d)
  | .throw e, d => some (.error e, d)
  | .panic, _ => none
  | .alloc v k, d => match alloc B v d with
    | none => none
    | some (r, d) => run (k r) d
  | .allocInput v k, d => match allocInput B v d with
    | none => none
    | some (r, d) => run (k r) d
  | .enforceZero lc k, d => match enforceZero B lc d with
    | none => none
    | some (_, d) => run k d
  | .multiply v k, d => match multiply B v d with
    | none => none
    | some (r, d) => run (k r) d

/-- `src/synthesis.rs:253-276` `Basic::synthesize`, and the state of the synthesizer at the end -/
def synthesize {α : Type} (b : β) (circuit : Var → RProg F α) :
    Option (Except SynthesisError α × Driver β) :=
  match allocInput B (.ok 1) ⟨b, none, 0, 0⟩ with
  | some (.ok (one, _), d) => if one = .A 1 then run B (circuit Basic.ONE) d else none
  | _ => none

end Keep

/-- `src/dev.rs:65-289` `is_satisfied`, for circuits that may go on after a failed call -/
def isSatisfiedKeep {F : Type} [Field F] [DecidableEq F] (circuit : Var → RProg F Unit)
    (inputs : List F) : Except (SatError F) Bool :=
  match Keep.synthesize satBackend ⟨0, 0, ⟨[], [], []⟩, [], [], []⟩ circuit with
  | none => .error .panic
  | some (.error e, _) => .error (.synthesis e)
  | some (.ok _, d) => checkAssignment d.backend inputs

/-- `src/dev.rs:375-463`: `Record` of `determinism_check`, as `record`; no call fails. -/
def recordKeep {F α : Type} : RProg F α → ℕ → List (Event F) → Except Fail (List (Event F))
  | .pure _, _, ev => .ok ev
  | .throw e, _, _ => .error (.err e)
  | .panic, _, _ => .error .panic
  | .alloc _ k, vars, ev => recordKeep (k (.ok (.A vars, none))) (vars + 1) (ev ++ [.alloc])
  | .allocInput _ k, vars, ev => recordKeep (k (.ok (.A vars, none))) (vars + 1) (ev ++ [.inputAlloc])
  | .enforceZero lc k, vars, ev => recordKeep k vars (ev ++ [.enforceZero lc])
  | .multiply _ k, vars, ev =>
    recordKeep (k (.ok (.A vars, .A (vars + 1), .A (vars + 2), none))) (vars + 3) (ev ++ [.multiplication])

/-- `src/dev.rs:465-579`: `Enforce` of `determinism_check`, as `enforceEvents`; a call whose closure
fails returns before it looks at the recorded events (`src/dev.rs:481`, `503`, `544`). -/
def enforceEventsKeep {F α : Type} [DecidableEq F] : RProg F α → ℕ → List (Event F) → Except Fail Unit
  | .pure _, _, _ => .ok ()
  | .throw e, _, _ => .error (.err e)
  | .panic, _, _ => .error .panic
  | .alloc value k, vars, ev => match value with
    | .error e => enforceEventsKeep (k (.error e)) vars ev
    | .ok v => match ev with
      | .alloc :: ev => enforceEventsKeep (k (.ok (.A vars, some v))) (vars + 1) ev
      | _ => .error .panic
  | .allocInput value k, vars, ev => match value with
    | .error e => enforceEventsKeep (k (.error e)) vars ev
    | .ok v => match ev with
      | .inputAlloc :: ev => enforceEventsKeep (k (.ok (.A vars, some v))) (vars + 1) ev
      | _ => .error .panic
  | .enforceZero lc k, vars, ev => match ev with
    | .enforceZero other :: ev => if sameLC other lc then enforceEventsKeep k vars ev else .error .panic
    | _ => .error .panic
  | .multiply values k, vars, ev => match values with
    | .error e => enforceEventsKeep (k (.error e)) vars ev
    | .ok v => match ev with
      | .multiplication :: ev =>
        enforceEventsKeep (k (.ok (.A vars, .A (vars + 1), .A (vars + 2), some v))) (vars + 3) ev
      | _ => .error .panic

/-- `src/dev.rs:367-582` `determinism_check`, for circuits that may go on after a failed call -/
def determinismCheckKeep {F : Type} [DecidableEq F] (circuit : Var → RProg F Unit) :
    Except Fail Unit := do
  let events ← recordKeep (circuit (.A 0)) 1 []
  enforceEventsKeep (circuit (.A 0)) 1 events

end Circuit
end Halo
