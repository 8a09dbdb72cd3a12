import Verif.Model.Recover
/-!
# Circuits that go on after a failed call, and circuits that do not
-/
namespace Halo
namespace Circuit
variable {F α : Type}

/-- A program in which every call is followed by `?`, as a program that sees the results -/
def Prog.lift : Prog F α → RProg F α
  | .pure a => .pure a
  | .throw e => .throw e
  | .panic => .panic
  | .alloc v k => .alloc v fun
    | .ok (x, o) => (k x o).lift
    | .error e => .throw e
  | .allocInput v k => .allocInput v fun
    | .ok (x, o) => (k x o).lift
    | .error e => .throw e
  | .enforceZero lc k => .enforceZero lc k.lift
  | .multiply v k => .multiply v fun
    | .ok (a, b, c, o) => (k a b c o).lift
    | .error e => .throw e

namespace RProg

/-- The program with every call followed by `?` -/
def strict : RProg F α → Prog F α
  | .pure a => .pure a
  | .throw e => .throw e
  | .panic => .panic
  | .alloc v k => .alloc v fun x o => (k (.ok (x, o))).strict
  | .allocInput v k => .allocInput v fun x o => (k (.ok (x, o))).strict
  | .enforceZero lc k => .enforceZero lc k.strict
  | .multiply v k => .multiply v fun a b c o => (k (.ok (a, b, c, o))).strict

/-- The program with zeros in place of the values that it fails to supply: where a call fails, the
gate in question gets zeros on the wires that have not been handed out, and counts as used up.
`half` says whether the right wire of a gate is free.  If it is, a failed allocation uses it up;
otherwise a failed allocation uses up a whole gate, as does a failed multiplication. -/
def zeros [Zero F] : (half : Bool) → RProg F α → Prog F (Except SynthesisError α)
  | _, .pure a => .pure (.ok a)
  | _, .throw e => .pure (.error e)
  | _, .panic => .panic
  | half, .alloc (.ok v) k => .alloc (.ok v) fun x o => (k (.ok (x, o))).zeros (!half)
  | true, .alloc (.error e) k => .alloc (.ok 0) fun _ _ => (k (.error e)).zeros false
  | false, .alloc (.error e) k =>
    .alloc (.ok 0) fun _ _ => .alloc (.ok 0) fun _ _ => (k (.error e)).zeros false
  | half, .allocInput (.ok v) k => .allocInput (.ok v) fun x o => (k (.ok (x, o))).zeros (!half)
  | true, .allocInput (.error e) k => .alloc (.ok 0) fun _ _ => (k (.error e)).zeros false
  | false, .allocInput (.error e) k =>
    .alloc (.ok 0) fun _ _ => .alloc (.ok 0) fun _ _ => (k (.error e)).zeros false
  | half, .enforceZero lc k => .enforceZero lc (k.zeros half)
  | half, .multiply (.ok v) k => .multiply (.ok v) fun a b c o => (k (.ok (a, b, c, o))).zeros half
  | half, .multiply (.error e) k => .multiply (.ok (0, 0, 0)) fun _ _ _ _ => (k (.error e)).zeros half

/-- What a program has been given: variables with their values and triples for `multiply` as in
`Log`, and for every call that takes a closure the error of the closure, if it fails, and the error
that the call has returned, if it has failed. -/
structure Log (F : Type) where
  vars : List (Var × Option F)
  products : List (F × F × F)
  outcomes : List (Option SynthesisError × Option SynthesisError)

/-- The error of a result -/
def error {β : Type} : Except SynthesisError β → Option SynthesisError
  | .ok _ => none
  | .error e => some e

/-- The same calls, and what has been given, added to `log` -/
def traced : RProg F α → Log F → RProg F (α × Log F)
  | .pure a, log => .pure (a, log)
  | .throw e, _ => .throw e
  | .panic, _ => .panic
  | .alloc v k, log => .alloc v fun r => (k r).traced
    { log with
      vars := log.vars ++ r.toOption.toList
      outcomes := log.outcomes ++ [(error v, error r)] }
  | .allocInput v k, log => .allocInput v fun r => (k r).traced
    { log with
      vars := log.vars ++ r.toOption.toList
      outcomes := log.outcomes ++ [(error v, error r)] }
  | .enforceZero lc k, log => .enforceZero lc (k.traced log)
  | .multiply v k, log => .multiply v fun r => (k r).traced
    { vars := log.vars ++ (match r with
        | .ok (a, b, c, o) => [(a, o.map fun v => v.1), (b, o.map fun v => v.2.1), (c, o.map fun v => v.2.2)]
        | .error _ => [])
      products := log.products ++ (match r with
        | .ok (_, _, _, o) => o.toList
        | .error _ => [])
      outcomes := log.outcomes ++ [(error v, error r)] }

end RProg

/-- The outcome of a synthesis, and the final state; a panic is `.error .panic`. -/
def Keep.orPanic {α β : Type} :
    Option (Except SynthesisError α × Driver β) → Except Fail (Except SynthesisError α × Driver β)
  | none => .error .panic
  | some x => .ok x

/-- The outcome of a synthesis, forgetting the state if it has failed -/
def Keep.outcome {α β : Type} :
    Option (Except SynthesisError α × Driver β) → Except Fail (α × Driver β)
  | none => .error .panic
  | some (.error e, _) => .error (.err e)
  | some (.ok a, d) => .ok (a, d)

end Circuit
end Halo
