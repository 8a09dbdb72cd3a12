import Verif.Model.Circuit
/-!
# Circuits with names (`src/circuits.rs`, `src/dev.rs`)

The names of gadgets, which are only recorded with the feature `gadget-traces`, are not modelled. Strings are lists of
characters.
-/
namespace Halo
namespace Circuit

abbrev Name := List Char

/-- A circuit with its namespaces: like `Prog` (`src/circuits.rs:39-108`), with the calls of `push_namespace` (line 85)
and `pop_namespace` (line 92), and the names of variables and gates, which are closures in the code, called by
`is_satisfied` only. -/
inductive Named (F : Type) (α : Type) where
  | pure (a : α)
  | throw (e : SynthesisError)
  | panic
  | alloc (name : Name) (value : Except SynthesisError F) (k : Var → Option F → Named F α)
  | allocInput (name : Name) (value : Except SynthesisError F) (k : Var → Option F → Named F α)
  | enforceZero (lc : LC F) (k : Named F α)
  | multiply (name : Name) (values : Except SynthesisError (F × F × F))
      (k : Var → Var → Var → Option (F × F × F) → Named F α)
  | push (name : Name) (k : Named F α)
  | pop (k : Named F α)

namespace Named
variable {F α β : Type}

/-- Sequencing, with `?` on errors. When an error is returned then the namespaces are left as well
(`Drop`, `src/circuits.rs:175-207`), see `runCount`. -/
def bind : Named F α → (α → Named F β) → Named F β
  | .pure a, f => f a
  | .throw e, _ => .throw e
  | .panic, _ => .panic
  | .alloc name v k, f => .alloc name v fun x o => (k x o).bind f
  | .allocInput name v k, f => .allocInput name v fun x o => (k x o).bind f
  | .enforceZero lc k, f => .enforceZero lc (k.bind f)
  | .multiply name v k, f => .multiply name v fun a b c o => (k a b c o).bind f
  | .push name k, f => .push name (k.bind f)
  | .pop k, f => .pop (k.bind f)

/-- `src/circuits.rs:98-107` `namespace` and `175-207` `Drop for Namespace`: what is done with the namespace that is
returned, until it is dropped. -/
def within (name : Name) (p : Named F α) : Named F α := .push name (p.bind fun a => .pop (.pure a))

/-- The same circuit without its namespaces, which most backends ignore (`src/synthesis.rs:72-81`) -/
def erase : Named F α → Prog F α
  | .pure a => .pure a
  | .throw e => .throw e
  | .panic => .panic
  | .alloc _ v k => .alloc v fun x o => (k x o).erase
  | .allocInput _ v k => .allocInput v fun x o => (k x o).erase
  | .enforceZero lc k => .enforceZero lc k.erase
  | .multiply _ v k => .multiply v fun a b c o => (k a b c o).erase
  | .push _ k => k.erase
  | .pop k => k.erase

end Named

/-- `src/dev.rs:29-47` `compute_path`; `none` is a panic. -/
def computePath (ns : List Name) (this : Name) : Option (List Char) :=
  if this.any fun a => a = '/' then none
  else some ((ns ++ [this]).foldl (fun (name, needsSeparation) ns =>
    ((if needsSeparation then name ++ ['/'] else name) ++ ns, true)) (([] : List Char), false)).1

end Circuit
end Halo
