import Verif.Model.Circuit
/-!
# What a circuit has been given

A program that makes the same calls as a given one, and also returns the variables it has been
given, with the values it has supplied for them, and the triples it has supplied to `multiply`.
-/
namespace Halo
namespace Circuit

/-- Variables handed out, in order, with their values, if they have been asked for; and the values
supplied to multiplication gates. -/
structure Log (F : Type) where
  vars : List (Var × Option F)
  products : List (F × F × F)

namespace Prog
variable {F α β : Type}

/-- Apply a function to the result. -/
def map (f : α → β) : Prog F α → Prog F β
  | .pure a => .pure (f a)
  | .throw e => .throw e
  | .panic => .panic
  | .alloc v k => .alloc v fun x o => (k x o).map f
  | .allocInput v k => .allocInput v fun x o => (k x o).map f
  | .enforceZero lc k => .enforceZero lc (k.map f)
  | .multiply v k => .multiply v fun a b c o => (k a b c o).map f

/-- The same calls, and what has been given -/
def traced : Prog F α → Prog F (α × Log F)
  | .pure a => .pure (a, ⟨[], []⟩)
  | .throw e => .throw e
  | .panic => .panic
  | .alloc v k => .alloc v fun x o =>
    (k x o).traced.map fun r => (r.1, ⟨(x, o) :: r.2.vars, r.2.products⟩)
  | .allocInput v k => .allocInput v fun x o =>
    (k x o).traced.map fun r => (r.1, ⟨(x, o) :: r.2.vars, r.2.products⟩)
  | .enforceZero lc k => .enforceZero lc k.traced
  | .multiply v k => .multiply v fun a b c o =>
    (k a b c o).traced.map fun r => (r.1,
      ⟨(a, o.map fun v => v.1) :: (b, o.map fun v => v.2.1) :: (c, o.map fun v => v.2.2) :: r.2.vars,
        o.toList ++ r.2.products⟩)

end Prog
end Circuit
end Halo
