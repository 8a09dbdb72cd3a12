import Verif.Model.Count
import Verif.Spec.System
/-!
# Specification: what a circuit asks for within each namespace

The counts of a namespace are the differences between the totals when it is left and when it was entered.
-/
namespace Halo
namespace Circuit
variable {F : Type} [Field F]

/-- A circuit up to some point: the system that it has asked for, how often it has allocated a variable and asked
for a multiplication, the namespaces that it is in, the innermost one first, with the totals when they were
entered, and the namespaces that it has left, in this order, with their counts. -/
structure Tally (F : Type) where
  system : System F
  allocations : ℕ
  multiplications : ℕ
  entered : List (Name × Counts)
  left : List (List Name × Counts)

namespace Tally

/-- Everything up to now -/
def totals (t : Tally F) : Counts := ⟨t.allocations, t.multiplications, t.system.gates, t.system.lcs.length⟩

/-- What has been asked for since the totals were these -/
def since (t : Tally F) (c : Counts) : Counts :=
  ⟨t.allocations - c.allocations, t.multiplications - c.multConstraints, t.system.gates - c.totalMults,
    t.system.lcs.length - c.totalLcs⟩

end Tally

/-- What a circuit does, when it is run without values. It is a panic to leave a namespace that has not been entered,
or one with a slash in its name. On an error all namespaces are left. -/
def tally {α : Type} : Named F α → Tally F → Except Fail (α × Tally F)
  | .pure a, t => .ok (a, t)
  | .throw e, t => if ∀ n ∈ t.entered, '/' ∉ n.1 then .error (.err e) else .error .panic
  | .panic, _ => .error .panic
  | .alloc _ _ k, t => tally (k (t.system.fresh 0).1 none)
      { t with system := (t.system.fresh 0).2, allocations := t.allocations + 1 }
  | .allocInput _ v k, t => tally (k (t.system.fresh 0).1 v.toOption)
      { t with
        system := (t.system.fresh 0).2.expose (t.system.fresh 0).1 v.toOption
        allocations := t.allocations + 1 }
  | .enforceZero lc k, t => tally k { t with system := t.system.constrain lc }
  | .multiply _ _ k, t =>
    let i := t.system.gates + 1
    tally (k (.A i) (.B i) (.C i) none)
      { t with system := t.system.gate (0, 0, 0), multiplications := t.multiplications + 1 }
  | .push name k, t => tally k { t with entered := (name, t.totals) :: t.entered }
  | .pop k, t => match t.entered with
    | [] => .error .panic
    | (name, before) :: outer =>
      if '/' ∈ name then .error .panic
      else tally k
        { t with
          entered := outer
          left := t.left ++ [((((name, before) :: outer).map Prod.fst).reverse, t.since before)] }

/-- At the start there is the constant one, which is the first public input. -/
def Tally.start : Tally F :=
  let s : System F := System.empty
  ⟨(s.fresh 0).2.expose (s.fresh 0).1 (some 1), 1, 0, [], []⟩

/-- The whole circuit -/
def tallyCircuit {α : Type} (circuit : Var → Named F α) : Except Fail (α × Tally F) :=
  tally (circuit (.A 1)) Tally.start

/-- Whatever values it gets, the program leaves `d` namespaces more than it enters, and never more than it has entered
and these. Programs that use `namespace` are like this, with `d = 0`: a namespace is left when it is dropped, and the borrow
checker takes care of the order. -/
def Named.Balanced {α : Type} : ℕ → Named F α → Prop
  | d, .pure _ => d = 0
  | _, .throw _ => True
  | _, .panic => True
  | d, .alloc _ _ k => ∀ x o, (k x o).Balanced d
  | d, .allocInput _ _ k => ∀ x o, (k x o).Balanced d
  | d, .enforceZero _ k => k.Balanced d
  | d, .multiply _ _ k => ∀ a b c o, (k a b c o).Balanced d
  | d, .push _ k => k.Balanced (d + 1)
  | d, .pop k => 0 < d ∧ k.Balanced (d - 1)

/-- The names on a path, separated by slashes -/
def pathKey (path : List Name) : List Char := ['/'].intercalate path

end Circuit
end Halo
