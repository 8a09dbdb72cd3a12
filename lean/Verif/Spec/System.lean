import Verif.Model.Circuit
import Mathlib.Logic.Function.Basic
import Mathlib.Algebra.BigOperators.Group.List.Basic
/-!
# The constraint system that a circuit describes

An independent reading of a circuit: the gates, wires, linear constraints and public inputs that it
asks for, and the values that it gives to the wires.  The synthesizer and its backends are proved to
agree with it.
-/
namespace Halo
namespace Circuit
variable {F : Type} [Field F]

/-- The value of a linear combination under an assignment of the variables. -/
def LC.eval (w : Var → F) (lc : LC F) : F := (lc.terms.map fun t => t.2.value * w t.1).sum

/-- What has been asked for so far.  `half` is the gate of which only the left wire has been handed
out.  A public input is recorded as the number of the linear constraint that exposes it, with its
value, if that is known.  `wellScoped` says that all linear constraints have used only wires of gates
that existed at the time. -/
structure System (F : Type) where
  gates : ℕ
  half : Option ℕ
  w : Var → F
  lcs : List (LC F)
  inputs : List (ℕ × Option F)
  wellScoped : Bool

namespace System

/-- Nothing has been asked for. -/
def empty : System F := ⟨0, none, fun _ => 0, [], [], true⟩

/-- A private variable: the left wire of a new gate, or the right wire of the gate of which the left
wire has been handed out last.  The gate then multiplies the two. -/
def fresh (s : System F) (value : F) : Var × System F :=
  match s.half with
  | some i => (.B i,
      { s with
        half := none
        w := Function.update (Function.update s.w (.B i) value) (.C i) (s.w (.A i) * value) })
  | none => (.A (s.gates + 1),
      { s with
        gates := s.gates + 1
        half := some (s.gates + 1)
        w := Function.update s.w (.A (s.gates + 1)) value })

/-- A multiplication gate with these values on its wires -/
def gate (s : System F) (values : F × F × F) : System F :=
  { s with
    gates := s.gates + 1
    w := Function.update (Function.update (Function.update s.w
      (.A (s.gates + 1)) values.1) (.B (s.gates + 1)) values.2.1) (.C (s.gates + 1)) values.2.2 }

/-- A linear constraint -/
def constrain (s : System F) (lc : LC F) : System F :=
  { s with
    lcs := s.lcs ++ [lc]
    wellScoped := s.wellScoped && lc.terms.all fun t => 0 < t.1.index && t.1.index ≤ s.gates }

/-- Expose a variable as the next public input. -/
def expose (s : System F) (var : Var) (value : Option F) : System F :=
  let s := s.constrain ⟨[(var, .one)]⟩
  { s with inputs := s.inputs ++ [(s.lcs.length, value)] }

end System

/-- What a program asks for; `known` says whether the values of the variables are asked for, in
which case a failure to supply a value is a failure of the program. -/
def collect {α : Type} (known : Bool) : Prog F α → System F → Except Fail (α × System F)
  | .pure a, s => .ok (a, s)
  | .throw e, _ => .error (.err e)
  | .panic, _ => .error .panic
  | .alloc value k, s =>
    if known then
      match value with
      | .error e => .error (.err e)
      | .ok v => collect known (k (s.fresh v).1 (some v)) (s.fresh v).2
    else collect known (k (s.fresh 0).1 none) (s.fresh 0).2
  | .allocInput value k, s =>
    match value with
    | .error e =>
      if known then .error (.err e)
      else collect known (k (s.fresh 0).1 none) ((s.fresh 0).2.expose (s.fresh 0).1 none)
    | .ok v =>
      let x := if known then v else 0
      collect known (k (s.fresh x).1 (some v)) ((s.fresh x).2.expose (s.fresh x).1 (some v))
  | .enforceZero lc k, s => collect known k (s.constrain lc)
  | .multiply values k, s =>
    let i := s.gates + 1
    if known then
      match values with
      | .error e => .error (.err e)
      | .ok v => collect known (k (.A i) (.B i) (.C i) (some v)) (s.gate v)
    else collect known (k (.A i) (.B i) (.C i) none) (s.gate (0, 0, 0))

/-- The system of a circuit: the constant one is the first public input, and is the variable that
the circuit gets as `ONE`. -/
def circuitSystem {α : Type} (known : Bool) (circuit : Var → Prog F α) :
    Except Fail (α × System F) :=
  let x : F := if known then 1 else 0
  let s := ((System.empty.fresh x).2.expose (System.empty.fresh x).1 (some 1))
  collect known (circuit (.A 1)) s

/-- The right-hand side of linear constraint `q` (counted from 1): the public input that it exposes,
if any, and zero otherwise. -/
def rhs (exposed : List (ℕ × F)) (q : ℕ) : F :=
  ((exposed.find? fun p => p.1 = q).map fun p => p.2).getD 0

/-- An assignment satisfies a system with the given values for the public inputs, the first of which
is the constant one. -/
def System.Satisfied (s : System F) (w : Var → F) (publicInputs : List F) : Prop :=
  (∀ i, 1 ≤ i → i ≤ s.gates → w (.A i) * w (.B i) = w (.C i)) ∧
  ∀ q lc, s.lcs[q]? = some lc →
    lc.eval w = rhs ((s.inputs.map fun p => p.1).zip (1 :: publicInputs)) (q + 1)

/-- The monomial of the constraint polynomial that belongs to a variable, for `n` gates:
`x^{-i}` for `A(i)`, `x^i` for `B(i)` and `x^{i+n}` for `C(i)` (`src/proofs.rs:1509-1517`). -/
def monomial (n : ℕ) (x : F) : Var → F
  | .A i => (x ^ i)⁻¹
  | .B i => x ^ i
  | .C i => x ^ (i + n)

/-- `s(x, y)`: constraint number `q` contributes `y^q` times its linear combination in the
monomials. -/
def sEval (n : ℕ) (lcs : List (LC F)) (x y : F) : F :=
  (lcs.mapIdx fun q lc => y ^ (q + 1) * lc.eval (monomial n x)).sum

end Circuit
end Halo
