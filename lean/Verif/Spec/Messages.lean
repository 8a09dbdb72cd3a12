import Verif.Model.Messages
import Verif.Spec.Count
/-!
# Specification: what `is_satisfied` answers
-/
namespace Halo
namespace Circuit
variable {F : Type} [Field F]

/-- A circuit up to some point: the system that it has asked for; for each gate the path of the multiplication that
asked for it, `none` if it was for allocations; for each linear constraint the namespaces in which it was asked for;
and the namespaces that the circuit is in, the outermost one first. -/
structure Traced (F : Type) where
  system : System F
  gates : List (Option (List Name))
  linear : List (List Name)
  within : List Name

/-- An allocated variable -/
def Traced.fresh (t : Traced F) (v : F) : Traced F :=
  { t with
    system := (t.system.fresh v).2
    gates := if t.system.half.isSome then t.gates else t.gates ++ [none] }

/-- What a circuit does, when it is run with values. A slash in the name of a variable or of a multiplication is a
panic, and so is leaving a namespace that has not been entered. -/
def trace {α : Type} : Named F α → Traced F → Except Fail (α × Traced F)
  | .pure a, t => .ok (a, t)
  | .throw e, _ => .error (.err e)
  | .panic, _ => .error .panic
  | .alloc _ (.error e) _, _ => .error (.err e)
  | .alloc name (.ok v) k, t =>
    if '/' ∈ name then .error .panic
    else trace (k (t.system.fresh v).1 (some v)) (t.fresh v)
  | .allocInput _ (.error e) _, _ => .error (.err e)
  | .allocInput name (.ok v) k, t =>
    if '/' ∈ name then .error .panic
    else trace (k (t.system.fresh v).1 (some v))
      { t.fresh v with
        system := (t.system.fresh v).2.expose (t.system.fresh v).1 (some v)
        linear := t.linear ++ [t.within] }
  | .enforceZero lc k, t =>
    trace k { t with system := t.system.constrain lc, linear := t.linear ++ [t.within] }
  | .multiply name values k, t =>
    if '/' ∈ name then .error .panic
    else match values with
      | .error e => .error (.err e)
      | .ok v =>
        let i := t.system.gates + 1
        trace (k (.A i) (.B i) (.C i) (some v))
          { t with system := t.system.gate v, gates := t.gates ++ [some (t.within ++ [name])] }
  | .push name k, t => trace k { t with within := t.within ++ [name] }
  | .pop k, t => if t.within = [] then .error .panic else trace k { t with within := t.within.dropLast }

/-- At the start there is the constant one, which is the first public input. -/
def Traced.start : Traced F :=
  let s : System F := System.empty
  ⟨(s.fresh 1).2.expose (s.fresh 1).1 (some 1), [none], [[]], []⟩

/-- The whole circuit -/
def traceCircuit {α : Type} (circuit : Var → Named F α) : Except Fail (α × Traced F) :=
  trace (circuit (.A 1)) Traced.start

namespace System

/-- Gate number `i`, counted from 0, holds. -/
def GateHolds (s : System F) (i : ℕ) : Prop := s.w (.A (i + 1)) * s.w (.B (i + 1)) = s.w (.C (i + 1))

/-- Linear constraints should mention only variables that exist. -/
def InScope (s : System F) (lc : LC F) : Prop := ∀ t ∈ lc.terms, 1 ≤ t.1.index ∧ t.1.index ≤ s.gates

/-- What linear constraint number `q`, counted from 0, should be equal to -/
def target (s : System F) (inputs : List F) (q : ℕ) : F :=
  rhs ((s.inputs.map fun p => p.1).zip (1 :: inputs)) (q + 1)

/-- The linear constraints before number `q` mention only variables that exist, and hold. -/
def LinearHold (s : System F) (inputs : List F) (q : ℕ) : Prop :=
  ∀ j < q, ∀ lc, s.lcs[j]? = some lc → s.InScope lc ∧ lc.eval s.w = s.target inputs j

end System

/-- What `is_satisfied` should answer when the circuit has done this: it reports the number of public inputs if it is
wrong, else the first gate that does not hold, else the first linear constraint that does not hold. -/
inductive Verdict (inputs : List F) : Except Fail (Unit × Traced F) → Except (NamedError F) Bool → Prop
  | synthesis (e : SynthesisError) : Verdict inputs (.error (.err e)) (.error (.synthesis e))
  | panic : Verdict inputs (.error .panic) (.error .panic)
  | inputLength {t : Traced F} : t.system.inputs.length ≠ inputs.length + 1 →
      Verdict inputs (.ok ((), t)) (.error (.inputLength inputs.length (t.system.inputs.length - 1)))
  | gate {t : Traced F} (i : ℕ) (path : List Name) : t.system.inputs.length = inputs.length + 1 →
      i < t.system.gates → (∀ j < i, t.system.GateHolds j) → ¬ t.system.GateHolds i →
      t.gates[i]? = some (some path) →
      Verdict inputs (.ok ((), t)) (.error (.multiplication (pathKey path)
        (t.system.w (.A (i + 1))) (t.system.w (.B (i + 1))) (t.system.w (.C (i + 1)))))
  | linear {t : Traced F} (q : ℕ) (lc : LC F) (path : List Name) : t.system.inputs.length = inputs.length + 1 →
      (∀ j < t.system.gates, t.system.GateHolds j) → t.system.LinearHold inputs q → t.system.lcs[q]? = some lc →
      t.system.InScope lc → lc.eval t.system.w ≠ t.system.target inputs q → t.linear[q]? = some path →
      Verdict inputs (.ok ((), t)) (.error (.linear (pathKey (path ++ ["TODO_LINEAR".toList]))
        (lc.eval t.system.w) (t.system.target inputs q)))
  | scope {t : Traced F} (q : ℕ) (lc : LC F) : t.system.inputs.length = inputs.length + 1 →
      (∀ j < t.system.gates, t.system.GateHolds j) → t.system.LinearHold inputs q → t.system.lcs[q]? = some lc →
      ¬ t.system.InScope lc → Verdict inputs (.ok ((), t)) (.error .panic)
  | satisfied {t : Traced F} : t.system.inputs.length = inputs.length + 1 →
      (∀ j < t.system.gates, t.system.GateHolds j) → t.system.LinearHold inputs t.system.lcs.length →
      Verdict inputs (.ok ((), t)) (.ok true)

end Circuit
end Halo
