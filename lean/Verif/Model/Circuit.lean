import Mathlib.Algebra.Field.Defs
import Mathlib.Data.List.Basic
/-!
# Constraint systems (`src/circuits.rs`) and the basic driver (`src/synthesis.rs`)

Annotations and namespaces only affect error messages (and the panic of `compute_path` on a `/`
in a name); circuits with names are modelled in `Verif.Model.Named`.
-/
namespace Halo
namespace Circuit

/-- `src/circuits.rs:5-10` `Variable` -/
inductive Var where
  | A (index : ℕ)
  | B (index : ℕ)
  | C (index : ℕ)
deriving DecidableEq

/-- `src/dev.rs:19-27` `Variable::get_index` -/
def Var.index : Var → ℕ
  | .A i | .B i | .C i => i

/-- `src/circuits.rs:12-18` `SynthesisError` -/
inductive SynthesisError where
  | assignmentMissing
  | divisionByZero
  | unsatisfiable
  | violation
deriving DecidableEq

/-- How a computation can fail: by returning `Err`, or by panicking. -/
inductive Fail where
  | err (e : SynthesisError)
  | panic
deriving DecidableEq

/-- `src/circuits.rs:267-273` `Coeff` -/
inductive Coeff (F : Type) where
  | zero
  | one
  | negativeOne
  | full (val : F)
deriving DecidableEq

namespace Coeff
variable {F : Type} [Field F]

/-- `src/circuits.rs:281-292` `Mul<F> for Coeff<F>` -/
def mulField : Coeff F → F → Coeff F
  | .zero, _ => .zero
  | .one, o => .full o
  | .negativeOne, o => .full (-o)
  | .full v, o => .full (v * o)

/-- `src/circuits.rs:342-356` `Neg for Coeff<F>` -/
def neg : Coeff F → Coeff F
  | .zero => .zero
  | .one => .negativeOne
  | .negativeOne => .one
  | .full a => .full (-a)

/-- `src/circuits.rs:294-305` `Mul<Coeff<F>> for Coeff<F>`; the patterns are tried in order. -/
def mul (x y : Coeff F) : Coeff F :=
  match x, y with
  | .zero, _ => .zero
  | _, .zero => .zero
  | .one, a => a
  | a, .one => a
  | .negativeOne, a => neg a
  | a, .negativeOne => neg a
  | .full a, .full b => .full (a * b)

/-- `src/circuits.rs:308-321` `multiply` -/
def multiply : Coeff F → F → F
  | .zero, _ => 0
  | .one, w => w
  | .negativeOne, w => -w
  | .full v, w => w * v

/-- `src/circuits.rs:323-330` `double` -/
def double : Coeff F → Coeff F
  | .zero => .zero
  | .one => .full (1 + 1)
  | .negativeOne => .full (-(1 + 1))
  | .full v => .full (v + v)

/-- `src/circuits.rs:332-339` `value` -/
def value : Coeff F → F
  | .zero => 0
  | .one => 1
  | .negativeOne => -1
  | .full v => v

end Coeff

/-- `src/circuits.rs:358-359` `LinearCombination` -/
structure LC (F : Type) where
  terms : List (Var × Coeff F)
deriving DecidableEq

/-- `v[index - 1]`; `index - 1` panics on underflow in debug builds, and the wrapped index is out
of bounds in release builds. -/
def at1 {α : Type} (l : List α) (index : ℕ) : Option α := if index = 0 then none else l[index - 1]?

namespace LC
variable {F : Type} [Field F]

/-- `src/circuits.rs:389-393` `zero` -/
def zero : LC F := ⟨[]⟩

/-- `src/circuits.rs:395-403` `+ (coeff, var)` -/
def add (l : LC F) (coeff : Coeff F) (var : Var) : LC F := ⟨l.terms ++ [(var, coeff)]⟩

/-- `src/circuits.rs:405-411` `- (coeff, var)` -/
def sub (l : LC F) (coeff : Coeff F) (var : Var) : LC F := l.add coeff.neg var

/-- `src/circuits.rs:413-419` `+ var` -/
def addVar (l : LC F) (var : Var) : LC F := l.add .one var

/-- `src/circuits.rs:421-427` `- var` -/
def subVar (l : LC F) (var : Var) : LC F := l.sub .one var

/-- `src/circuits.rs:429-439` `+ &lc` -/
def addLC (l o : LC F) : LC F := o.terms.foldl (fun l s => l.add s.2 s.1) l

/-- `src/circuits.rs:441-451` `- &lc` -/
def subLC (l o : LC F) : LC F := o.terms.foldl (fun l s => l.sub s.2 s.1) l

/-- `src/circuits.rs:453-463` `+ (coeff, &lc)` -/
def addScaled (l : LC F) (coeff : Coeff F) (o : LC F) : LC F :=
  o.terms.foldl (fun l s => l.add (s.2.mul coeff) s.1) l

/-- `src/circuits.rs:465-475` `- (coeff, &lc)` -/
def subScaled (l : LC F) (coeff : Coeff F) (o : LC F) : LC F :=
  o.terms.foldl (fun l s => l.sub (s.2.mul coeff) s.1) l

/-- `src/circuits.rs:377-381` `From<Variable>` -/
def ofVar (var : Var) : LC F := zero.addVar var

/-- `src/circuits.rs:362-374` `evaluate` -/
def evaluate (l : LC F) (a b c : List F) : Option F :=
  l.terms.foldlM (fun acc t => do
    let v ← match t.1 with
      | .A i => at1 a i
      | .B i => at1 b i
      | .C i => at1 c i
    some (acc + t.2.multiply v)) 0

end LC

/-- A program that makes calls to a `ConstraintSystem` (`src/circuits.rs:39-108`).  The closures
that supply values have no effects besides reporting the value they return to the caller: the
continuations receive `some v` if the constraint system has invoked the closure and it has returned
`Ok(v)`, and `none` if it was not invoked.  If it was invoked and failed, the call fails, and the
program with it, as all circuits in the repository use `?`; programs that go on after an `Err` are
modelled in `Verif.Model.Recover`.  `throw` is `return Err(e)`, `panic` is a panic. -/
inductive Prog (F : Type) (α : Type) where
  | pure (a : α)
  | throw (e : SynthesisError)
  | panic
  | alloc (value : Except SynthesisError F) (k : Var → Option F → Prog F α)
  | allocInput (value : Except SynthesisError F) (k : Var → Option F → Prog F α)
  | enforceZero (lc : LC F) (k : Prog F α)
  | multiply (values : Except SynthesisError (F × F × F))
      (k : Var → Var → Var → Option (F × F × F) → Prog F α)

namespace Prog
variable {F α β : Type}

/-- Sequencing, with `?` on errors. -/
def bind : Prog F α → (α → Prog F β) → Prog F β
  | .pure a, f => f a
  | .throw e, _ => .throw e
  | .panic, _ => .panic
  | .alloc v k, f => .alloc v fun x o => (k x o).bind f
  | .allocInput v k, f => .allocInput v fun x o => (k x o).bind f
  | .enforceZero lc k, f => .enforceZero lc (k.bind f)
  | .multiply v k, f => .multiply v fun a b c o => (k a b c o).bind f

instance : Monad (Prog F) where
  pure := .pure
  bind := bind

/-- `cs.alloc(..)` followed by reading back what the closure has produced. -/
def doAlloc (value : Except SynthesisError F) : Prog F (Var × Option F) :=
  .alloc value fun x o => .pure (x, o)
/-- `cs.alloc_input(..)` -/
def doAllocInput (value : Except SynthesisError F) : Prog F (Var × Option F) :=
  .allocInput value fun x o => .pure (x, o)
/-- `cs.enforce_zero(lc)` -/
def enforce (lc : LC F) : Prog F Unit := .enforceZero lc (.pure ())
/-- `cs.multiply(..)` -/
def doMultiply (values : Except SynthesisError (F × F × F)) :
    Prog F (Var × Var × Var × Option (F × F × F)) :=
  .multiply values fun a b c o => .pure (a, b, c, o)

end Prog

/-- `value.ok_or(AssignmentMissing)` -/
def orMissing {α : Type} : Option α → Except SynthesisError α
  | some a => .ok a
  | none => .error .assignmentMissing

/-- `src/synthesis.rs:8-81` `Backend`, on a state `β`, with linear constraint indices `ι`.  `setVar`
reports whether it has invoked the closure. -/
structure Backend (F β ι : Type) where
  getVar : β → Var → Except Fail (Option F)
  setVar : β → (annotated : Bool) → Var → Except SynthesisError F → Except Fail (β × Bool)
  newGate : β → (annotated : Bool) → β
  newLinear : β → β × ι
  insertCoeff : β → Var → Coeff F → ι → Except Fail β
  newK : β → ℕ → Option F → Except Fail β

/-- `src/synthesis.rs:99-105` `Synthesizer` -/
structure Driver (β : Type) where
  backend : β
  cur : Option ℕ
  q : ℕ
  n : ℕ

namespace Basic
variable {F β ι : Type} [Field F] (B : Backend F β ι)

/-- `src/synthesis.rs:112-164` `alloc` -/
def alloc (d : Driver β) (value : Except SynthesisError F) :
    Except Fail ((Var × Option F) × Driver β) :=
  match d.cur with
  | some index => do
    let valueA ← B.getVar d.backend (.A index)
    let (b, called) ← B.setVar d.backend true (.B index) (do
      let valueB ← value
      let _ ← orMissing valueA
      .ok valueB)
    let product : Option F := if called then
        match value, valueA with
        | .ok vb, some va => some (va * vb)
        | _, _ => none
      else none
    let (b, _) ← B.setVar b false (.C index) (orMissing product)
    .ok ((.B index, if called then value.toOption else none), { d with backend := b, cur := none })
  | none => do
    let n := d.n + 1
    let index := n
    let b := B.newGate d.backend false
    let (b, called) ← B.setVar b true (.A index) value
    .ok ((.A index, if called then value.toOption else none),
      { d with backend := b, cur := some index, n := n })

/-- `src/synthesis.rs:185-193` `enforce_zero` -/
def enforceZero (d : Driver β) (lc : LC F) : Except Fail (Driver β) := do
  let (b, y) := B.newLinear d.backend
  let b ← lc.terms.foldlM (fun b t => B.insertCoeff b t.1 t.2 y) b
  .ok { d with backend := b, q := d.q + 1 }

/-- `src/synthesis.rs:166-183` `alloc_input`; here the closure is always invoked. -/
def allocInput (d : Driver β) (value : Except SynthesisError F) :
    Except Fail ((Var × Option F) × Driver β) := do
  let ((var, _), d) ← alloc B d value
  let d ← enforceZero B d (LC.zero.addVar var)
  let b ← B.newK d.backend d.q value.toOption
  .ok ((var, value.toOption), { d with backend := b })

/-- `src/synthesis.rs:195-234` `multiply` -/
def multiply (d : Driver β) (values : Except SynthesisError (F × F × F)) :
    Except Fail ((Var × Var × Var × Option (F × F × F)) × Driver β) := do
  let index := d.n + 1
  let b := B.newGate d.backend true
  let (b, called) ← B.setVar b false (.A index) (values.map fun v => v.1)
  let vals : Option (F × F × F) := if called then values.toOption else none
  let (b, _) ← B.setVar b false (.B index) (orMissing (vals.map fun v => v.2.1))
  let (b, _) ← B.setVar b false (.C index) (orMissing (vals.map fun v => v.2.2))
  .ok ((.A index, .B index, .C index, vals), { d with backend := b, n := index })

/-- Run a program on the synthesizer. -/
def run {α : Type} : Prog F α → Driver β → Except Fail (α × Driver β)
  | .pure a, d => .ok (a, d)
  | .throw e, _ => .error (.err e)
  | .panic, _ => .error .panic
  | .alloc v k, d => do
    let ((x, o), d) ← alloc B d v
    run (k x o) d
  | .allocInput v k, d => do
    let ((x, o), d) ← allocInput B d v
    run (k x o) d
  | .enforceZero lc k, d => do
    let d ← enforceZero B d lc
    run k d
  | .multiply v k, d => do
    let ((a, b, c, o), d) ← multiply B d v
    run (k a b c o) d

/-- `src/synthesis.rs:110` `ONE` -/
def ONE : Var := .A 1

/-- `src/synthesis.rs:253-276` `Basic::synthesize`: allocate the constant one as public input, then
run the circuit.  A circuit is generic in the constraint system type, of which it can see only the
constant `ONE`; so it is a function of that. -/
def synthesize {α : Type} (b : β) (circuit : Var → Prog F α) : Except Fail (α × Driver β) :=
  match allocInput B ⟨b, none, 0, 0⟩ (.ok 1) with
  | .error _ => .error .panic
  | .ok ((one, _), d) => if one = .A 1 then run B (circuit ONE) d else .error .panic

end Basic

end Circuit
end Halo
