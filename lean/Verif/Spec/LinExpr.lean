import Verif.Model.Circuit
/-!
# Linear expressions

The expressions over `LinearCombination` that a circuit can write, the combination that the code
builds for them, and their value in the field.
-/
namespace Halo
namespace Circuit
variable {F : Type} [Field F]

/-- Expressions with the operators of `LinearCombination` -/
inductive LinExpr (F : Type) where
  | zero
  | var (v : Var)
  | addTerm (e : LinExpr F) (c : Coeff F) (v : Var)
  | subTerm (e : LinExpr F) (c : Coeff F) (v : Var)
  | addVar (e : LinExpr F) (v : Var)
  | subVar (e : LinExpr F) (v : Var)
  | add (e o : LinExpr F)
  | sub (e o : LinExpr F)
  | addScaled (e : LinExpr F) (c : Coeff F) (o : LinExpr F)
  | subScaled (e : LinExpr F) (c : Coeff F) (o : LinExpr F)

namespace LinExpr

/-- What the code builds -/
def build : LinExpr F → LC F
  | zero => LC.zero
  | var v => LC.ofVar v
  | addTerm e c v => e.build.add c v
  | subTerm e c v => e.build.sub c v
  | addVar e v => e.build.addVar v
  | subVar e v => e.build.subVar v
  | add e o => e.build.addLC o.build
  | sub e o => e.build.subLC o.build
  | addScaled e c o => e.build.addScaled c o.build
  | subScaled e c o => e.build.subScaled c o.build

/-- What it means -/
def denote (w : Var → F) : LinExpr F → F
  | zero => 0
  | var v => w v
  | addTerm e c v => e.denote w + c.value * w v
  | subTerm e c v => e.denote w - c.value * w v
  | addVar e v => e.denote w + w v
  | subVar e v => e.denote w - w v
  | add e o => e.denote w + o.denote w
  | sub e o => e.denote w - o.denote w
  | addScaled e c o => e.denote w + c.value * o.denote w
  | subScaled e c o => e.denote w - c.value * o.denote w

/-- The variables that occur -/
def vars : LinExpr F → List Var
  | zero => []
  | var v => [v]
  | addTerm e _ v | subTerm e _ v | addVar e v | subVar e v => v :: e.vars
  | add e o | sub e o | addScaled e _ o | subScaled e _ o => e.vars ++ o.vars

end LinExpr

/-- The value of a variable in the three assignment vectors, zero beyond them. -/
def assigned (a b c : List F) : Var → F
  | .A i => a.getD (i - 1) 0
  | .B i => b.getD (i - 1) 0
  | .C i => c.getD (i - 1) 0

/-- The variable exists in the three assignment vectors. -/
def Exists (a b c : List F) : Var → Prop
  | .A i => 1 ≤ i ∧ i ≤ a.length
  | .B i => 1 ≤ i ∧ i ≤ b.length
  | .C i => 1 ≤ i ∧ i ≤ c.length

end Circuit
end Halo
