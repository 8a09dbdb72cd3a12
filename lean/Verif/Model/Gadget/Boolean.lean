import Verif.Model.Circuit
import Verif.Spec.FieldApi
/-!
# Boolean gadgets (`src/gadgets/boolean.rs`)

`one` is the constant `CS::ONE` of the constraint system.
-/
namespace Halo
namespace Circuit
variable {F : Type} [Field F]

/-- `From<bool> for F` (`src/fields/fp.rs:28-36`, `src/fields/fq.rs:28-36`) -/
def ofBool (b : Bool) : F := if b then 1 else 0

/-- The value of a variable that a closure assigns before it returns `Ok`: `o` is what the
constraint system reports about the closure (see `Prog`). -/
def assignedBy {α β : Type} (o : Option α) (v : Option β) : Option β := if o.isSome then v else none

/-- `src/gadgets/boolean.rs:3-7` `AllocatedBit` -/
structure AllocatedBit where
  value : Option Bool
  var : Var

namespace AllocatedBit

/-- `src/gadgets/boolean.rs:10-19` `one` -/
def one (one : Var) : AllocatedBit := ⟨some true, one⟩

/-- `src/gadgets/boolean.rs:29-55` `alloc_input_unchecked` -/
def allocInputUnchecked (value : Except SynthesisError Bool) : Prog F AllocatedBit := do
  let (var, o) ← .doAllocInput (value.map ofBool)
  return ⟨assignedBy o value.toOption, var⟩

/-- `src/gadgets/boolean.rs:56-75` `check` -/
def check (b : AllocatedBit) : Prog F Unit := do
  let (a, b', c, _) ← .doMultiply (do
    let val : F := ofBool (← orMissing b.value)
    .ok (val, val, val))
  .enforce ((LC.ofVar a).subVar b.var)
  .enforce ((LC.ofVar b').subVar b.var)
  .enforce ((LC.ofVar c).subVar b.var)

/-- `src/gadgets/boolean.rs:77-103` `alloc` -/
def alloc (value : Except SynthesisError Bool) : Prog F AllocatedBit := do
  let (a, b, c, o) ← .doMultiply (do
    let fe : F := ofBool (← value)
    .ok (fe, fe, fe))
  .enforce ((LC.ofVar a).subVar b)
  .enforce ((LC.ofVar b).subVar c)
  return ⟨assignedBy o value.toOption, a⟩

/-- `src/gadgets/boolean.rs:105-177` `xor` -/
def xor (a b : AllocatedBit) : Prog F AllocatedBit := do
  let result : Except SynthesisError Bool := do
    let aVal ← orMissing a.value
    let bVal ← orMissing b.value
    .ok (aVal ^^ bVal)
  let (resultVar, o) ← .doAlloc (result.map fun r => if r then (1 : F) else 0)
  let resultValue := assignedBy o result.toOption
  let (d, e, f, _) ← .doMultiply (do
    let aVal : F := ofBool (← orMissing a.value)
    let bVal : F := ofBool (← orMissing b.value)
    let cVal : F := ofBool (← orMissing resultValue)
    .ok (aVal + aVal, bVal, aVal + bVal - cVal))
  .enforce (((LC.ofVar a.var).addVar a.var).subVar d)
  .enforce ((LC.ofVar b.var).subVar e)
  .enforce ((((LC.ofVar a.var).addVar b.var).subVar resultVar).subVar f)
  return ⟨resultValue, resultVar⟩

/-- `src/gadgets/boolean.rs:179-214` `and` -/
def and (a b : AllocatedBit) : Prog F AllocatedBit := do
  let result : Except SynthesisError Bool := do
    let aVal ← orMissing a.value
    let bVal ← orMissing b.value
    .ok (aVal && bVal)
  let (av, bv, rv, o) ← .doMultiply (do
    let aVal ← orMissing a.value
    let bVal ← orMissing b.value
    if aVal && bVal then .ok ((1 : F), 1, 1) else .ok (ofBool aVal, ofBool bVal, 0))
  .enforce ((LC.ofVar av).subVar a.var)
  .enforce ((LC.ofVar bv).subVar b.var)
  return ⟨assignedBy o result.toOption, rv⟩

/-- `src/gadgets/boolean.rs:216-244` `and_not` -/
def andNot (one : Var) (a b : AllocatedBit) : Prog F AllocatedBit := do
  let result : Except SynthesisError Bool := do
    let aVal ← orMissing a.value
    let bVal ← orMissing b.value
    .ok (aVal && !bVal)
  let (av, nb, rv, o) ← .doMultiply (do
    let aVal ← orMissing a.value
    let bVal ← orMissing b.value
    .ok ((ofBool aVal : F), ofBool !bVal, ofBool (aVal && !bVal)))
  .enforce ((LC.ofVar av).subVar a.var)
  .enforce (((LC.ofVar nb).addVar b.var).subVar one)
  return ⟨assignedBy o result.toOption, rv⟩

/-- `src/gadgets/boolean.rs:246-278` `nor` -/
def nor (one : Var) (a b : AllocatedBit) : Prog F AllocatedBit := do
  let result : Except SynthesisError Bool := do
    let aVal ← orMissing a.value
    let bVal ← orMissing b.value
    .ok (!aVal && !bVal)
  let (na, nb, rv, o) ← .doMultiply (do
    let aVal ← orMissing a.value
    let bVal ← orMissing b.value
    .ok ((ofBool !aVal : F), ofBool !bVal, ofBool (!aVal && !bVal)))
  .enforce (((LC.ofVar na).addVar a.var).subVar one)
  .enforce (((LC.ofVar nb).addVar b.var).subVar one)
  return ⟨assignedBy o result.toOption, rv⟩

end AllocatedBit

/-- `src/gadgets/boolean.rs:323-333` `Boolean` -/
inductive Boolean where
  | is (b : AllocatedBit)
  | not (b : AllocatedBit)
  | constant (b : Bool)

namespace Boolean

/-- `src/gadgets/boolean.rs:336-341` `is_constant` -/
def isConstant : Boolean → Bool
  | .constant _ => true
  | _ => false

/-- `src/gadgets/boolean.rs:374-380` `get_value` -/
def getValue : Boolean → Option Bool
  | .constant c => some c
  | .is v => v.value
  | .not v => v.value.map (!·)

/-- `src/gadgets/boolean.rs:382-396` `lc` -/
def lc (one : Var) (coeff : Coeff F) : Boolean → LC F
  | .constant c => if c then LC.zero.add coeff one else LC.zero
  | .is v => LC.zero.add coeff v.var
  | .not v => (LC.zero.add coeff one).sub coeff v.var

/-- `src/gadgets/boolean.rs:343-372` `enforce_equal` -/
def enforceEqual (one : Var) (a b : Boolean) : Prog F Unit :=
  match a, b with
  | .constant a, .constant b => if a = b then return () else .throw .unsatisfiable
  | .constant true, a => .enforce ((a.lc one .one).subVar one)
  | a, .constant true => .enforce ((a.lc one .one).subVar one)
  | .constant false, a => .enforce (a.lc one .one)
  | a, .constant false => .enforce (a.lc one .one)
  | a, b => .enforce ((a.lc one .one).subLC (b.lc one .one))

/-- `src/gadgets/boolean.rs:403-410` `not` -/
def negate : Boolean → Boolean
  | .constant c => .constant !c
  | .is v => .not v
  | .not v => .is v

/-- `src/gadgets/boolean.rs:412-432` `xor`; the recursive call in the mixed case always reaches the
last case. -/
def xor (a b : Boolean) : Prog F Boolean :=
  match a, b with
  | .constant false, x => return x
  | x, .constant false => return x
  | .constant true, x => return x.negate
  | x, .constant true => return x.negate
  | .is a, .not b => do return .negate (.is (← AllocatedBit.xor a b))
  | .not b, .is a => do return .negate (.is (← AllocatedBit.xor a b))
  | .is a, .is b => do return .is (← AllocatedBit.xor a b)
  | .not a, .not b => do return .is (← AllocatedBit.xor a b)

/-- `src/gadgets/boolean.rs:434-461` `and` -/
def and (one : Var) (a b : Boolean) : Prog F Boolean :=
  match a, b with
  | .constant false, _ => return .constant false
  | _, .constant false => return .constant false
  | .constant true, x => return x
  | x, .constant true => return x
  | .is a, .not b => do return .is (← AllocatedBit.andNot one a b)
  | .not b, .is a => do return .is (← AllocatedBit.andNot one a b)
  | .not a, .not b => do return .is (← AllocatedBit.nor one a b)
  | .is a, .is b => do return .is (← AllocatedBit.and a b)

/-- `src/gadgets/boolean.rs:546-589`: the general case of `sha256_ch` -/
def chGeneral (one : Var) (a b c : Boolean) (chValue : Option Bool) : Prog F Boolean := do
  let (ch, _) ← .doAlloc ((orMissing chValue).map fun b => (ofBool b : F))
  let (d, e, f, _) ← .doMultiply (do
    let aVal : F := ofBool (← orMissing a.getValue)
    let bVal : F := ofBool (← orMissing b.getValue)
    let cVal : F := ofBool (← orMissing c.getValue)
    let chVal : F := ofBool (← orMissing chValue)
    .ok (aVal, bVal - cVal, chVal - cVal))
  .enforce ((a.lc one .one).subVar d)
  .enforce (((b.lc one .one).subLC (c.lc one .one)).subVar e)
  .enforce (((LC.ofVar ch).subLC (c.lc one .one)).subVar f)
  return .is ⟨chValue, ch⟩

/-- `src/gadgets/boolean.rs:463-590` `sha256_ch` -/
def sha256Ch (one : Var) (a b c : Boolean) : Prog F Boolean :=
  let chValue := match a.getValue, b.getValue, c.getValue with
    | some a, some b, some c => some ((a && b) ^^ (!a && c))
    | _, _, _ => none
  match a, b, c with
  | .constant _, .constant _, .constant _ =>
    match chValue with
    | some v => return .constant v
    | none => .panic
  | .constant false, _, c => return c
  | a, .constant false, c => and one a.negate c
  | a, b, .constant false => and one a b
  | a, b, .constant true => do return (← and one a b.negate).negate
  | a, .constant true, c => do return (← and one a.negate c.negate).negate
  | a, b, c => chGeneral one a b c chValue

/-- `src/gadgets/boolean.rs:671-731`: the general case of `sha256_maj` -/
def majGeneral (one : Var) (a b c : Boolean) (majValue : Option Bool) : Prog F Boolean := do
  let (maj, _) ← .doAlloc ((orMissing majValue).map fun b => (ofBool b : F))
  let bc ← and one b c
  let (d, e, f, _) ← .doMultiply (do
    let aVal : F := ofBool (← orMissing a.getValue)
    let bVal : F := ofBool (← orMissing b.getValue)
    let cVal : F := ofBool (← orMissing c.getValue)
    let bcVal : F := ofBool (← orMissing bc.getValue)
    let majVal : F := ofBool (← orMissing majValue)
    .ok (bcVal + bcVal - bVal - cVal, aVal, bcVal - majVal))
  .enforce (((((bc.lc one .one).addLC (bc.lc one .one)).subLC (b.lc one .one)).subLC
    (c.lc one .one)).subVar d)
  .enforce ((a.lc one .one).subVar e)
  .enforce (((bc.lc one .one).subVar maj).subVar f)
  return .is ⟨majValue, maj⟩

/-- `src/gadgets/boolean.rs:592-732` `sha256_maj` -/
def sha256Maj (one : Var) (a b c : Boolean) : Prog F Boolean :=
  let majValue := match a.getValue, b.getValue, c.getValue with
    | some a, some b, some c => some (((a && b) ^^ (a && c)) ^^ (b && c))
    | _, _, _ => none
  match a, b, c with
  | .constant _, .constant _, .constant _ =>
    match majValue with
    | some v => return .constant v
    | none => .panic
  | .constant false, b, c => and one b c
  | a, .constant false, c => and one a c
  | a, b, .constant false => and one a b
  | a, b, .constant true => do return (← and one a.negate b.negate).negate
  | a, .constant true, c => do return (← and one a.negate c.negate).negate
  | .constant true, b, c => do return (← and one b.negate c.negate).negate
  | a, b, c => majGeneral one a b c majValue

end Boolean

end Circuit
end Halo
