import Verif.Model.Gadget.Sha256
import Verif.Model.CurveApi
import Verif.Model.Util
/-!
# Curve points in circuits (`src/gadgets/ecc.rs`)

`E` is the curve, `F` its base field, which is the field of the circuit, `S` its scalar field.
`one` is the constant `CS::ONE`.  Values that the code computes as `Option` or `Result` are `Option`
and `Except` here.
-/
namespace Halo
namespace Circuit
open Sha256 (foldProg index)
variable {F : Type} [Field F] [DecidableEq F] [FieldApi F]

/-- `src/gadgets/ecc.rs:15-22` `CurvePoint` -/
structure CurvePoint (F : Type) where
  x : Num F
  y : Num F
  isIdentity : Boolean

/-- The coordinates and the flag that represent a point, `(0, 0)` for the identity
(`src/gadgets/ecc.rs:50-60`, `376-389`, `1969-1975`) -/
def pointValues (p : Proj F) : F × F × Bool :=
  match p.getXy with
  | some (x, y) => (x, y, false)
  | none => (0, 0, true)

/-- `value.ok_or(DivisionByZero)` -/
def orDivision {α : Type} : Option α → Except SynthesisError α
  | some a => .ok a
  | none => .error .divisionByZero

namespace CurvePoint
variable (E : CurveConsts)

omit [DecidableEq F] [FieldApi F] in
/-- `src/gadgets/ecc.rs:26-33` `identity` -/
def identity : CurvePoint F := ⟨.const 0, .const 0, .constant true⟩

omit [DecidableEq F] [FieldApi F] in
/-- `src/gadgets/ecc.rs:36-42` `constant` -/
def const (x y : F) : CurvePoint F := ⟨.const x, .const y, .constant false⟩

/-- `src/gadgets/ecc.rs:45-134` `witness` -/
def witness (one : Var) (point : Except SynthesisError (Proj F)) : Prog F (CurvePoint F) := do
  let point := point.map pointValues
  let xVal := point.map (·.1)
  let yVal := point.map (·.2.1)
  let isIdentityVal := point.map (·.2.2)
  let ysq := yVal.map fun y => y * y
  let xsq := xVal.map fun x => x * x
  let xcub := xsq.bind fun xsq => xVal.map fun x => xsq * x
  let x ← AllocatedNum.alloc xVal
  let y ← AllocatedNum.alloc yVal
  let isIdentity ← AllocatedBit.alloc isIdentityVal
  let (a, b, c, _) ← .doMultiply (do .ok (← yVal, ← yVal, ← ysq))
  .enforce (y.lc.subVar a)
  .enforce (y.lc.subVar b)
  let (d, e, f, _) ← .doMultiply (do .ok (← xVal, ← xVal, ← xsq))
  .enforce (x.lc.subVar d)
  .enforce (x.lc.subVar e)
  let (g, h, i, _) ← .doMultiply (do .ok (← xsq, ← xVal, ← xcub))
  .enforce ((LC.ofVar f).subVar g)
  .enforce (x.lc.subVar h)
  let (j, k, l, _) ← .doMultiply (do .ok ((← xcub) + (E.b : F) - (← ysq), ofBool !(← isIdentityVal), 0))
  .enforce ((((LC.ofVar i).add (.full (E.b : F)) one).subVar c).subVar j)
  .enforce (((LC.zero.add .one one).subVar isIdentity.var).subVar k)
  .enforce (LC.ofVar l)
  return ⟨.ofAllocated x, .ofAllocated y, .is isIdentity⟩

/-- `src/gadgets/ecc.rs:137-146` `get_point`.  A panic of `C::from_xy` would be `some none`; there is none,
because it inverts `z = 1`. -/
def getPoint (p : CurvePoint F) : Option (Option (Proj F)) :=
  match p.x.value, p.y.value, p.isIdentity.getValue with
  | some x, some y, some isIdentity =>
    some (if isIdentity then none else (Proj.fromXy E x y).join)
  | _, _, _ => none

omit [Field F] [DecidableEq F] [FieldApi F] in
/-- `src/gadgets/ecc.rs:150-154` `get_xy` -/
def getXy (p : CurvePoint F) : Num F × Num F := (p.x, p.y)

omit [DecidableEq F] in
/-- `src/gadgets/ecc.rs:156-196` `conditional_endo` -/
def conditionalEndo (one : Var) (p : CurvePoint F) (condition : Boolean) : Prog F (CurvePoint F) := do
  let xRetVal := p.x.value.bind fun x => condition.getValue.map fun b =>
    if b then x * FieldApi.beta else x
  let (xSelf, endoer, xRet, _) ← .doMultiply (do
    let xSelf ← orMissing p.x.value
    let xRet ← orMissing xRetVal
    let bit ← orMissing condition.getValue
    .ok (xSelf, if bit then FieldApi.beta else 1, xRet))
  .enforce ((p.x.lc one).subVar xSelf)
  .enforce (((LC.ofVar endoer).subVar one).subLC (condition.lc one (.full (FieldApi.beta - 1))))
  return ⟨.ofAllocated ⟨xRetVal, xRet⟩, p.y, p.isIdentity⟩

omit [DecidableEq F] in
/-- `src/gadgets/ecc.rs:199-239` `conditional_neg` -/
def conditionalNeg (one : Var) (p : CurvePoint F) (condition : Boolean) : Prog F (CurvePoint F) := do
  let yRetVal := p.y.value.bind fun y => condition.getValue.map fun b => if b then -y else y
  let (ySelf, negator, yRet, _) ← .doMultiply (do
    let ySelf ← orMissing p.y.value
    let yRet ← orMissing yRetVal
    let bit ← orMissing condition.getValue
    .ok (ySelf, if bit then -1 else 1, yRet))
  .enforce ((p.y.lc one).subVar ySelf)
  .enforce (((LC.ofVar one).subLC (condition.lc one (.full (FieldApi.fromU64 2)))).subVar negator)
  return ⟨p.x, .ofAllocated ⟨yRetVal, yRet⟩, p.isIdentity⟩

omit [DecidableEq F] in
/-- `src/gadgets/ecc.rs:248-352` `add_incomplete`.  The combinations `x_r_lc` (used in a constraint)
and `y_r_lc` (unused) are not linked to the allocated `x_r` and `y_r`. -/
def addIncomplete (one : Var) (p q : CurvePoint F) : Prog F (CurvePoint F) := do
  let xpVal := p.x.value
  let ypVal := p.y.value
  let xqVal := q.x.value
  let yqVal := q.y.value
  let lambdaVal : Except SynthesisError F := match xqVal, yqVal, xpVal, ypVal with
    | some xq, some yq, some xp, some yp =>
      match FieldApi.invert (xq - xp) with
      | some inv => .ok (inv * (yq - yp))
      | none => match p.isIdentity.getValue with
        | some true => .ok 0
        | _ => .error .divisionByZero
    | _, _, _, _ => .error .assignmentMissing
  let xrVal : Except SynthesisError F := do
    let xp ← orMissing xpVal
    let xq ← orMissing xqVal
    let lambda ← lambdaVal
    .ok (lambda * lambda - xp - xq)
  let yrVal : Except SynthesisError F := do
    let xp ← orMissing xpVal
    let yp ← orMissing ypVal
    let xr ← xrVal
    let lambda ← lambdaVal
    .ok (lambda * (xp - xr) - yp)
  let xr ← AllocatedNum.alloc xrVal
  let yr ← AllocatedNum.alloc yrVal
  let xpLc := p.x.lc one
  let ypLc := p.y.lc one
  let xqLc := q.x.lc one
  let yqLc := q.y.lc one
  let (a, lambda, c, _) ← .doMultiply (do
    let xp ← orMissing xpVal
    let yp ← orMissing ypVal
    let xq ← orMissing xqVal
    let yq ← orMissing yqVal
    .ok (xq - xp, ← lambdaVal, yq - yp))
  .enforce ((xqLc.subLC xpLc).subVar a)
  .enforce ((yqLc.subLC ypLc).subVar c)
  let (d, e, f, _) ← .doMultiply (do
    let xp ← orMissing xpVal
    let xq ← orMissing xqVal
    .ok (← lambdaVal, ← lambdaVal, xp + xq + (← xrVal)))
  .enforce ((LC.ofVar lambda).subVar d)
  .enforce ((LC.ofVar lambda).subVar e)
  let xrLc := ((LC.ofVar f).subLC xpLc).subLC xqLc
  let (g, h, _, _) ← .doMultiply (do
    let xp ← orMissing xpVal
    let yp ← orMissing ypVal
    .ok (xp - (← xrVal), ← lambdaVal, yp + (← yrVal)))
  .enforce ((xpLc.subLC xrLc).subVar g)
  .enforce ((LC.ofVar lambda).subVar h)
  return ⟨.ofAllocated xr, .ofAllocated yr, p.isIdentity⟩

/-- `x.and_then(|x| y.map(|y| C::from_xy(x, y).unwrap()))` (`src/gadgets/ecc.rs:372-373`, `1947-1950`) -/
def pointOf (x y : Option F) : Prog F (Option (Proj F)) :=
  match x, y with
  | some x, some y => do return some (← orPanic (Proj.fromXy E x y).join)
  | _, _ => return none

/-- `let inv = d.invert(); if bool::from(inv.is_some()) { inv.unwrap() * n } else { default }`
(`src/gadgets/ecc.rs:603-609`, `635-641`) -/
def quotientOr (default d n : F) : F :=
  match FieldApi.invert d with
  | some inv => inv * n
  | none => default

/-- `src/gadgets/ecc.rs:533-726`: the part of `add` that constrains the slope.  The combinations
`x3_lc` (used in a constraint) and `y3_lc` (unused) do not reach the rest of `add`, because the
constraints at 771 and 785 are commented out. -/
def addSlope (one : Var) (p q : CurvePoint F) : Prog F Unit := do
  let x1Val := p.x.value
  let y1Val := p.y.value
  let x2Val := q.x.value
  let y2Val := q.y.value
  let x1Lc := p.x.lc one
  let y1Lc := p.y.lc one
  let x2Lc := q.x.lc one
  let y2Lc := q.y.lc one
  let x2mx1Val := both (fun x1 x2 => x2 - x1) x1Val x2Val
  let xIsSameVal : Option F := x2mx1Val.map fun d => ofBool (d == 0)
  let x2mx1psameVal := both (· + ·) x2mx1Val xIsSameVal
  let (a, xIsSame, b, _) ← .doMultiply (do
    let x2mx1 ← orMissing x2mx1Val
    let xIsSame ← orMissing xIsSameVal
    .ok (x2mx1, xIsSame, 0))
  .enforce ((x2Lc.subLC x1Lc).subVar a)
  .enforce (LC.ofVar b)
  let x2mx1InvVal := x2mx1Val.map fun d => (FieldApi.invert d).getD 1
  let (c, _, e, _) ← .doMultiply (do
    let x2mx1 ← orMissing x2mx1Val
    let inv ← orMissing x2mx1InvVal
    let xIsSame ← orMissing xIsSameVal
    .ok (x2mx1, inv, 1 - xIsSame))
  .enforce ((LC.ofVar a).subVar c)
  .enforce (((LC.zero.add .one one).subVar xIsSame).subVar e)
  let x1Sq := x1Val.map fun x => x * x
  let (f, g, h, _) ← .doMultiply (do
    let x ← orMissing x1Val
    let xsq ← orMissing x1Sq
    .ok (x, x, xsq))
  .enforce (x1Lc.subVar f)
  .enforce (x1Lc.subVar g)
  let jVal := both (fun y1 y2 => y2 - y1) y1Val y2Val
  let lambdaDiffVal := both (quotientOr 1) x2mx1psameVal jVal
  let (i, lambdaDiff, j, _) ← .doMultiply (do
    let x2mx1psame ← orMissing x2mx1psameVal
    let y2my1 ← orMissing jVal
    let lambdaDiff ← orMissing lambdaDiffVal
    .ok (x2mx1psame, lambdaDiff, y2my1))
  .enforce (((x2Lc.subLC x1Lc).addVar xIsSame).subVar i)
  .enforce ((y2Lc.subLC y1Lc).subVar j)
  let kVal := y1Val.map fun y => y + y
  let lVal := x1Sq.map fun x => x + x + x
  let lambdaSameVal := both (quotientOr 0) kVal lVal
  let (k, lambdaSame, l, _) ← .doMultiply (do
    let y1two ← orMissing kVal
    let x1sq3 ← orMissing lVal
    let lambdaSame ← orMissing lambdaSameVal
    .ok (y1two, lambdaSame, x1sq3))
  .enforce ((y1Lc.addLC y1Lc).subVar k)
  .enforce ((LC.zero.add (.full (FieldApi.fromU64 3)) h).subVar l)
  let lambdaVal := x2mx1Val.bind fun d => if d == 0 then lambdaSameVal else lambdaDiffVal
  let lambdaSqVal := lambdaVal.map fun x => x * x
  let (lambda, m, n, _) ← .doMultiply (do
    let lambda ← orMissing lambdaVal
    let lambdaSq ← orMissing lambdaSqVal
    .ok (lambda, lambda, lambdaSq))
  .enforce ((LC.ofVar lambda).subVar m)
  let x3Lc := ((LC.ofVar n).subLC x1Lc).subLC x2Lc
  let (o, p', q', _) ← .doMultiply (do
    let xIsSame ← orMissing xIsSameVal
    let lambdaDiff ← orMissing lambdaDiffVal
    let lambdaSame ← orMissing lambdaSameVal
    let lambda ← orMissing lambdaVal
    .ok (xIsSame, lambdaSame - lambdaDiff, lambda - lambdaDiff))
  .enforce ((LC.ofVar xIsSame).subVar o)
  .enforce (((LC.ofVar lambdaSame).subVar lambdaDiff).subVar p')
  .enforce (((LC.ofVar lambda).subVar lambdaDiff).subVar q')
  let (r, s, _, _) ← .doMultiply (do
    let lambda ← orMissing lambdaVal
    let lambdaSq ← orMissing lambdaSqVal
    let x1 ← orMissing x1Val
    let x2 ← orMissing x2Val
    .ok (x1 - lambdaSq + x1 + x2, lambda, (x1 - lambdaSq + x1 + x2) * lambda))
  .enforce ((x1Lc.subLC x3Lc).subVar r)
  .enforce ((LC.ofVar lambda).subVar s)

omit [DecidableEq F] [FieldApi F] in
/-- `src/gadgets/ecc.rs:728-742`: `(y2 + y1) * p3_is_identity = 0`, in `add`.  The following
constraint, which would force the flag to one for a sum that is the identity, is commented out
(`744-758`). -/
def addFlag (one : Var) (p q : CurvePoint F) (p3IsIdentityVal : Option Bool) (p3IsIdentity : AllocatedBit) :
    Prog F Var := do
  let (u, flag, v, _) ← .doMultiply (do
    let y1 ← orMissing p.y.value
    let y2 ← orMissing q.y.value
    let p3IsIdentity ← orMissing p3IsIdentityVal
    .ok (y2 + y1, ofBool p3IsIdentity, 0))
  .enforce (((q.y.lc one).addLC (p.y.lc one)).subVar u)
  .enforce ((LC.ofVar p3IsIdentity.var).subVar flag)
  .enforce (LC.ofVar v)
  return flag

omit [DecidableEq F] [FieldApi F] in
/-- `src/gadgets/ecc.rs:760-772` and `774-786`: `x3 * (1 - p3_is_identity) = x4` and the same for `y`,
in `add`.  The constraint that links the first factor to `x3` is commented out. -/
def addClear (one flag : Var) (v3 v4 : Option F) (p3IsIdentityVal : Option Bool) : Prog F Var := do
  let (_, z, x4, _) ← .doMultiply (do
    let v3 ← orMissing v3
    let v4 ← orMissing v4
    let p3IsIdentity ← orMissing p3IsIdentityVal
    .ok (v3, ofBool !p3IsIdentity, v4))
  .enforce (((LC.ofVar one).subVar flag).subVar z)
  return x4

omit [DecidableEq F] [FieldApi F] in
/-- `src/gadgets/ecc.rs:788-801`, `803-816`: `p1_is_identity * (x2 - x4) = (x5 - x4)` and the same for
`y`, in `add`; the result is the combination `x5`. -/
def addFirst (one : Var) (p1IsIdentity : Boolean) (v2 : Option F) (v2Lc : LC F) (v4 : Option F) (v4Var : Var)
    (v5 : Option F) : Prog F (LC F) := do
  let (cc, dd, ee, _) ← .doMultiply (do
    let x2 ← orMissing v2
    let x4 ← orMissing v4
    let x5 ← orMissing v5
    let p1IsIdentity ← orMissing p1IsIdentity.getValue
    .ok (ofBool p1IsIdentity, x2 - x4, x5 - x4))
  .enforce ((p1IsIdentity.lc one .one).subVar cc)
  .enforce ((v2Lc.subVar v4Var).subVar dd)
  return (LC.ofVar ee).addVar v4Var

omit [DecidableEq F] [FieldApi F] in
/-- `bit * (a - b) = (out - b)`, which selects `a` or `b`: in `add` (`src/gadgets/ecc.rs:818-831`,
`833-846`), `add_conditionally` (`911-924`, `931-944`, `951-984`), `add_conditionally_incomplete`
(`1157-1172`, `1174-1189`) and `multiply` (`1527-1542`, `1544-1559`, `1561-1595`).  The order in
which missing values are looked for differs; the error is the same for all of them. -/
def choose (bit : Option Bool) (a b out : Option F) (bitLc aLc bLc outLc : LC F) : Prog F Unit := do
  let (m, n, o, _) ← .doMultiply (do
    let bit ← orMissing bit
    let b ← orMissing b
    let a ← orMissing a
    let out ← orMissing out
    .ok (ofBool bit, a - b, out - b))
  .enforce (bitLc.subVar m)
  .enforce ((aLc.subLC bLc).subVar n)
  .enforce ((outLc.subLC bLc).subVar o)

/-- `src/gadgets/ecc.rs:357-853` `add` -/
def add (one : Var) (p q : CurvePoint F) : Prog F (CurvePoint F) := do
  let x1Val := p.x.value
  let y1Val := p.y.value
  let x2Val := q.x.value
  let y2Val := q.y.value
  let p1Val ← pointOf E x1Val y1Val
  let p2Val ← pointOf E x2Val y2Val
  let p3Val := (both (Proj.add E) p1Val p2Val).map pointValues
  let x3Val := p3Val.map (·.1)
  let y3Val := p3Val.map (·.2.1)
  let p3IsIdentityVal := p3Val.map (·.2.2)
  let p1IsIdentityVal := p.isIdentity.getValue
  let p2IsIdentityVal := q.isIdentity.getValue
  let x4Val := both (fun x3 b => if b then 0 else x3) x3Val p3IsIdentityVal
  let y4Val := both (fun y3 b => if b then 0 else y3) y3Val p3IsIdentityVal
  let x5Val := x2Val.bind fun x2 => both (fun x4 b => if b then x2 else x4) x4Val p1IsIdentityVal
  let y5Val := y2Val.bind fun y2 => both (fun y4 b => if b then y2 else y4) y4Val p1IsIdentityVal
  let xOutVal := x1Val.bind fun x1 => both (fun x5 b => if b then x1 else x5) x5Val p2IsIdentityVal
  let yOutVal := y1Val.bind fun y1 => both (fun y5 b => if b then y1 else y5) y5Val p2IsIdentityVal
  let xOut ← AllocatedNum.alloc (orMissing xOutVal)
  let yOut ← AllocatedNum.alloc (orMissing yOutVal)
  let p3IsIdentity ← AllocatedBit.alloc (orMissing p3IsIdentityVal)
  addSlope one p q
  let flag ← addFlag one p q p3IsIdentityVal p3IsIdentity
  let x4 ← addClear one flag x3Val x4Val p3IsIdentityVal
  let y4 ← addClear one flag y3Val y4Val p3IsIdentityVal
  let x5Lc ← addFirst one p.isIdentity x2Val (q.x.lc one) x4Val x4 x5Val
  let y5Lc ← addFirst one p.isIdentity y2Val (q.y.lc one) y4Val y4 y5Val
  choose p2IsIdentityVal x1Val x5Val xOutVal (q.isIdentity.lc one .one) (p.x.lc one) x5Lc xOut.lc
  choose p2IsIdentityVal y1Val y5Val yOutVal (q.isIdentity.lc one .one) (p.y.lc one) y5Lc yOut.lc
  return ⟨.ofAllocated xOut, .ofAllocated yOut, .is p3IsIdentity⟩

omit [DecidableEq F] [Field F] [FieldApi F] in
/-- `src/gadgets/ecc.rs:882-886`: the values of the output of `add_conditionally` -/
def conditionalOut (bit : Option Bool) (sum p : CurvePoint F) : Option F × Option F × Option Bool :=
  match bit with
  | some true => (sum.x.value, sum.y.value, sum.isIdentity.getValue)
  | some false => (p.x.value, p.y.value, p.isIdentity.getValue)
  | none => (none, none, none)

/-- `src/gadgets/ecc.rs:859-991` `add_conditionally` -/
def addConditionally (one : Var) (p q : CurvePoint F) (condition : Boolean) :
    Prog F (CurvePoint F) := do
  let sum ← add E one p q
  let selfIsIdentityVal := p.isIdentity.getValue
  let sumIsIdentityVal := sum.isIdentity.getValue
  let bitVal := condition.getValue
  let out := conditionalOut bitVal sum p
  let xOut ← AllocatedNum.alloc (orMissing out.1)
  let yOut ← AllocatedNum.alloc (orMissing out.2.1)
  let outIsIdentity ← AllocatedBit.alloc (orMissing out.2.2)
  choose bitVal sum.x.value p.x.value out.1 (condition.lc one .one) (sum.x.lc one) (p.x.lc one) xOut.lc
  choose bitVal sum.y.value p.y.value out.2.1 (condition.lc one .one) (sum.y.lc one) (p.y.lc one) yOut.lc
  choose bitVal (sumIsIdentityVal.map ofBool) (selfIsIdentityVal.map ofBool) (out.2.2.map ofBool)
    (condition.lc one .one) (sum.isIdentity.lc one .one) (p.isIdentity.lc one .one)
    (LC.ofVar outIsIdentity.var)
  return ⟨.ofAllocated xOut, .ofAllocated yOut, .is outIsIdentity⟩

/-- `x.map(|p| p.unwrap())` on an optional point (`src/gadgets/ecc.rs:1009-1010`) -/
def unwrapPoint (p : Option (Option (Proj F))) : Prog F (Option (Proj F)) :=
  match p with
  | some p => do return some (← orPanic p)
  | none => return none

/-- `src/gadgets/ecc.rs:1012`: the coordinates of the sum, in `add_conditionally_incomplete` -/
def sumXy (p1 p2 : Option (Proj F)) : Prog F (Option (F × F)) :=
  match p1, p2 with
  | some p1, some p2 => do return some (← orPanic (Proj.add E p1 p2).getXy)
  | _, _ => return none

/-- `src/gadgets/ecc.rs:997-1196` `add_conditionally_incomplete` -/
def addConditionallyIncomplete (one : Var) (p q : CurvePoint F) (condition : Boolean) :
    Prog F (CurvePoint F) := do
  let p1 ← unwrapPoint (p.getPoint E)
  let p2 ← unwrapPoint (q.getPoint E)
  let p3Val ← sumXy E p1 p2
  let pOut : Option (F × F) := match p3Val, condition.getValue with
    | some p3, some b => if b then some p3 else both Prod.mk p.x.value p.y.value
    | _, _ => none
  let xOut ← AllocatedNum.alloc (orMissing (pOut.map (·.1)))
  let yOut ← AllocatedNum.alloc (orMissing (pOut.map (·.2)))
  let x1Lc := p.x.lc one
  let y1Lc := p.y.lc one
  let x2Lc := q.x.lc one
  let y2Lc := q.y.lc one
  let aVal := both (fun x1 x2 => x2 - x1) p.x.value q.x.value
  let cVal := both (fun y1 y2 => y2 - y1) p.y.value q.y.value
  let lambdaVal : Option (Option F) := both (fun a c => (FieldApi.invert a).map fun inv => inv * c) aVal cVal
  let (a, lambda, c, _) ← .doMultiply (do
    let a ← orMissing aVal
    let c ← orMissing cVal
    let lambda ← orMissing lambdaVal
    .ok (a, ← orDivision lambda, c))
  .enforce ((x2Lc.subLC x1Lc).subVar a)
  .enforce ((y2Lc.subLC y1Lc).subVar c)
  let (d, e, f, _) ← .doMultiply (do
    let lambda ← orMissing lambdaVal
    let lambda ← orDivision lambda
    .ok (lambda, lambda, lambda * lambda))
  .enforce ((LC.ofVar lambda).subVar d)
  .enforce ((LC.ofVar lambda).subVar e)
  let (g, x3, i, _) ← .doMultiply (do
    let lambda ← orMissing lambdaVal
    let x3 ← orMissing (p3Val.map (·.1))
    let lambda ← orDivision lambda
    .ok (lambda, x3, lambda * x3))
  .enforce ((LC.ofVar lambda).subVar g)
  .enforce ((((LC.ofVar f).subLC x1Lc).subLC x2Lc).subVar x3)
  let (j, k, l, _) ← .doMultiply (do
    let lambda ← orMissing lambdaVal
    let x1 ← orMissing p.x.value
    let lambda ← orDivision lambda
    .ok (lambda, x1, lambda * x1))
  .enforce ((LC.ofVar lambda).subVar j)
  .enforce (x1Lc.subVar k)
  let y3Lc := ((LC.ofVar l).subVar i).subLC y1Lc
  choose condition.getValue (p3Val.map (·.1)) p.x.value (pOut.map (·.1)) (condition.lc one .one)
    (LC.ofVar x3) x1Lc xOut.lc
  choose condition.getValue (p3Val.map (·.2)) p.y.value (pOut.map (·.2)) (condition.lc one .one)
    y3Lc y1Lc yOut.lc
  return ⟨.ofAllocated xOut, .ofAllocated yOut, .constant false⟩

omit [DecidableEq F] in
/-- `src/gadgets/ecc.rs:1199-1318` `double` -/
def double (one : Var) (p : CurvePoint F) : Prog F (CurvePoint F) := do
  let xpVal := p.x.value
  let ypVal := p.y.value
  let lambdaVal : Except SynthesisError F := match xpVal, ypVal with
    | some xp, some yp => match FieldApi.invert (yp + yp) with
      | some inv => .ok (inv * (xp * xp + xp * xp + xp * xp))
      | none => .ok 0
    | _, _ => .error .assignmentMissing
  let xDblVal : Except SynthesisError F := do
    let xp ← orMissing xpVal
    let lambda ← lambdaVal
    .ok (lambda * lambda - xp - xp)
  let yDblVal : Except SynthesisError F := do
    let xp ← orMissing xpVal
    let yp ← orMissing ypVal
    let xDbl ← xDblVal
    let lambda ← lambdaVal
    .ok (lambda * (xp - xDbl) - yp)
  let xDbl ← AllocatedNum.alloc xDblVal
  let yDbl ← AllocatedNum.alloc yDblVal
  let xpLc := p.x.lc one
  let ypLc := p.y.lc one
  let xxpVal := xpVal.map fun x => x * x
  let (a, b, xxp, _) ← .doMultiply (do
    let xp ← orMissing xpVal
    let xxp ← orMissing xxpVal
    .ok (xp, xp, xxp))
  .enforce (xpLc.subVar a)
  .enforce (xpLc.subVar b)
  let (c, lambda, d, _) ← .doMultiply (do
    let yp ← orMissing ypVal
    let xxp ← orMissing xxpVal
    .ok (yp + yp, ← lambdaVal, xxp + xxp + xxp))
  .enforce ((ypLc.addLC ypLc).subVar c)
  .enforce ((((LC.zero.addVar xxp).addVar xxp).addVar xxp).subVar d)
  let (d, e, f, _) ← .doMultiply (do
    let xp ← orMissing xpVal
    .ok (← lambdaVal, ← lambdaVal, xp + xp + (← xDblVal)))
  .enforce ((LC.ofVar lambda).subVar d)
  .enforce ((LC.ofVar lambda).subVar e)
  .enforce (((xpLc.addLC xpLc).addLC xDbl.lc).subVar f)
  let (g, h, i, _) ← .doMultiply (do
    let xp ← orMissing xpVal
    let yp ← orMissing ypVal
    .ok (xp - (← xDblVal), ← lambdaVal, yp + (← yDblVal)))
  .enforce ((xpLc.subLC xDbl.lc).subVar g)
  .enforce ((LC.ofVar lambda).subVar h)
  .enforce ((ypLc.addLC yDbl.lc).subVar i)
  let (j, k, l, _) ← .doMultiply (do
    let isIdentity ← orMissing p.isIdentity.getValue
    .ok (← lambdaVal, ofBool isIdentity, 0))
  .enforce ((LC.ofVar lambda).subVar j)
  .enforce ((p.isIdentity.lc one .one).subVar k)
  .enforce (LC.ofVar l)
  return ⟨.ofAllocated xDbl, .ofAllocated yDbl, p.isIdentity⟩

omit [DecidableEq F] [FieldApi F] in
/-- What `double_and_add_incomplete` does on a division by zero (`src/gadgets/ecc.rs:1358-1363`,
`1385-1390`): both points being the identity is a special case. -/
def bothIdentity (p q : CurvePoint F) : Except SynthesisError F :=
  match p.isIdentity.getValue, q.isIdentity.getValue with
  | some true, some true => .ok 0
  | _, _ => .error .divisionByZero

omit [DecidableEq F] in
/-- `src/gadgets/ecc.rs:1327-1487` `double_and_add_incomplete` -/
def doubleAndAddIncomplete (one : Var) (p q : CurvePoint F) : Prog F (CurvePoint F) := do
  let xpVal := p.x.value
  let ypVal := p.y.value
  let xpLc := p.x.lc one
  let ypLc := p.y.lc one
  let xqVal := q.x.value
  let yqVal := q.y.value
  let xqLc := q.x.lc one
  let yqLc := q.y.lc one
  let lambda1Val : Except SynthesisError F := match xqVal, yqVal, xpVal, ypVal with
    | some xq, some yq, some xp, some yp =>
      match FieldApi.invert (xq - xp) with
      | some inv => .ok (inv * (yq - yp))
      | none => bothIdentity p q
    | _, _, _, _ => .error .assignmentMissing
  let xrVal : Except SynthesisError F := do
    let xp ← orMissing xpVal
    let xq ← orMissing xqVal
    let lambda1 ← lambda1Val
    .ok (lambda1 * lambda1 - xp - xq)
  let lambda2Val : Except SynthesisError F := do
    let xp ← orMissing xpVal
    let yp ← orMissing ypVal
    let xr ← xrVal
    let lambda1 ← lambda1Val
    match FieldApi.invert (xp - xr) with
    | some inv => .ok (inv * (yp + yp) - lambda1)
    | none => bothIdentity p q
  let xsVal : Except SynthesisError F := do
    let xp ← orMissing xpVal
    let xr ← xrVal
    let lambda2 ← lambda2Val
    .ok (lambda2 * lambda2 - xr - xp)
  let ysVal : Except SynthesisError F := do
    let xp ← orMissing xpVal
    let yp ← orMissing ypVal
    let xs ← xsVal
    let lambda2 ← lambda2Val
    .ok (lambda2 * (xp - xs) - yp)
  let xs ← AllocatedNum.alloc xsVal
  let ys ← AllocatedNum.alloc ysVal
  let (a, lambda1, c, _) ← .doMultiply (do
    let xp ← orMissing xpVal
    let yp ← orMissing ypVal
    let xq ← orMissing xqVal
    let yq ← orMissing yqVal
    .ok (xq - xp, ← lambda1Val, yq - yp))
  .enforce ((xqLc.subLC xpLc).subVar a)
  .enforce ((yqLc.subLC ypLc).subVar c)
  let (d, e, f, _) ← .doMultiply (do
    let xp ← orMissing xpVal
    let xq ← orMissing xqVal
    .ok (← lambda1Val, ← lambda1Val, xp + xq + (← xrVal)))
  .enforce ((LC.ofVar lambda1).subVar d)
  .enforce ((LC.ofVar lambda1).subVar e)
  let (lambda2, k, l, _) ← .doMultiply (do
    let xp ← orMissing xpVal
    .ok (← lambda2Val, ← lambda2Val, (← xrVal) + xp + (← xsVal)))
  .enforce ((LC.ofVar lambda2).subVar k)
  .enforce (((xs.lc.addVar f).subLC xqLc).subVar l)
  let (g, h, i, _) ← .doMultiply (do
    let xp ← orMissing xpVal
    let yp ← orMissing ypVal
    .ok (xp - (← xrVal), (← lambda1Val) + (← lambda2Val), yp + yp))
  .enforce ((((xpLc.subVar f).addLC xpLc).addLC xqLc).subVar g)
  .enforce (((LC.ofVar lambda1).addVar lambda2).subVar h)
  .enforce ((ypLc.addLC ypLc).subVar i)
  let (g, h, i, _) ← .doMultiply (do
    let xp ← orMissing xpVal
    let yp ← orMissing ypVal
    .ok (xp - (← xsVal), ← lambda2Val, yp + (← ysVal)))
  .enforce ((xpLc.subLC xs.lc).subVar g)
  .enforce ((LC.ofVar lambda2).subVar h)
  .enforce ((ypLc.addLC ys.lc).subVar i)
  return ⟨.ofAllocated xs, .ofAllocated ys, p.isIdentity⟩

/-- `src/gadgets/ecc.rs:1498-1601`: one iteration of `multiply` -/
def multiplyStep (one : Var) (p ret : CurvePoint F) (bit : AllocatedBit) : Prog F (CurvePoint F) := do
  let dbl ← double one ret
  let sum ← add E one dbl p
  let bitVal := bit.value
  let pick {α : Type} (s d : Option α) : Option α := bitVal.bind fun b => if b then s else d
  let xOut ← AllocatedNum.alloc (orMissing (pick sum.x.value dbl.x.value))
  let yOut ← AllocatedNum.alloc (orMissing (pick sum.y.value dbl.y.value))
  let isIdentityOut ← AllocatedBit.alloc
    (orMissing (pick sum.isIdentity.getValue dbl.isIdentity.getValue))
  choose bitVal sum.x.value dbl.x.value xOut.value (LC.ofVar bit.var) (sum.x.lc one) (dbl.x.lc one) xOut.lc
  choose bitVal sum.y.value dbl.y.value yOut.value (LC.ofVar bit.var) (sum.y.lc one) (dbl.y.lc one) yOut.lc
  choose bitVal (sum.isIdentity.getValue.map ofBool) (dbl.isIdentity.getValue.map ofBool)
    (isIdentityOut.value.map ofBool) (LC.ofVar bit.var) (sum.isIdentity.lc one .one)
    (dbl.isIdentity.lc one .one) (LC.ofVar isIdentityOut.var)
  return ⟨.ofAllocated xOut, .ofAllocated yOut, .is isIdentityOut⟩

/-- `src/gadgets/ecc.rs:1490-1605` `multiply` -/
def multiply (one : Var) (p : CurvePoint F) (other : List AllocatedBit) : Prog F (CurvePoint F) :=
  foldProg (multiplyStep E one p) other.reverse identity

omit [DecidableEq F] in
/-- `src/gadgets/ecc.rs:1638-1652`: one iteration of `multiply_endo` -/
def endoStep (one : Var) (p : CurvePoint F) (other : List AllocatedBit) (acc : CurvePoint F) (i : ℕ) :
    Prog F (CurvePoint F) := do
  let shouldNegate ← index other (i * 2)
  let shouldEndo ← index other (i * 2 + 1)
  let base ← conditionalNeg one p (.is shouldNegate)
  let acc ← doubleAndAddIncomplete one acc base
  conditionalEndo one acc (.is shouldEndo)

omit [DecidableEq F] [FieldApi F] in
/-- `src/gadgets/ecc.rs:1656-1673`, `1675-1692`: the final coordinates of `multiply_endo`, zero if the
point is the identity -/
def clearIfIdentity (one : Var) (v : Num F) (isIdentity : Boolean) : Prog F (Num F) := do
  let rhs : Option F := both (fun v b => v * (if b then 0 else 1)) v.value isIdentity.getValue
  let (a, b, f, ran) ← .doMultiply (do
    let v ← orMissing v.value
    let isIdentity ← orMissing isIdentity.getValue
    let isIdentity : F := if isIdentity then 0 else 1
    .ok (v, isIdentity, v * isIdentity))
  .enforce ((LC.ofVar a).subLC (v.lc one))
  .enforce ((LC.ofVar b).subLC (isIdentity.negate.lc one .one))
  return .ofAllocated ⟨assignedBy ran rhs, f⟩

omit [DecidableEq F] in
/-- `src/gadgets/ecc.rs:1607-1721` `multiply_endo` -/
def multiplyEndo (one : Var) (p : CurvePoint F) (other : List AllocatedBit) :
    Prog F (CurvePoint F) := do
  if other.length ≠ 128 then .panic else
    let acc ← double one p
    let acc ← addIncomplete one acc p
    let acc ← foldProg (endoStep one p other) (List.range' 1 63) acc
    let x ← clearIfIdentity one acc.x p.isIdentity
    let y ← clearIfIdentity one acc.y p.isIdentity
    return ⟨x, y, p.isIdentity⟩

omit [DecidableEq F] [Field F] [FieldApi F] in
/-- The scalar of little-endian bits (`src/gadgets/ecc.rs:1732-1740`, `1953-1961`); unknown bits count
as zero. -/
def scalarOf {S : Type} [Field S] (other : List AllocatedBit) : S :=
  other.reverse.foldl (fun cur b =>
    let cur := cur + cur
    match b.value with
    | some true => cur + 1
    | _ => cur) 0

/-- `src/gadgets/ecc.rs:1723-1757` `multiply_inv_endo` -/
def multiplyInvEndo (S : Type) [Field S] [FieldApi S] (one : Var) (p : CurvePoint F)
    (other : List AllocatedBit) : Prog F (CurvePoint F) := do
  let res ← witness E one (do
    let p ← orMissing (p.getPoint E)
    let p := p.getD Proj.zero
    let cur : S := scalarOf other
    let cur : S := Util.getChallengeScalar cur
    let cur : S := (FieldApi.invert cur).getD 0
    .ok (Proj.mul E p cur))
  let shouldBeOriginal ← multiplyEndo one res other
  .enforce ((p.x.lc one).subLC (shouldBeOriginal.x.lc one))
  .enforce ((p.y.lc one).subLC (shouldBeOriginal.y.lc one))
  return res

omit [DecidableEq F] in
/-- `src/gadgets/ecc.rs:1790-1805`: one iteration of `multiply_fast` -/
def fastStep (one : Var) (p acc : CurvePoint F) (bit : AllocatedBit) : Prog F (CurvePoint F) := do
  let t ← conditionalNeg one p (Boolean.is bit).negate
  doubleAndAddIncomplete one acc t

omit [DecidableEq F] [FieldApi F] in
/-- `src/gadgets/ecc.rs:1867-1880`, `1882-1895`: `(x_p - x_r) * k_0 = (x_s - x_r)`, in `multiply_fast`;
the result is the combination `x_s`. -/
def fastPick (xp xr xs : Option F) (k0 : AllocatedBit) (xpLc xrLc : LC F) : Prog F (LC F) := do
  let (j, k, l, _) ← .doMultiply (do
    let xp ← orMissing xp
    let xr ← orMissing xr
    let xs ← orMissing xs
    let k0 ← orMissing k0.value
    .ok (xp - xr, ofBool k0, xs - xr))
  .enforce ((xpLc.subLC xrLc).subVar j)
  .enforce ((LC.ofVar k0.var).subVar k)
  return (LC.ofVar l).addLC xrLc

omit [DecidableEq F] [FieldApi F] in
/-- `src/gadgets/ecc.rs:1897-1912`, `1914-1929`: `x_s * (1 - is_identity) = x_out`, in
`multiply_fast` -/
def fastClear (one : Var) (xs xOutVal : Option F) (isIdentity : Boolean) (xsLc : LC F)
    (xOut : AllocatedNum F) : Prog F Unit := do
  let (p, q, r, _) ← .doMultiply (do
    let xs ← orMissing xs
    let xOut ← orMissing xOutVal
    let isIdentity ← orMissing isIdentity.getValue
    .ok (xs, ofBool !isIdentity, xOut))
  .enforce (xsLc.subVar p)
  .enforce ((isIdentity.negate.lc one .one).subVar q)
  .enforce (xOut.lc.subVar r)

omit [DecidableEq F] in
/-- `src/gadgets/ecc.rs:1762-1936` `multiply_fast` -/
def multiplyFast (one : Var) (p : CurvePoint F) (other : List AllocatedBit) :
    Prog F (CurvePoint F) := do
  let k0 ← index other 0
  let last ← orPanic other.getLast?
  if last.value = some false then .panic else
    let acc ← double one p
    let acc ← addIncomplete one acc p
    let acc ← foldProg (fastStep one p) ((other.drop 1).reverse.drop 1) acc
    let accMinusT ← addIncomplete one acc ⟨p.x, p.y.neg, p.isIdentity⟩
    let pick (xp xr : Option F) : Option F :=
      both (fun x k => if k then x.1 else x.2) (both Prod.mk xp xr) k0.value
    let clear (xs : Option F) : Option F := both (fun xs b => if b then 0 else xs) xs p.isIdentity.getValue
    let xsVal := pick acc.x.value accMinusT.x.value
    let ysVal := pick acc.y.value accMinusT.y.value
    let xOutVal := clear xsVal
    let yOutVal := clear ysVal
    let xOut ← AllocatedNum.alloc (orMissing xOutVal)
    let yOut ← AllocatedNum.alloc (orMissing yOutVal)
    let xsLc ← fastPick acc.x.value accMinusT.x.value xsVal k0 (acc.x.lc one) (accMinusT.x.lc one)
    let ysLc ← fastPick acc.y.value accMinusT.y.value ysVal k0 (acc.y.lc one) (accMinusT.y.lc one)
    fastClear one xsVal xOutVal p.isIdentity xsLc xOut
    fastClear one ysVal yOutVal p.isIdentity ysLc yOut
    return ⟨.ofAllocated xOut, .ofAllocated yOut, p.isIdentity⟩

/-- `src/gadgets/ecc.rs:1938-2009` `inv_helper` -/
def invHelper (S : Type) [Field S] [FieldApi S] (one : Var) (p : CurvePoint F)
    (other : List AllocatedBit) (mulFunc : CurvePoint F → Prog F (CurvePoint F)) :
    Prog F (CurvePoint F) := do
  let pVal ← pointOf E p.x.value p.y.value
  let mulby : S := scalarOf other
  let inverted : Except SynthesisError (F × F × Bool) := (orMissing pVal).map fun p =>
    match FieldApi.invert mulby with
    | none => (0, 0, true)
    | some inv => pointValues (Proj.mul E p inv)
  let xInv ← AllocatedNum.alloc (inverted.map (·.1))
  let yInv ← AllocatedNum.alloc (inverted.map (·.2.1))
  let isIdentityInv ← AllocatedBit.alloc (inverted.map (·.2.2))
  let inverted : CurvePoint F := ⟨.ofAllocated xInv, .ofAllocated yInv, .is isIdentityInv⟩
  let calculated ← mulFunc inverted
  .enforce ((p.x.lc one).subLC (calculated.x.lc one))
  .enforce ((p.y.lc one).subLC (calculated.y.lc one))
  .enforce ((p.isIdentity.lc one .one).subLC (calculated.isIdentity.lc one .one))
  return inverted

/-- `src/gadgets/ecc.rs:2012-2018` `multiply_inv` -/
def multiplyInv (S : Type) [Field S] [FieldApi S] (one : Var) (p : CurvePoint F)
    (other : List AllocatedBit) : Prog F (CurvePoint F) :=
  invHelper E S one p other fun inverted => multiply E one inverted other

/-- `src/gadgets/ecc.rs:2023-2029` `multiply_inv_fast` -/
def multiplyInvFast (S : Type) [Field S] [FieldApi S] (one : Var) (p : CurvePoint F)
    (other : List AllocatedBit) : Prog F (CurvePoint F) :=
  invHelper E S one p other fun inverted => multiplyFast one inverted other

end CurvePoint
end Circuit
end Halo
