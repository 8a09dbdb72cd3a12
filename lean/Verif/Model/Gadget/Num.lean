import Verif.Model.Gadget.Boolean
/-!
# Number gadgets (`src/gadgets/num.rs`), and bit decomposition (`src/gadgets/boolean.rs:280-321`)
-/
namespace Halo
namespace Circuit
variable {F : Type} [Field F]

/-- `src/gadgets/num.rs:73-77` `AllocatedNum` -/
structure AllocatedNum (F : Type) where
  value : Option F
  var : Var

/-- `src/gadgets/num.rs:338-342` `Num` -/
inductive Num (F : Type) where
  | constant (coeff : Coeff F)
  | allocated (coeff : Coeff F) (num : AllocatedNum F)

namespace Num

/-- `src/gadgets/num.rs:344-353` `Neg for Num` -/
def neg : Num F → Num F
  | .constant c => .constant c.neg
  | .allocated c n => .allocated c.neg n

/-- `src/gadgets/num.rs:355-359` `From<AllocatedNum>` -/
def ofAllocated (n : AllocatedNum F) : Num F := .allocated .one n

/-- `src/gadgets/num.rs:367-374` `From<(Coeff, Num)>` -/
def scaled (c : Coeff F) : Num F → Num F
  | .constant k => .constant (c.mul k)
  | .allocated k n => .allocated (c.mul k) n

/-- `src/gadgets/num.rs:377-382` `scale` -/
def scale (val : F) : Num F → Num F
  | .constant k => .constant (k.mulField val)
  | .allocated k n => .allocated (k.mulField val) n

/-- `src/gadgets/num.rs:384-386` `constant` -/
def const (val : F) : Num F := .constant (.full val)

/-- `src/gadgets/num.rs:388-393` `is_constant` -/
def isConstant : Num F → Bool
  | .constant _ => true
  | _ => false

/-- `src/gadgets/num.rs:395-400` `value` -/
def value : Num F → Option F
  | .constant v => some v.value
  | .allocated c n => n.value.map fun v => (c.mulField v).value

/-- `src/gadgets/num.rs:402-408` `lc` -/
def lc (one : Var) : Num F → LC F
  | .constant v => LC.zero.add v one
  | .allocated c n => LC.zero.add c n.var

end Num

/-- `src/gadgets/num.rs:411-415` `Combination` -/
structure Combination (F : Type) where
  value : Option F
  terms : List (Num F)

/-- `a.and_then(|a| b.and_then(|b| Some(f(a, b))))` -/
def both {α β γ : Type} (f : α → β → γ) (a : Option α) (b : Option β) : Option γ :=
  a.bind fun a => b.bind fun b => some (f a b)

namespace Combination

/-- `src/gadgets/num.rs:417-424` `From<AllocatedNum>` -/
def ofAllocated (n : AllocatedNum F) : Combination F := ⟨n.value, [.ofAllocated n]⟩

/-- `src/gadgets/num.rs:426-433` `From<Num>` -/
def ofNum (n : Num F) : Combination F := ⟨n.value, [n]⟩

/-- `src/gadgets/num.rs:435-450` `+ Combination` -/
def add (a b : Combination F) : Combination F :=
  ⟨both (· + ·) a.value b.value, a.terms ++ b.terms⟩

/-- `src/gadgets/num.rs:452-469` `+ AllocatedNum`, `+= AllocatedNum` -/
def addAllocated (a : Combination F) (n : AllocatedNum F) : Combination F :=
  ⟨both (· + ·) a.value n.value, a.terms ++ [.ofAllocated n]⟩

/-- `src/gadgets/num.rs:471-486` `- AllocatedNum` -/
def subAllocated (a : Combination F) (n : AllocatedNum F) : Combination F :=
  ⟨both (· - ·) a.value n.value, a.terms ++ [(Num.ofAllocated n).neg]⟩

/-- `src/gadgets/num.rs:488-505` `+ Num`, `+= Num` -/
def addNum (a : Combination F) (n : Num F) : Combination F :=
  ⟨both (· + ·) a.value n.value, a.terms ++ [n]⟩

/-- `src/gadgets/num.rs:507-522` `+ (Coeff, AllocatedNum)` -/
def addScaledAllocated (a : Combination F) (c : Coeff F) (n : AllocatedNum F) : Combination F :=
  ⟨both (fun x y => x + c.value * y) a.value n.value, a.terms ++ [.allocated c n]⟩

/-- `src/gadgets/num.rs:524-542` `+ (Coeff, Num)` -/
def addScaled (a : Combination F) (c : Coeff F) (n : Num F) : Combination F :=
  ⟨both (fun x y => x + c.value * y) a.value n.value, a.terms ++ [n.scaled c]⟩

/-- `src/gadgets/num.rs:545-550` `zero` -/
def zero : Combination F := ⟨some 0, []⟩

/-- `src/gadgets/num.rs:552-557` `scale` -/
def scale (by_ : F) (a : Combination F) : Combination F :=
  ⟨a.value.map (· * by_), a.terms.map (.scale by_)⟩

/-- `src/gadgets/num.rs:563-571` `lc` -/
def lc (one : Var) (a : Combination F) : LC F :=
  a.terms.foldl (fun acc t => acc.addLC (t.lc one)) LC.zero

/-- `self.terms.iter().any(|n| !n.is_constant())` -/
def anyAllocated (a : Combination F) : Bool := a.terms.any fun n => !n.isConstant

end Combination

/-- `src/gadgets/num.rs:22-71` `constrain_pow_five` -/
def constrainPowFive (x : Option F) : Prog F (Var × Var) := do
  let x2 := x.map fun x => x * x
  let x4 := x2.map fun x2 => x2 * x2
  let x5 := both (fun x4 x => x4 * x) x4 x
  let (base, b, c, _) ← .doMultiply (do
    let x ← orMissing x
    let x2 ← orMissing x2
    .ok (x, x, x2))
  .enforce ((LC.ofVar base).subVar b)
  let (d, e, f, _) ← .doMultiply (do
    let x2 ← orMissing x2
    let x4 ← orMissing x4
    .ok (x2, x2, x4))
  .enforce ((LC.ofVar c).subVar d)
  .enforce ((LC.ofVar c).subVar e)
  let (g, h, result, _) ← .doMultiply (do
    let x ← orMissing x
    let x4 ← orMissing x4
    let x5 ← orMissing x5
    .ok (x4, x, x5))
  .enforce ((LC.ofVar f).subVar g)
  .enforce ((LC.ofVar base).subVar h)
  return (base, result)

namespace AllocatedNum

/-- `src/gadgets/num.rs:80-88` `one` -/
def one (one : Var) : AllocatedNum F := ⟨some 1, one⟩

/-- `src/gadgets/num.rs:90-102` `alloc`; the closure is run before `cs.alloc`. -/
def alloc (value : Except SynthesisError F) : Prog F (AllocatedNum F) := do
  let (var, _) ← .doAlloc value
  return ⟨value.toOption, var⟩

/-- `src/gadgets/num.rs:104-116` `alloc_input` -/
def allocInput (value : Except SynthesisError F) : Prog F (AllocatedNum F) := do
  let (var, _) ← .doAllocInput value
  return ⟨value.toOption, var⟩

/-- `src/gadgets/num.rs:118-133` `inputize` -/
def inputize (n : AllocatedNum F) : Prog F (AllocatedNum F) := do
  let (var, _) ← .doAllocInput (orMissing n.value)
  .enforce ((LC.ofVar n.var).subVar var)
  return ⟨n.value, var⟩

/-- `src/gadgets/num.rs:135-161` `mul` -/
def mul (a b : AllocatedNum F) : Prog F (AllocatedNum F) := do
  let product := both (· * ·) a.value b.value
  let (l, r, o, _) ← .doMultiply (do
    let l ← orMissing a.value
    let r ← orMissing b.value
    let o ← orMissing product
    .ok (l, r, o))
  .enforce ((LC.ofVar a.var).subVar l)
  .enforce ((LC.ofVar b.var).subVar r)
  return ⟨product, o⟩

/-- `src/gadgets/num.rs:167-195` `alloc_and_square` -/
def allocAndSquare (value : Except SynthesisError F) :
    Prog F (AllocatedNum F × AllocatedNum F) := do
  let (a, b, c, o) ← .doMultiply (do
    let value ← value
    .ok (value, value, value * value))
  .enforce ((LC.ofVar a).subVar b)
  return (⟨value.toOption, a⟩, ⟨assignedBy o (value.toOption.map fun v => v * v), c⟩)

/-- `src/gadgets/num.rs:197-217` `rescue_alpha`; `F::RESCUE_ALPHA` is 5 for both fields. -/
def rescueAlpha (one : Var) (base : Combination F) : Prog F (AllocatedNum F) := do
  let baseValue := base.value
  let resultValue := baseValue.map (· ^ 5)
  let (baseVar, resultVar) ← constrainPowFive baseValue
  .enforce ((base.lc one).subVar baseVar)
  return ⟨resultValue, resultVar⟩

/-- `src/gadgets/num.rs:219-239` `rescue_invalpha` -/
def rescueInvalpha [FieldApi F] (one : Var) (base : Combination F) : Prog F (AllocatedNum F) := do
  let baseValue := base.value
  let resultValue := baseValue.map (· ^ FieldApi.rescueInvAlpha F)
  let (resultVar, baseVar) ← constrainPowFive resultValue
  .enforce ((base.lc one).subVar baseVar)
  return ⟨resultValue, resultVar⟩

/-- `src/gadgets/num.rs:249-251` `lc` -/
def lc (n : AllocatedNum F) : LC F := LC.ofVar n.var

/-- `src/gadgets/num.rs:253-288` `invert` -/
def invert [FieldApi F] (one : Var) (n : AllocatedNum F) : Prog F (AllocatedNum F) := do
  let inv : Except SynthesisError F := do
    let v ← orMissing n.value
    match FieldApi.invert v with
    | some tmp => .ok tmp
    | none => .error .unsatisfiable
  let newval := inv.toOption
  let newnum ← alloc inv
  let (a, b, c, _) ← .doMultiply (do
    let x ← orMissing newval
    let y ← orMissing n.value
    .ok (x, y, 1))
  .enforce ((LC.ofVar a).subVar newnum.var)
  .enforce ((LC.ofVar b).subVar n.var)
  .enforce ((LC.ofVar c).subVar one)
  return newnum

/-- `src/gadgets/num.rs:290-322` `sqrt` -/
def sqrt [FieldApi F] (n : AllocatedNum F) : Prog F (AllocatedNum F) := do
  let root : Except SynthesisError F := do
    let v ← orMissing n.value
    match FieldApi.sqrt v with
    | some tmp => .ok tmp
    | none => .error .unsatisfiable
  let newval := root.toOption
  let newnum ← alloc root
  let (a, b, c, _) ← .doMultiply (do
    let x ← orMissing newval
    let x' ← orMissing newval
    let y ← orMissing n.value
    .ok (x, x', y))
  .enforce ((LC.ofVar a).subVar newnum.var)
  .enforce ((LC.ofVar b).subVar newnum.var)
  .enforce ((LC.ofVar c).subVar n.var)
  return newnum

/-- `src/gadgets/num.rs:327-336` `From<AllocatedBit>` -/
def ofBit (b : AllocatedBit) : AllocatedNum F := ⟨b.value.map fun v => if v then 1 else 0, b.var⟩

end AllocatedNum

namespace Combination

/-- `src/gadgets/num.rs:573-591` `evaluate` -/
def evaluate (one : Var) (a : Combination F) : Prog F (Num F) :=
  if a.anyAllocated then do
    let out ← AllocatedNum.alloc (orMissing a.value)
    .enforce (out.lc.subLC (a.lc one))
    return .ofAllocated out
  else
    match a.value with
    | some v => return .const v
    | none => .throw .assignmentMissing

/-- `src/gadgets/num.rs:593-617` `mul` -/
def mul (one : Var) (a b : Combination F) : Prog F (AllocatedNum F) := do
  let product := both (· * ·) a.value b.value
  let (l, r, o, ran) ← .doMultiply (do
    let l ← orMissing a.value
    let r ← orMissing b.value
    .ok (l, r, l * r))
  .enforce ((a.lc one).subVar l)
  .enforce ((b.lc one).subVar r)
  return ⟨assignedBy ran product, o⟩

/-- `src/gadgets/num.rs:619-640` `square` -/
def square (one : Var) (a : Combination F) : Prog F (AllocatedNum F) := do
  let (l, r, o, ran) ← .doMultiply (do
    let l ← orMissing a.value
    .ok (l, l, l * l))
  .enforce ((a.lc one).subVar l)
  .enforce ((a.lc one).subVar r)
  return ⟨assignedBy ran (a.value.map fun l => l * l), o⟩

/-- `src/gadgets/num.rs:642-655` `rescue_alpha` -/
def rescueAlpha (one : Var) (a : Combination F) : Prog F (Num F) :=
  if a.anyAllocated then do return .ofAllocated (← AllocatedNum.rescueAlpha one a)
  else
    match a.value with
    | some v => return .const (v ^ 5)
    | none => .throw .assignmentMissing

/-- `src/gadgets/num.rs:657-670` `rescue_invalpha` -/
def rescueInvalpha [FieldApi F] (one : Var) (a : Combination F) : Prog F (Num F) :=
  if a.anyAllocated then do return .ofAllocated (← AllocatedNum.rescueInvalpha one a)
  else
    match a.value with
    | some v => return .const (v ^ FieldApi.rescueInvAlpha F)
    | none => .throw .assignmentMissing

end Combination

/-- Run a gadget for each element of a list, in order, and collect the results
(`.map(..).collect::<Result<_, _>>()?`, or a `for` loop that pushes to a vector). -/
def mapProg {α β : Type} (f : α → Prog F β) : List α → Prog F (List β)
  | [] => return []
  | x :: xs => do
    let y ← f x
    let ys ← mapProg f xs
    return y :: ys

/-- The bits of bytes, least significant first (`src/gadgets/boolean.rs:290-295`) -/
def bytesBits (bytes : List (BitVec 8)) : List Bool :=
  bytes.flatMap fun byte => (List.range 8).map fun i => byte.getLsbD i

/-- `src/gadgets/boolean.rs:311-316`: add up bits with doubling coefficients. -/
def packBits (bits : List AllocatedBit) : LC F :=
  (bits.foldl (fun (acc : LC F × F) b => (acc.1.add (.full acc.2) b.var, acc.2 + acc.2))
    (LC.zero, 1)).1

/-- `src/gadgets/boolean.rs:280-321` `unpack_fe` -/
def unpackFe [FieldApi F] (one : Var) (num : Num F) : Prog F (List AllocatedBit) := do
  let values : List (Option Bool) := match num.value with
    | some value => (bytesBits (FieldApi.toBytes value).toList).map some
    | none => List.replicate 256 none
  let bools ← mapProg (fun value => AllocatedBit.alloc (orMissing value)) values
  .enforce ((packBits bools).subLC (num.lc one))
  return bools

end Circuit
end Halo
