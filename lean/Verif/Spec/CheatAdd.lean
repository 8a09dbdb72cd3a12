import Verif.Model.Gadget.Ecc
/-!
# A prover that lies about additions
-/
namespace Halo
namespace Circuit
variable {F : Type} [Field F] [DecidableEq F] [FieldApi F] (E : CurveConsts)

namespace CurvePoint

/-- `add` (`src/gadgets/ecc.rs:357-853`) by a prover that, if asked to, claims a sum of its own choice: the
constraints are the same, and so are the values, except that the coordinates and the flag that the code
computes as the sum of the two points are replaced by `claim`. -/
def addTo (claim : Option (F × F)) (one : Var) (p q : CurvePoint F) : Prog F (CurvePoint F) := do
  let x1Val := p.x.value
  let y1Val := p.y.value
  let x2Val := q.x.value
  let y2Val := q.y.value
  let p1Val ← pointOf E x1Val y1Val
  let p2Val ← pointOf E x2Val y2Val
  let p3Val := match claim with
    | some t => some (t.1, t.2, false)
    | none => (both (Proj.add E) p1Val p2Val).map pointValues
  let x3Val := p3Val.map (·.1)
  let y3Val := p3Val.map (·.2.1)
  let p3IsIdentityVal := p3Val.map (·.2.2)
  let p1IsIdentityVal := p.isIdentity.getValue
  let p2IsIdentityVal := q.isIdentity.getValue
  let x4Val := both (fun x3 b => if b then 0 else x3) x3Val p3IsIdentityVal
  let y4Val := both (fun y3 b => if b then 0 else y3) y3Val p3IsIdentityVal
  let x5Val := x2Val.bind fun x2 => both (fun x4 b => if b then x2 else x4) x4Val p1IsIdentityVal
  let y5Val := y2Val.bind fun y2 => both (fun y4 b => if b then y2 else y4) y4Val p1IsIdentityVal
  let xOutVal := x1Val.bind fun x1 => both (fun x5 b => if b then x1 else x5) x5Val p2IsIdentityVal
  let yOutVal := y1Val.bind fun y1 => both (fun y5 b => if b then y1 else y5) y5Val p2IsIdentityVal
  let xOut ← AllocatedNum.alloc (orMissing xOutVal)
  let yOut ← AllocatedNum.alloc (orMissing yOutVal)
  let p3IsIdentity ← AllocatedBit.alloc (orMissing p3IsIdentityVal)
  addSlope one p q
  let flag ← addFlag one p q p3IsIdentityVal p3IsIdentity
  let x4 ← addClear one flag x3Val x4Val p3IsIdentityVal
  let y4 ← addClear one flag y3Val y4Val p3IsIdentityVal
  let x5Lc ← addFirst one p.isIdentity x2Val (q.x.lc one) x4Val x4 x5Val
  let y5Lc ← addFirst one p.isIdentity y2Val (q.y.lc one) y4Val y4 y5Val
  choose p2IsIdentityVal x1Val x5Val xOutVal (q.isIdentity.lc one .one) (p.x.lc one) x5Lc xOut.lc
  choose p2IsIdentityVal y1Val y5Val yOutVal (q.isIdentity.lc one .one) (p.y.lc one) y5Lc yOut.lc
  return ⟨.ofAllocated xOut, .ofAllocated yOut, .is p3IsIdentity⟩

/-- Without a claim the addition is the one of the code. -/
theorem addTo_none (one : Var) (p q : CurvePoint F) : addTo E none one p q = add E one p q := rfl

end CurvePoint
end Circuit
end Halo
