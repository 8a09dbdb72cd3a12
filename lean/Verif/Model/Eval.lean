import Verif.Model.Dev
import Verif.Spec.FieldApi
/-!
# Evaluators of the constraint polynomial, and the witness backends (`src/proofs.rs`)
-/
namespace Halo
namespace Circuit
variable {F : Type} [Field F]

/-- `src/proofs.rs:1519-1531` `SxEval` -/
structure SxEval (F : Type) where
  y : F
  curY : F
  u : List F
  v : List F
  w : List F

/-- `src/proofs.rs:1534-1546` `SxEval::new` -/
def SxEval.new (y : F) : SxEval F := ⟨y, 1, [], [], []⟩

/-- `vec[index - 1] = vec[index - 1] + tmp`; `none` is a panic. -/
def addAt1 (l : List F) (index : ℕ) (tmp : F) : Option (List F) :=
  (at1 l index).map fun acc => l.set (index - 1) (acc + tmp)

/-- `src/proofs.rs:1553-1599`; `get_var`, `set_var` and `new_k_power` are the defaults
(`src/synthesis.rs:12-34`, `68-70`). -/
def sxBackend : Backend F (SxEval F) F where
  getVar _ _ := .ok none
  setVar s _ _ _ := .ok (s, false)
  newGate s _ := { s with u := s.u ++ [0], v := s.v ++ [0], w := s.w ++ [0] }
  newLinear s := ({ s with curY := s.curY * s.y }, s.curY * s.y)
  insertCoeff s var coeff y :=
    let tmp := coeff.multiply y
    match var with
    | .A i => match addAt1 s.u i tmp with
      | none => .error .panic
      | some u => .ok { s with u }
    | .B i => match addAt1 s.v i tmp with
      | none => .error .panic
      | some v => .ok { s with v }
    | .C i => match addAt1 s.w i tmp with
      | none => .error .panic
      | some w => .ok { s with w }
  newK s _ _ := .ok s

/-- `src/proofs.rs:1606-1625` `SyEval` -/
structure SyEval (F : Type) where
  a : List F
  b : List F
  c : List F
  poly : List F

/-- `tmp.mul_assign(&x); *v = tmp` for a vector of `n` elements; returns the last `tmp`. -/
def powers (x : F) : ℕ → F → List F × F
  | 0, tmp => ([], tmp)
  | n + 1, tmp =>
    let tmp := tmp * x
    let (rest, last) := powers x n tmp
    (tmp :: rest, last)

/-- `src/proofs.rs:1628-1659` `SyEval::new`; `q` is only a capacity. -/
def SyEval.new [FieldApi F] (x : F) (n : ℕ) : Option (SyEval F) := do
  let xinv ← FieldApi.invert x
  let (a, _) := powers xinv n 1
  let (b, tmp) := powers x n 1
  let (c, _) := powers x n tmp
  some ⟨a, b, c, [0]⟩

/-- `src/proofs.rs:1666-1720` -/
def syBackend : Backend F (SyEval F) ℕ where
  getVar _ _ := .ok none
  setVar s _ _ _ := .ok (s, false)
  newGate s _ := s
  newLinear s := ({ s with poly := s.poly ++ [0] }, s.poly.length)
  insertCoeff s var coeff q :=
    match (match var with
      | .A i => at1 s.a i
      | .B i => at1 s.b i
      | .C i => at1 s.c i) with
    | none => .error .panic
    | some tmp => match s.poly[q]? with
      | none => .error .panic
      | some old => .ok { s with poly := s.poly.set q (old + coeff.multiply tmp) }
  newK s _ _ := .ok s

/-- `Vec::resize(n, 0)` -/
def resize (l : List F) (n : ℕ) : List F := l.take n ++ List.replicate (n - l.length) 0

/-- `src/proofs.rs:1186-1205` `compute_sx` -/
def computeSx {α : Type} (n : ℕ) (circuit : Var → Prog F α) (y : F) : Except Fail (List F) := do
  let (_, d) ← Basic.synthesize sxBackend (SxEval.new y) circuit
  let u := resize d.backend.u n
  let v := resize d.backend.v n
  let w := resize d.backend.w n
  .ok (u.reverse ++ [0] ++ v ++ w)

/-- `src/proofs.rs:1207-1217` `compute_sy` -/
def computeSy {α : Type} [FieldApi F] (n : ℕ) (circuit : Var → Prog F α) (x : F) :
    Except Fail (List F) :=
  match SyEval.new x n with
  | none => .error .panic
  | some s => do
    let (_, d) ← Basic.synthesize syBackend s circuit
    .ok d.backend.poly

/-- `src/proofs.rs:1219-1233` `compute_opening`, without the right-edge shift -/
def opening (v : List F) (point : F) : F :=
  (v.foldl (fun (acc, cur) v => (acc + cur * v, cur * point)) ((0, 1) : F × F)).1

/-- `src/proofs.rs:1219-1233` `compute_opening` with `right_edge`, for `d` generators; `none` is a
panic (or an overflow) if the vector is longer than `d`. -/
def openingRight (d : ℕ) (v : List F) (point : F) : Option F :=
  if v.length ≤ d then some (opening v point * point ^ (d - v.length)) else none

/-- `src/proofs.rs:344-351` the prover's `Assignment` -/
structure Witness (F : Type) where
  n : ℕ
  q : ℕ
  wires : Wires F
  inputs : List (ℕ × F)

/-- `src/proofs.rs:353-441` -/
def proverBackend : Backend F (Witness F) ℕ where
  getVar s var := match s.wires.get var with
    | some v => .ok (some v)
    | none => .error .panic
  setVar s _ var value := match value with
    | .error e => .error (.err e)
    | .ok v => match s.wires.set var v with
      | none => .error .panic
      | some wires => .ok ({ s with wires }, true)
  newGate s _ := { s with n := s.n + 1, wires := s.wires.push }
  newLinear s := ({ s with q := s.q + 1 }, s.q + 1)
  insertCoeff s _ _ _ := .ok s
  newK s index value := match value with
    | none => .error (.err .assignmentMissing)
    | some v => .ok { s with inputs := s.inputs ++ [(index, v)] }

/-- `src/proofs.rs:792-818` `InputMap` -/
def inputMapBackend : Backend F (List ℕ) Unit where
  getVar _ _ := .ok none
  setVar s _ _ _ := .ok (s, false)
  newGate s _ := s
  newLinear s := (s, ())
  insertCoeff s _ _ _ := .ok s
  newK s index _ := .ok (s ++ [index])

/-- `src/proofs.rs:490-496`, `827-836`: the polynomial `k(Y)` from the inputs and their powers. -/
def kPoly (inputs : List (ℕ × F)) : List F :=
  inputs.foldl (fun ky p => (resize ky (p.1 + 1)).set p.1 p.2) [0]

/-- `src/proofs.rs:503-508`: `r(X, 1)` scaled by `X^{2n}`, from an assignment padded to `n` -/
def rPoly (n : ℕ) (w : Wires F) : List F :=
  (resize w.c n).reverse ++ (resize w.b n).reverse ++ [0] ++ resize w.a n

/-- `src/proofs.rs:526-533`: `r(X, y)` from `r(X, 1)`, multiplying from the last coefficient -/
def rxyPoly (n : ℕ) (rx : List F) (y yInv : F) : List F :=
  (rx.reverse.foldl (fun (out, cur) c => (c * cur :: out, cur * yInv)) (([] : List F), y ^ n)).1

/-- `src/proofs.rs:546-551` -/
def subPowers (y yInv : F) : List F → F → F → List F
  | [], _, _ => []
  | c :: rest, pos, neg => (c - pos - neg) :: subPowers y yInv rest (pos * y) (neg * yInv)

/-- `src/proofs.rs:536-552`: `s'(X, y)` -/
def sPrime (n : ℕ) (sx : List F) (y yInv : F) : List F :=
  let scaled := sx.map (· * y ^ n)
  scaled.take (2 * n + 1) ++ subPowers y yInv (scaled.drop (2 * n + 1)) y yInv

/-- `src/proofs.rs:555-560`: `r(X, y) + s'(X, y)` -/
def rPrime (n : ℕ) (rxy sp : List F) : List F :=
  let r := resize rxy (4 * n + 1)
  r.take n ++ (r.drop n).zipWith (· + ·) sp

end Circuit
end Halo
