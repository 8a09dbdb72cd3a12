import Verif.Model.Proofs.Curve
/-!
# Public parameters (`src/proofs.rs:1113-1234`)
-/
namespace Halo
namespace Proofs
open Circuit
variable {C F S : Type}

/-- `src/proofs.rs:1112-1120` `Params`, without `g` and `generators_xy`, which `src/proofs.rs` does
not use. -/
structure Params (C : Type) where
  d : ℕ
  n : ℕ
  k : ℕ
  generators : List C

/-- `src/proofs.rs:1149-1160`: one generator, from the attempts drawn for it, in order. `none` is a
panic or that none of these attempts succeeds. -/
def drawGenerator (E : CurveConsts) [Field F] [DecidableEq F] [FieldApi F] :
    List (Vector (BitVec 8) 32) → Option (Proj F)
  | [] => none
  | bytes :: rest =>
    match Proj.fromBytes E bytes with
    | some p => if p.z = 1 then some p else none
    | none => drawGenerator E rest

/-- `src/proofs.rs:1123-1175` `Params::new`.  `attempts i` are the 32-byte strings that the thread
that owns generator `i` reads from the operating system for it; the threads share nothing else. -/
def Params.new (E : CurveConsts) (F : Type) [Field F] [DecidableEq F] [FieldApi F] (k : ℕ)
    (attempts : ℕ → List (Vector (BitVec 8) 32)) : Option (Params (Proj F)) := do
  if ¬ k > 3 then none
  let d := 1 <<< k
  let n := d / 4
  let generators ← (List.range d).mapM fun i => drawGenerator E (attempts i)
  some ⟨d, n, k, generators⟩

section
variable [CurveApi C S] [FieldApi S] (cpus : ℕ) (lnCeil : ℕ → ℕ)

/-- `src/proofs.rs:1177-1184` `commit` -/
def Params.commit (params : Params C) (v : List S) (rightEdge : Bool) : Option C :=
  if params.generators.length < v.length then none
  else if rightEdge then
    Util.multiexp cpus lnCeil v (params.generators.drop (params.generators.length - v.length))
  else Util.multiexp cpus lnCeil v (params.generators.take v.length)

end

/-- `src/proofs.rs:1219-1233` `compute_opening` -/
def Params.computeOpening [Field S] (params : Params C) (v : List S) (point : S)
    (rightEdge : Bool) : Option S :=
  if rightEdge then openingRight params.generators.length v point else some (opening v point)

end Proofs
end Halo
