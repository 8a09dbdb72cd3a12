import Verif.Model.Rescue
import Verif.Model.Gadget.Sha256
/-!
# The Rescue gadget (`src/gadgets/rescue.rs`)

The arrays of the code are lists of the same length here.
-/
namespace Halo
namespace Circuit
open Sha256 (foldProg index)
variable {F : Type} [Field F] [FieldApi F]

namespace RescueGadget

/-- `src/rescue.rs:12-21` `generate_mds_matrix` -/
def mdsMatrix : List (List F) :=
  (List.range Rescue.M).map fun i => (List.range Rescue.M).map fun j => Rescue.mdsEntry i j

/-- `src/gadgets/rescue.rs:20-29, 71-80`: the power map of half round `r` -/
def sboxes (one : Var) (r : ℕ) (state : List (Combination F)) : Prog F (List (Num F)) :=
  mapProg (fun entry => if r % 2 = 0 then entry.rescueInvalpha one else entry.rescueAlpha one) state

omit [FieldApi F] in
/-- `src/gadgets/rescue.rs:35-38, 86-89`: a row of the matrix times the intermediate state -/
def rowSum (row : List F) (mid : List (Num F)) : Combination F :=
  (row.zip mid).foldl (fun sum t => sum.addScaled (.full t.1) t.2) (.ofNum (.const 0))

/-- `src/gadgets/rescue.rs:31-40, 82-91`: the linear map and the key addition -/
def mixed (mid keys : List (Num F)) : List (Combination F) :=
  (mdsMatrix.zip keys).map fun t => (rowSum t.1 mid).addNum t.2

/-- `src/gadgets/rescue.rs:9-44` `rescue_f` -/
def rescueF (one : Var) (keySchedule : List (List (Num F))) (state : List (Combination F)) :
    Prog F (List (Combination F)) := do
  let key0 ← index keySchedule 0
  let state := List.zipWith Combination.addNum state key0
  foldProg (fun state r => do
    let mid ← sboxes one r state
    let key ← index keySchedule (r + 1)
    return mixed mid key) (List.range (2 * Rescue.rounds)) state

/-- `src/gadgets/rescue.rs:46-134` `generate_key_schedule` -/
def generateKeySchedule (one : Var) (masterKey : List (Num F)) : Prog F (List (List (Num F))) := do
  let constants : List (Num F) := List.replicate Rescue.M (.const 1)
  let state := List.zipWith (fun e k => (Combination.ofNum e).addNum k) masterKey constants
  let key0 ← mapProg (fun c => Combination.evaluate one c) state
  let (_, keySchedule) ← foldProg (fun (s : List (Combination F) × List (List (Num F))) r => do
    let mid ← sboxes one r s.1
    let state := mixed mid constants
    let key ← mapProg (fun c => Combination.evaluate one c) state
    return (state, s.2 ++ [key])) (List.range (2 * Rescue.rounds)) (state, [key0])
  return keySchedule

omit [FieldApi F] in
/-- `src/gadgets/rescue.rs:136-160` `pad` -/
def pad (one : Var) (input : List (Option (Num F))) : Prog F (List (Num F)) := do
  let n ← AllocatedNum.alloc (.ok 1)
  .enforce (n.lc.subVar one)
  return input.map fun e => match e with
    | some e => e
    | none => .ofAllocated n

/-- Add to the entries of a list as long as there are values (`zip` with `iter_mut`). -/
def addFirst : List (Combination F) → List (Num F) → List (Combination F)
  | e :: es, i :: is => e.addNum i :: addFirst es is
  | es, _ => es

/-- `src/gadgets/rescue.rs:162-179` `rescue_duplex` -/
def duplex (one : Var) (keySchedule : List (List (Num F))) (state : List (Combination F))
    (input : List (Option (Num F))) : Prog F (List (Combination F)) := do
  let padded ← pad one input
  rescueF one keySchedule (addFirst state padded)

/-- `src/gadgets/rescue.rs:181-184` `SpongeState` -/
inductive Sponge (F : Type) where
  | absorbing (input : List (Option (Num F)))
  | squeezing (output : List Bool)

/-- `src/gadgets/rescue.rs:186-192` `SpongeState::absorb` -/
def Sponge.absorb (val : Num F) : Sponge F :=
  .absorbing ((List.replicate Rescue.rate none).set 0 (some val))

end RescueGadget

/-- `src/gadgets/rescue.rs:194-199` `RescueGadget`; the matrix is a constant. -/
structure RescueGadget (F : Type) where
  sponge : RescueGadget.Sponge F
  state : List (Combination F)
  keySchedule : List (List (Num F))

namespace RescueGadget

/-- `src/gadgets/rescue.rs:202-230` `new` -/
def new (one : Var) : Prog F (RescueGadget F) := do
  let keySchedule ← generateKeySchedule one (List.replicate Rescue.M (.const 0))
  return ⟨.absorbing (List.replicate Rescue.rate none),
    List.replicate Rescue.M (.ofNum (.const 0)), keySchedule⟩

omit [Field F] [FieldApi F] in
/-- `src/gadgets/rescue.rs:239-244`: write into the first empty entry. -/
def fillFirst (val : Num F) : List (Option (Num F)) → Option (List (Option (Num F)))
  | [] => none
  | none :: es => some (some val :: es)
  | some e :: es => (fillFirst val es).map (some e :: ·)

/-- `src/gadgets/rescue.rs:232-263` `absorb` -/
def absorb (one : Var) (val : Num F) (g : RescueGadget F) : Prog F (RescueGadget F) :=
  match g.sponge with
  | .absorbing input =>
    match fillFirst val input with
    | some input => return { g with sponge := .absorbing input }
    | none => do
      let state ← duplex one g.keySchedule g.state input
      return { g with sponge := .absorb val, state := state }
  | .squeezing _ => return { g with sponge := .absorb val }

omit [Field F] [FieldApi F] in
/-- `src/gadgets/rescue.rs:282-283`: the index of the first entry that has not been squeezed -/
def firstFalse : List Bool → Option ℕ
  | [] => none
  | false :: _ => some 0
  | true :: bs => (firstFalse bs).map (· + 1)

/-- `src/gadgets/rescue.rs:265-307` `squeeze`: the `loop`, with fuel. -/
def squeezeLoop (one : Var) : ℕ → RescueGadget F → Prog F (AllocatedNum F × RescueGadget F)
  | 0, _ => .panic
  | fuel + 1, g =>
    match g.sponge with
    | .absorbing input => do
      let state ← duplex one g.keySchedule g.state input
      squeezeLoop one fuel { g with sponge := .squeezing (List.replicate Rescue.rate false), state := state }
    | .squeezing output =>
      match firstFalse output with
      | some i => do
        let entry ← index g.state i
        let out ← AllocatedNum.alloc (orMissing entry.value)
        .enforce (out.lc.subLC (entry.lc one))
        return (out, { g with
          sponge := .squeezing (output.set i true)
          state := g.state.set i (.ofAllocated out) })
      | none => squeezeLoop one fuel
          { g with sponge := .absorbing (List.replicate Rescue.rate none) }

/-- `src/gadgets/rescue.rs:265-307` `squeeze`; three iterations are always enough (C39). -/
def squeeze (one : Var) (g : RescueGadget F) : Prog F (AllocatedNum F × RescueGadget F) :=
  squeezeLoop one 3 g

/-- A call of the public interface -/
inductive Call (F : Type) where
  | absorb (val : Num F)
  | squeeze

/-- A history of calls; returns the squeezed numbers in order. -/
def run (one : Var) : List (Call F) → RescueGadget F → Prog F (List (AllocatedNum F) × RescueGadget F)
  | [], g => return ([], g)
  | .absorb v :: cs, g => do
    let g ← absorb one v g
    run one cs g
  | .squeeze :: cs, g => do
    let (e, g) ← squeeze one g
    let (es, g) ← run one cs g
    return (e :: es, g)

end RescueGadget
end Circuit
end Halo
