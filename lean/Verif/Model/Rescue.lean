import Verif.Spec.FieldApi
/-!
# The Rescue sponge (`src/rescue.rs`)

Fixed-size arrays are `Vector`s.  `pow_vartime` with the exponents `RESCUE_INVALPHA` and
`RESCUE_ALPHA = 5` is the power of the field (C06).
-/
namespace Halo
namespace Rescue

/-- `src/rescue.rs:6` `RESCUE_ROUNDS`; there are `2 * RESCUE_ROUNDS` half rounds. -/
def rounds : ℕ := 10
/-- `src/rescue.rs:7` `RESCUE_M` -/
abbrev M : ℕ := 13
/-- `src/rescue.rs:10` `SPONGE_RATE` -/
abbrev rate : ℕ := 12

variable {F : Type} [Field F] [FieldApi F]

/-- `src/rescue.rs:12-21` `generate_mds_matrix`, entry `(i, j)`. -/
def mdsEntry (i j : ℕ) : F := FieldApi.fromU64 (BitVec.ofNat 64 ((i + 1) * j))

/-- `src/rescue.rs:23-34` `mds`, with the generated matrix. -/
def mds (s : Vector F M) : Vector F M :=
  Vector.ofFn fun i => (List.finRange M).foldl
    (fun acc j => acc + mdsEntry i.1 j.1 * s[j]) 0

/-- `state[i] += key[i]` for all `i` (`src/rescue.rs:41-43, 55-57`). -/
def addVec (s k : Vector F M) : Vector F M := Vector.ofFn fun i => s[i] + k[i]

/-- `src/rescue.rs:46-53`: the power map of half round `r`. -/
def sbox (r : ℕ) (s : Vector F M) : Vector F M :=
  let exp := if r % 2 = 0 then FieldApi.rescueInvAlpha F else 5
  s.map fun e => e ^ exp

/-- `src/rescue.rs:36-59` `rescue_f`; the key schedule is a function of the half round. -/
def permute (key : ℕ → Vector F M) (s : Vector F M) : Vector F M :=
  (List.range (2 * rounds)).foldl (fun s r => addVec (mds (sbox r s)) (key (r + 1)))
    (addVec s (key 0))

/-- `src/rescue.rs:67`: the round constants, all one. -/
def ones : Vector F M := Vector.replicate M 1

/-- `src/rescue.rs:61-117` `generate_key_schedule`, entry `r` (the code computes the entries
`0, …, 20`). -/
def keySchedule (master : Vector F M) : ℕ → Vector F M
  | 0 => addVec master ones
  | r + 1 => addVec (mds (sbox r (keySchedule master r))) ones

/-- `src/rescue.rs:184`: the key schedule of `Rescue::new`, with master key zero. -/
def key : ℕ → Vector F M := keySchedule (Vector.replicate M 0)

/-- `src/rescue.rs:118-129` `pad` -/
def pad (input : Vector (Option F) rate) : Vector F rate := input.map fun e => e.getD 1

/-- `src/rescue.rs:137-142`: add the padded block to the first twelve state elements and permute. -/
def duplexState (s : Vector F M) (input : Vector (Option F) rate) : Vector F M :=
  let padded := pad input
  permute key (Vector.ofFn fun i => if h : i.1 < rate then s[i] + padded[i.1] else s[i])

/-- `src/rescue.rs:144-148`: the first twelve elements are the output. -/
def output (s : Vector F M) : Vector (Option F) rate := Vector.ofFn fun i => some s[i.1]

/-- `src/rescue.rs:151-155` `SpongeState` -/
inductive Sponge (F : Type) where
  | absorbing (input : Vector (Option F) rate)
  | squeezing (output : Vector (Option F) rate)

/-- `src/rescue.rs:158-162` `SpongeState::absorb` -/
def Sponge.absorb (val : F) : Sponge F := .absorbing ((Vector.replicate rate none).set 0 (some val))

end Rescue

/-- `src/rescue.rs:165-171` `Rescue`; the matrix and the key schedule are constants. -/
structure Rescue (F : Type) where
  sponge : Rescue.Sponge F
  state : Vector F Rescue.M

namespace Rescue
variable {F : Type} [Field F] [FieldApi F]

omit [FieldApi F] in
/-- `src/rescue.rs:180-192` `Rescue::new` -/
def new : Rescue F := ⟨.absorbing (Vector.replicate rate none), Vector.replicate M 0⟩

omit [Field F] [FieldApi F] in
/-- `src/rescue.rs:197-202`: write into the first empty entry from index `i` on; `none` when there
is none. -/
def fillFirst (val : F) (input : Vector (Option F) rate) (i : ℕ) : Option (Vector (Option F) rate) :=
  if h : i < rate then
    if input[i].isNone then some (input.set i (some val)) else fillFirst val input (i + 1)
  else none
termination_by rate - i

/-- `src/rescue.rs:194-213` `absorb` -/
def absorb (val : F) (r : Rescue F) : Rescue F :=
  match r.sponge with
  | .absorbing input =>
    match fillFirst val input 0 with
    | some input => { r with sponge := .absorbing input }
    | none => ⟨Sponge.absorb val, duplexState r.state input⟩
  | .squeezing _ => { r with sponge := Sponge.absorb val }

omit [Field F] [FieldApi F] in
/-- `src/rescue.rs:227-231`: take the first present entry from index `i` on. -/
def takeFirst (out : Vector (Option F) rate) (i : ℕ) : Option (F × Vector (Option F) rate) :=
  if h : i < rate then
    match out[i] with
    | some e => some (e, out.set i none)
    | none => takeFirst out (i + 1)
  else none
termination_by rate - i

/-- `src/rescue.rs:215-238` `squeeze`: the `loop`, with fuel; `none` only if it has not returned
after that many iterations. -/
def squeezeLoop : ℕ → Rescue F → Option (F × Rescue F)
  | 0, _ => none
  | fuel + 1, r =>
    match r.sponge with
    | .absorbing input =>
      let state := duplexState r.state input
      squeezeLoop fuel ⟨.squeezing (output state), state⟩
    | .squeezing out =>
      match takeFirst out 0 with
      | some (e, out) => some (e, { r with sponge := .squeezing out })
      | none => squeezeLoop fuel { r with sponge := .absorbing (Vector.replicate rate none) }

/-- `src/rescue.rs:215-238` `squeeze`; C26 shows that three iterations are always enough. -/
def squeeze (r : Rescue F) : Option (F × Rescue F) := squeezeLoop 3 r

/-- A call of the public interface. -/
inductive Call (F : Type) where
  | absorb (val : F)
  | squeeze

/-- A history of calls; returns the squeezed values in order. -/
def run : List (Call F) → Rescue F → Option (List F × Rescue F)
  | [], r => some ([], r)
  | .absorb v :: cs, r => run cs (absorb v r)
  | .squeeze :: cs, r => do
    let (e, r) ← squeeze r
    let (es, r) ← run cs r
    some (e :: es, r)

end Rescue
end Halo
