import Verif.Model.Gadget.Boolean
/-!
# Programs that ask for the same constraints, whatever values they know

`Twin V p p' R` compares a program `p` that may know any values with a program `p'` that is run by a
constraint system that does not ask for values. It says that `p'` succeeds; that `p`, until it fails, makes
the same calls; and that linear combinations only mention variables in `V`, which contains all
variables that have been handed out. The results are related by `R`. There are no public inputs;
`TwinIn V vs p p' R` is for programs that first allocate public inputs, which are `vs` in `p`.
-/
namespace Halo
namespace Circuit
variable {F : Type} {α β : Type}

/-- All variables of the combination are in `V`. -/
def LC.In (V : Var → Prop) (lc : LC F) : Prop := ∀ t ∈ lc.terms, V t.1

/-- `p` succeeds when no values are asked for. -/
def Blind (V : Var → Prop) : Prog F β → (β → Prop) → Prop
  | .pure b, Q => Q b
  | .throw _, _ => False
  | .panic, _ => False
  | .alloc _ k, Q => ∀ x, V x → Blind V (k x none) Q
  | .allocInput _ _, _ => False
  | .enforceZero lc k, Q => lc.In V ∧ Blind V k Q
  | .multiply _ k, Q => ∀ a b c, V a → V b → V c → Blind V (k a b c none) Q

/-- See above. -/
def Twin (V : Var → Prop) : Prog F α → Prog F β → (α → β → Prop) → Prop
  | .throw _, p', R => Blind V p' fun b => ∃ a, R a b
  | .panic, p', R => Blind V p' fun b => ∃ a, R a b
  | .pure a, p', R => match p' with
    | .pure b => R a b
    | _ => False
  | .alloc _ k, p', R => match p' with
    | .alloc _ k' => ∀ x o, V x → Twin V (k x o) (k' x none) R
    | _ => False
  | .allocInput _ _, _, _ => False
  | .enforceZero lc k, p', R => match p' with
    | .enforceZero lc' k' => lc = lc' ∧ lc.In V ∧ Twin V k k' R
    | _ => False
  | .multiply _ k, p', R => match p' with
    | .multiply _ k' => ∀ a b c o, V a → V b → V c → Twin V (k a b c o) (k' a b c none) R
    | _ => False

/-- See above. -/
def TwinIn (V : Var → Prop) : List F → Prog F α → Prog F β → (α → β → Prop) → Prop
  | [], p, p', R => Twin V p p' R
  | v :: vs, .allocInput (.ok u) k, .allocInput (.ok v') k', R =>
    u = v ∧ ∀ x, V x → TwinIn V vs (k x (some u)) (k' x (some v')) R
  | _, _, _, _ => False

/-- The same bit, up to its value -/
inductive AllocatedBit.Twin (V : Var → Prop) : AllocatedBit → AllocatedBit → Prop
  | mk (v v' : Option Bool) (x : Var) (hx : V x) : AllocatedBit.Twin V ⟨v, x⟩ ⟨v', x⟩

end Circuit
end Halo
