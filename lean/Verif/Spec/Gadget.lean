import Verif.Spec.System
/-!
# Soundness and completeness of gadgets
-/
namespace Halo
namespace Circuit
variable {F : Type} [Field F] {α : Type}

/-- `Sound w p Q`: whatever variables the constraint system hands out, and whatever the value
closures have returned, if the assignment `w` satisfies every constraint that `p` adds and `p`
completes, then its result satisfies `Q`. -/
def Sound (w : Var → F) : Prog F α → (α → Prop) → Prop
  | .pure a, Q => Q a
  | .throw _, _ => True
  | .panic, _ => True
  | .alloc _ k, Q => ∀ x o, Sound w (k x o) Q
  | .allocInput _ k, Q => ∀ x o, Sound w (k x o) Q
  | .enforceZero lc k, Q => lc.eval w = 0 → Sound w k Q
  | .multiply _ k, Q => ∀ a b c o, w a * w b = w c → Sound w (k a b c o) Q

/-- `Complete w p Q`: whatever variables the constraint system hands out, if `w` assigns to them the
values that `p` supplies, then `p` supplies all values, does not fail, all constraints that it adds
are satisfied, and its result satisfies `Q`. -/
def Complete (w : Var → F) : Prog F α → (α → Prop) → Prop
  | .pure a, Q => Q a
  | .throw _, _ => False
  | .panic, _ => False
  | .alloc v k, Q => ∃ u, v = .ok u ∧ ∀ x, w x = u → Complete w (k x (some u)) Q
  | .allocInput v k, Q => ∃ u, v = .ok u ∧ ∀ x, w x = u → Complete w (k x (some u)) Q
  | .enforceZero lc k, Q => lc.eval w = 0 ∧ Complete w k Q
  | .multiply v k, Q => ∃ u, v = .ok u ∧ u.1 * u.2.1 = u.2.2 ∧
      ∀ a b c, w a = u.1 → w b = u.2.1 → w c = u.2.2 → Complete w (k a b c (some u)) Q

/-- Every assignment that satisfies the constraint system of the circuit, with any public inputs,
has the property.  The circuit may have been synthesized with or without values. -/
def Enforces (circuit : Var → Prog F α) (Q : (Var → F) → α → Prop) : Prop :=
  ∀ known a s w inputs, circuitSystem known circuit = .ok (a, s) → s.Satisfied w inputs → Q w a

/-- The public inputs of a system, without the constant one -/
def System.publicInputs (s : System F) : List F := (s.inputs.map fun p => p.2.getD 0).tail

/-- Synthesis with values succeeds, and the values satisfy the constraint system and have the
property. -/
def Provable (circuit : Var → Prog F α) (Q : (Var → F) → α → Prop) : Prop :=
  ∃ a s, circuitSystem true circuit = .ok (a, s) ∧ s.Satisfied s.w s.publicInputs ∧ Q s.w a

/-- There is an assignment with the property that satisfies the constraint system that is synthesized
for the supplied values, with the public inputs of these values; but its values need not be the
supplied ones. -/
def Forgeable (circuit : Var → Prog F α) (Q : (Var → F) → α → Prop) : Prop :=
  ∃ a s w, circuitSystem true circuit = .ok (a, s) ∧ s.Satisfied w s.publicInputs ∧ Q w a

end Circuit
end Halo
