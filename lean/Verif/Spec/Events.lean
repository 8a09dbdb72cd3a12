import Verif.Model.Dev
/-!
# The calls that a circuit makes

The sequence of calls to the constraint system, when the values are asked for (`known`) or not.  The
constraint system hands out `A v`, `A (v+1)`, ….
-/
namespace Halo
namespace Circuit
variable {F : Type}

/-- The calls a program makes, or `none` if it does not complete. -/
def calls {α : Type} (known : Bool) : Prog F α → ℕ → Option (List (Event F))
  | .pure _, _ => some []
  | .throw _, _ => none
  | .panic, _ => none
  | .alloc value k, v =>
    match known, value with
    | true, .error _ => none
    | true, .ok x => (calls known (k (.A v) (some x)) (v + 1)).map (.alloc :: ·)
    | false, _ => (calls known (k (.A v) none) (v + 1)).map (.alloc :: ·)
  | .allocInput value k, v =>
    match known, value with
    | true, .error _ => none
    | true, .ok x => (calls known (k (.A v) (some x)) (v + 1)).map (.inputAlloc :: ·)
    | false, _ => (calls known (k (.A v) none) (v + 1)).map (.inputAlloc :: ·)
  | .enforceZero lc k, v => (calls known k v).map (.enforceZero lc :: ·)
  | .multiply values k, v =>
    match known, values with
    | true, .error _ => none
    | true, .ok x =>
      (calls known (k (.A v) (.A (v + 1)) (.A (v + 2)) (some x)) (v + 3)).map (.multiplication :: ·)
    | false, _ =>
      (calls known (k (.A v) (.A (v + 1)) (.A (v + 2)) none) (v + 3)).map (.multiplication :: ·)

/-- Two calls of the same kind; linear constraints have the same coefficients for variables with the
same number. -/
def Event.Alike : Event F → Event F → Prop
  | .alloc, .alloc => True
  | .inputAlloc, .inputAlloc => True
  | .multiplication, .multiplication => True
  | .enforceZero a, .enforceZero b =>
    (a.terms.map fun t => (t.1.index, t.2)) = b.terms.map fun t => (t.1.index, t.2)
  | _, _ => False

end Circuit
end Halo
