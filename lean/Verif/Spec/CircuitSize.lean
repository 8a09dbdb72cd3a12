import Verif.Model.Circuit
import Verif.Model.Count
/-!
# Specification: the size of the verification circuit
-/
namespace Halo
namespace Circuit
variable {F α : Type}

/-- Whenever the circuit returns, whatever variables and values it is given, `Q` holds of its result and of the numbers of
allocations, multiplications and linear constraints at the end, if they are these at the start. A public input is an
allocation and a linear constraint. -/
def Counted : Prog F α → ℕ → ℕ → ℕ → (α → ℕ → ℕ → ℕ → Prop) → Prop
  | .pure x, a, m, l, Q => Q x a m l
  | .throw _, _, _, _, _ => True
  | .panic, _, _, _, _ => True
  | .alloc _ k, a, m, l, Q => ∀ x o, Counted (k x o) (a + 1) m l Q
  | .allocInput _ k, a, m, l, Q => ∀ x o, Counted (k x o) (a + 1) m (l + 1) Q
  | .enforceZero _ k, a, m, l, Q => Counted k a m (l + 1) Q
  | .multiply _ k, a, m, l, Q => ∀ x y z o, Counted (k x y z o) a (m + 1) l Q

/-- Whenever the circuit returns, `Q` holds of the numbers of allocations, multiplications and linear constraints that it
has asked for. -/
def Asks (p : Prog F α) (Q : ℕ → ℕ → ℕ → Prop) : Prop :=
  ∀ a0 m0 l0, Counted p a0 m0 l0 fun _ a' m' l' => ∃ a m l, a' = a0 + a ∧ m' = m0 + m ∧ l' = l0 + l ∧ Q a m l

end Circuit
namespace Recursion
open Circuit

/-- The size of the verification circuit for `2 ^ k` generators and a payload of `n` bits, when the user's circuit asks for
`a` allocations, `m` multiplications and `l` linear constraints. Two allocations share a gate. -/
def verificationSize (k n a m l : ℕ) : Counts :=
  let allocations := 53354 + 3 * n + 4248 * k + a
  let multiplications := 201630 + 9 * n + 16992 * k + (128 * k + 249) / 250 + m
  let constraints := 468155 + 23 * n + 38696 * k + 3 * ((128 * k + 249) / 250) + l
  ⟨allocations, multiplications, multiplications + (allocations + 1) / 2, constraints⟩

end Recursion
end Halo
