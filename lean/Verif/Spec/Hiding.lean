import Verif.Spec.Proofs
/-!
# Specification: a commitment to an assignment
-/
namespace Halo
namespace Proofs
open Circuit
variable {S G : Type} [Field S] [AddCommGroup G] [Module S G]

/-- The sum over all variables of the first `n` gates, each with its own generator -/
def witnessPoint (g : ℕ → G) (n : ℕ) (w : Var → S) : G :=
  ∑ i ∈ Finset.range n, (w (.A (i + 1)) • g (3 * n + i) + w (.B (i + 1)) • g (3 * n - 2 - i) + w (.C (i + 1)) • g (2 * n - 2 - i))

/-- A relation between the first `d` generators is known, which should be hard to find. -/
def Dependent (S : Type) [Field S] [Module S G] (g : ℕ → G) (d : ℕ) : Prop :=
  ∃ c : ℕ → S, (∃ i < d, c i ≠ 0) ∧ ∑ i ∈ Finset.range d, c i • g i = 0

/-- The circuits ask for the same, with the same values, and without values for the same gates and linear constraints. -/
def SameRun {α β : Type} (circuit : Var → Prog S α) (circuit' : Var → Prog S β) : Prop :=
  ∃ a s b s', circuitSystem true circuit = .ok (a, s) ∧ circuitSystem true circuit' = .ok (b, s') ∧
    s.gates = s'.gates ∧ s.lcs = s'.lcs ∧ s.inputs = s'.inputs ∧ s.w = s'.w ∧
    ∃ positions, HasShape false circuit s.gates s.lcs positions ∧ HasShape false circuit' s.gates s.lcs positions

end Proofs
end Halo
