import Verif.Model.Circuit
/-!
# `src/gadgets/multieq.rs`

The file is not part of the crate (`src/gadgets/mod.rs` does not mention it).
-/
namespace Halo
namespace Circuit
variable {F : Type} [Field F]

/-- `F::CAPACITY`, `src/fields/fp.rs:404`, `src/fields/fq.rs:404` -/
def fieldCapacity : ℕ := 254

/-- `src/gadgets/multieq.rs:6-12` `MultiEq`; the constraint system is the one that the program runs on. -/
structure MultiEq (F : Type) where
  ops : ℕ
  bitsUsed : ℕ
  lhs : LC F
  rhs : LC F

namespace MultiEq

/-- `src/gadgets/multieq.rs:15-23` `new` -/
def new : MultiEq F := ⟨0, 0, .zero, .zero⟩

/-- `src/gadgets/multieq.rs:25-34` `accumulate` -/
def accumulate (self : MultiEq F) : Prog F (MultiEq F) :=
  .enforceZero (self.lhs.subLC self.rhs) (.pure ⟨self.ops + 1, 0, .zero, .zero⟩)

/-- `src/gadgets/multieq.rs:36-54` `enforce_equal`. The power of two is computed with `pow` (C06). -/
def enforceEqual (self : MultiEq F) (numBits : ℕ) (lhs rhs : LC F) : Prog F (MultiEq F) := do
  let self ← if fieldCapacity ≤ self.bitsUsed + numBits then self.accumulate else pure self
  if fieldCapacity > self.bitsUsed + numBits then
    let coeff : Coeff F := .full ((1 + 1) ^ self.bitsUsed)
    return { self with lhs := self.lhs.addScaled coeff lhs, rhs := self.rhs.addScaled coeff rhs,
                       bitsUsed := self.bitsUsed + numBits }
  else .panic

/-- `src/gadgets/multieq.rs:57-63` `drop` -/
def drop (self : MultiEq F) : Prog F Unit :=
  if self.bitsUsed > 0 then do
    let _ ← self.accumulate
  else pure ()

/-- A sequence of calls of `enforce_equal` -/
def enforceAll : List (ℕ × LC F × LC F) → MultiEq F → Prog F (MultiEq F)
  | [], self => pure self
  | (numBits, lhs, rhs) :: eqs, self => do
    let self ← self.enforceEqual numBits lhs rhs
    enforceAll eqs self

/-- The life of a `MultiEq`: `new`, calls of `enforce_equal`, `drop` -/
def all (eqs : List (ℕ × LC F × LC F)) : Prog F Unit := do
  let self ← enforceAll eqs new
  self.drop

end MultiEq
end Circuit
end Halo
