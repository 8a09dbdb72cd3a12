import Mathlib.Data.Nat.Notation
/-!
# Reading hexadecimal numbers
-/
namespace Halo

/-- the digits, in order of their values -/
def hexDigits : List Char := "0123456789abcdef".toList

/-- The number that a text of hexadecimal digits denotes, most significant digit first. -/
def hexNat : List Char → ℕ
  | [] => 0
  | c :: cs => hexDigits.idxOf c * 16 ^ cs.length + hexNat cs

end Halo
