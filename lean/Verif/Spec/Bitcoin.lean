import Mathlib.Algebra.Field.Basic
import Verif.Spec.Sha256
import Verif.Spec.Gadget.Nums
/-!
# Bitcoin headers with their height and cumulative work

A payload is (`examples/bitcoin.rs:386-389`), all in little endian: the height (4 bytes), the chain work (32
bytes) and the header (80 bytes). A header has the version (4 bytes), the hash of the previous header (32
bytes), the Merkle root (32 bytes), the time (4 bytes), `nBits` (4 bytes) and the nonce (4 bytes). The bits of
a byte come least significant first.
-/
namespace Halo
namespace Bitcoin
open Circuit

/-- Some consecutive bits -/
def field (l : List Bool) (start len : ℕ) : List Bool := (l.drop start).take len

/-- The number of bits of a payload -/
def payloadBits : ℕ := 8 * (4 + 32 + 80)

def height (p : List Bool) : ℕ := bitsValue (field p 0 32)
def chainWork (p : List Bool) : ℕ := bitsValue (field p 32 256)
def header (p : List Bool) : List Bool := field p 288 640

/-- The hash of the previous header that the header contains -/
def prevHash (p : List Bool) : List Bool := field (header p) 32 256

/-! `nBits` is a number in a floating-point format with base 256: 23 bits of mantissa, a sign bit, 8 bits for
the size in bytes. -/

def mantissa (p : List Bool) : ℕ := bitsValue (field (header p) 576 23)
def negative (p : List Bool) : Bool := (header p).getD 599 false
def size (p : List Bool) : ℕ := bitsValue (field (header p) 600 8)

/-- The target: hashes must not be larger. -/
def target (p : List Bool) : ℕ := if 3 ≤ size p then mantissa p * 256 ^ (size p - 3) else mantissa p / 256 ^ (3 - size p)

/-- The expected number of hashes that are tried until one does not exceed the target -/
def blockWork (target : ℕ) : ℕ := 2 ^ 256 / (target + 1)

/-- Bits least significant first in each byte, as bits most significant first, and back -/
def flip (l : List Bool) : List Bool := (Fips180.pieces 8 l).flatMap List.reverse

/-- The hash of a header -/
def hash (l : List Bool) : List Bool := flip (Fips180.hash (Fips180.hash (flip l)))

/-- The second payload extends the first by one block: what `BitcoinHeaderCircuit` is to check. That the hash
of the block does not exceed its target is not checked; the code says that this is left to do. -/
structure Extends (old new : List Bool) : Prop where
  height : height new = height old + 1
  prevHash : prevHash new = hash (header old)
  positive : negative new = false
  work : chainWork new = chainWork old + blockWork (target new)

/-- What the circuit does check, over the field `F`: the hash is only compared as an element of the field, and
nothing is said about work. -/
structure Follows (F : Type) [Field F] (old new : List Bool) : Prop where
  height : height new = height old + 1
  prevHash : (bitsValue (prevHash new) : F) = bitsValue (hash (header old))
  positive : negative new = false
  size : size new < 32

/-- What the constraints for the work say: the cumulative work is compared as an element of the field; the
block's work is one that goes with some number `t` in place of the target, which is the target times the 32nd
power of any field element; and the remainder may be any number. -/
def WorkChecked (F : Type) [Field F] (old new : List Bool) : Prop :=
  ∃ (t work rem : ℕ) (x : F), t < 2 ^ 256 ∧ work < 2 ^ 256 ∧ rem < 2 ^ 256 ∧
    (t : F) * 256 ^ 3 = mantissa new * (x ^ 32 * 256 ^ Bitcoin.size new) ∧
    (2 * (t / 2) + 1) * work + rem = 2 ^ 256 ∧ (chainWork new : F) = chainWork old + work

/-- Payloads on which the circuit's computations succeed: the target is not zero and is a number of at
most 256 bits that is a multiple of 256. -/
structure Fine (p : List Bool) : Prop where
  low : 4 ≤ size p
  high : size p ≤ 32
  mantissa : mantissa p ≠ 0

/-- Each byte of the mantissa is the same when its bits are read in the other direction. -/
def Mirrored (p : List Bool) : Prop := ∀ byte < 3, ∀ bit < 8,
  (mantissa p).testBit (8 * byte + bit) = (mantissa p).testBit (8 * byte + (7 - bit))

end Bitcoin
end Halo
