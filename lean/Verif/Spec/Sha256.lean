import Mathlib.Data.BitVec
/-!
# SHA-256 (FIPS 180-4)

Written from the standard: bits of messages and words are most significant bit first.
-/
namespace Halo
namespace Fips180

abbrev Word := BitVec 32

/-- Section 4.1.2 -/
def ch (x y z : Word) : Word := (x &&& y) ^^^ (~~~x &&& z)
def maj (x y z : Word) : Word := (x &&& y) ^^^ (x &&& z) ^^^ (y &&& z)
def bigSigma0 (x : Word) : Word := x.rotateRight 2 ^^^ x.rotateRight 13 ^^^ x.rotateRight 22
def bigSigma1 (x : Word) : Word := x.rotateRight 6 ^^^ x.rotateRight 11 ^^^ x.rotateRight 25
def sigma0 (x : Word) : Word := x.rotateRight 7 ^^^ x.rotateRight 18 ^^^ (x >>> 3)
def sigma1 (x : Word) : Word := x.rotateRight 17 ^^^ x.rotateRight 19 ^^^ (x >>> 10)

/-- The first 64 primes -/
def primes : List ℕ := [
  2, 3, 5, 7, 11, 13, 17, 19, 23, 29, 31, 37, 41, 43, 47, 53, 59, 61, 67, 71, 73, 79, 83, 89, 97, 101,
  103, 107, 109, 113, 127, 131, 137, 139, 149, 151, 157, 163, 167, 173, 179, 181, 191, 193, 197, 199,
  211, 223, 227, 229, 233, 239, 241, 251, 257, 263, 269, 271, 277, 281, 283, 293, 307, 311]

/-- The integer part of the `e`-th root of `n`, bit by bit from bit `b - 1` -/
def iroot (e n : ℕ) : ℕ → ℕ → ℕ
  | 0, r => r
  | b + 1, r => iroot e n b (if (r + 2 ^ b) ^ e ≤ n then r + 2 ^ b else r)

/-- Section 4.2.2: the first 32 bits of the fractional parts of the cube roots of the first 64
primes -/
def constants : List Word := primes.map fun p => BitVec.ofNat 32 (iroot 3 (p * 2 ^ 96) 36 0)

/-- Section 5.3.3: the first 32 bits of the fractional parts of the square roots of the first 8
primes -/
def initial : List Word := (primes.take 8).map fun p => BitVec.ofNat 32 (iroot 2 (p * 2 ^ 64) 36 0)

/-- Section 6.2.2 step 1: `t` more words of the message schedule -/
def schedule (m : List Word) : ℕ → List Word
  | 0 => m
  | t + 1 =>
    let w := schedule m t
    let n := w.length
    w ++ [sigma1 (w.getD (n - 2) 0) + w.getD (n - 7) 0 + sigma0 (w.getD (n - 15) 0) +
      w.getD (n - 16) 0]

/-- The working variables -/
structure Vars where
  a : Word
  b : Word
  c : Word
  d : Word
  e : Word
  f : Word
  g : Word
  h : Word

/-- Section 6.2.2 step 3 -/
def step (s : Vars) (k w : Word) : Vars :=
  let t1 := s.h + bigSigma1 s.e + ch s.e s.f s.g + k + w
  let t2 := bigSigma0 s.a + maj s.a s.b s.c
  { h := s.g, g := s.f, f := s.e, e := s.d + t1, d := s.c, c := s.b, b := s.a, a := t1 + t2 }

/-- `n` rounds of section 6.2.2 step 3 -/
def rounds (w : List Word) (s : Vars) : ℕ → Vars
  | 0 => s
  | t + 1 => step (rounds w s t) (constants.getD t 0) (w.getD t 0)

/-- Section 6.2.2: the hash value after a block of 16 words -/
def compress (h : Vars) (m : List Word) : Vars :=
  let s := rounds (schedule m 48) h 64
  ⟨s.a + h.a, s.b + h.b, s.c + h.c, s.d + h.d, s.e + h.e, s.f + h.f, s.g + h.g, s.h + h.h⟩

/-- A number from its bits, most significant first -/
def number (bits : List Bool) : ℕ := bits.foldl (fun n b => 2 * n + b.toNat) 0

/-- Consecutive pieces of length `n` -/
def pieces {α : Type} (n : ℕ) (l : List α) : List (List α) :=
  (List.range (l.length / n)).map fun i => (l.drop (n * i)).take n

/-- The words of a block -/
def words (block : List Bool) : List Word := (pieces 32 block).map fun p => BitVec.ofNat 32 (number p)

/-- The bits of a word, most significant first -/
def bits {k : ℕ} (x : BitVec k) : List Bool := (List.range k).reverse.map fun i => x.getLsbD i

/-- Section 5.1.1: a one, the least number of zeros that makes the length `448` modulo `512`, and
the length of the message as a 64-bit number -/
def pad (m : List Bool) : List Bool :=
  m ++ [true] ++ List.replicate ((959 - m.length % 512) % 512) false ++ bits (BitVec.ofNat 64 m.length)

def Vars.toList (s : Vars) : List Word := [s.a, s.b, s.c, s.d, s.e, s.f, s.g, s.h]

/-- The initial hash value -/
def start : Vars :=
  ⟨initial.getD 0 0, initial.getD 1 0, initial.getD 2 0, initial.getD 3 0, initial.getD 4 0,
    initial.getD 5 0, initial.getD 6 0, initial.getD 7 0⟩

/-- SHA-256 of a message of less than `2^64` bits -/
def hash (m : List Bool) : List Bool :=
  ((pieces 512 (pad m)).foldl (fun h block => compress h (words block)) start).toList.flatMap bits

/-- The compression function on the initial hash value, as bits -/
def hashBlock (block : List Bool) : List Bool := (compress start (words block)).toList.flatMap bits

end Fips180
end Halo
