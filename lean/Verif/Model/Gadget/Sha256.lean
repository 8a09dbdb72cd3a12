import Verif.Model.Gadget.UInt
/-!
# The SHA-256 gadget (`src/gadgets/sha256.rs`)
-/
namespace Halo
namespace Circuit
namespace Sha256
variable {F : Type} [Field F]

/-- `src/gadgets/sha256.rs:6-15` `ROUND_CONSTANTS` -/
def roundConstants : List (BitVec 32) := [
  0x428a2f98, 0x71374491, 0xb5c0fbcf, 0xe9b5dba5, 0x3956c25b, 0x59f111f1, 0x923f82a4, 0xab1c5ed5,
  0xd807aa98, 0x12835b01, 0x243185be, 0x550c7dc3, 0x72be5d74, 0x80deb1fe, 0x9bdc06a7, 0xc19bf174,
  0xe49b69c1, 0xefbe4786, 0x0fc19dc6, 0x240ca1cc, 0x2de92c6f, 0x4a7484aa, 0x5cb0a9dc, 0x76f988da,
  0x983e5152, 0xa831c66d, 0xb00327c8, 0xbf597fc7, 0xc6e00bf3, 0xd5a79147, 0x06ca6351, 0x14292967,
  0x27b70a85, 0x2e1b2138, 0x4d2c6dfc, 0x53380d13, 0x650a7354, 0x766a0abb, 0x81c2c92e, 0x92722c85,
  0xa2bfe8a1, 0xa81a664b, 0xc24b8b70, 0xc76c51a3, 0xd192e819, 0xd6990624, 0xf40e3585, 0x106aa070,
  0x19a4c116, 0x1e376c08, 0x2748774c, 0x34b0bcb5, 0x391c0cb3, 0x4ed8aa4a, 0x5b9cca4f, 0x682e6ff3,
  0x748f82ee, 0x78a5636f, 0x84c87814, 0x8cc70208, 0x90befffa, 0xa4506ceb, 0xbef9a3f7, 0xc67178f2]

/-- `src/gadgets/sha256.rs:17-20` `IV` -/
def iv : List (BitVec 32) := [
  0x6a09e667, 0xbb67ae85, 0x3c6ef372, 0xa54ff53a, 0x510e527f, 0x9b05688c, 0x1f83d9ab, 0x5be0cd19]

/-- `src/gadgets/sha256.rs:67-69` `get_sha256_iv` -/
def getIv : List (UInt 32) := iv.map .constant

/-- `v[i]` on a vector; out of bounds is a panic. -/
def index {α : Type} (l : List α) (i : ℕ) : Prog F α := orPanic l[i]?

/-- `src/gadgets/sha256.rs:93-111`: one extension of the message schedule -/
def extend (one : Var) (w : List (UInt 32)) (i : ℕ) : Prog F (List (UInt 32)) := do
  let w15 ← index w (i - 15)
  let s0 := w15.rotr 7
  let s0 ← s0.xor (w15.rotr 18)
  let s0 ← s0.xor (w15.shr 3)
  let w2 ← index w (i - 2)
  let s1 := w2.rotr 17
  let s1 ← s1.xor (w2.rotr 19)
  let s1 ← s1.xor (w2.shr 10)
  let w16 ← index w (i - 16)
  let w7 ← index w (i - 7)
  let tmp ← UInt.addmany one [w16, s0, w7, s1]
  return w ++ [tmp]

/-- Run a gadget with a state for each element of a list. -/
def foldProg {α σ : Type} (f : σ → α → Prog F σ) : List α → σ → Prog F σ
  | [], s => return s
  | x :: xs, s => do
    let s ← f s x
    foldProg f xs s

/-- `src/gadgets/sha256.rs:116-119` `Maybe` -/
inductive Maybe where
  | deferred (v : List (UInt 32))
  | concrete (v : UInt 32)

/-- `src/gadgets/sha256.rs:122-134` `Maybe::compute` -/
def Maybe.compute (one : Var) (m : Maybe) (others : List (UInt 32)) : Prog F (UInt 32) :=
  match m with
  | .concrete v => return v
  | .deferred v => UInt.addmany one (v ++ others)

/-- The eight working variables (`src/gadgets/sha256.rs:137-144`) -/
structure Work where
  a : Maybe
  b : UInt 32
  c : UInt 32
  d : UInt 32
  e : Maybe
  f : UInt 32
  g : UInt 32
  h : UInt 32

/-- `src/gadgets/sha256.rs:147-203`: a compression round -/
def round (one : Var) (w : List (UInt 32)) (s : Work) (i : ℕ) : Prog F Work := do
  let newE ← s.e.compute one []
  let s1 := newE.rotr 6
  let s1 ← s1.xor (newE.rotr 11)
  let s1 ← s1.xor (newE.rotr 25)
  let ch ← UInt.sha256Ch one newE s.f s.g
  let ki ← index roundConstants i
  let wi ← index w i
  let temp1 := [s.h, s1, ch, .constant ki, wi]
  let newA ← s.a.compute one []
  let s0 := newA.rotr 2
  let s0 ← s0.xor (newA.rotr 13)
  let s0 ← s0.xor (newA.rotr 22)
  let maj ← UInt.sha256Maj one newA s.b s.c
  let temp2 := [s0, maj]
  return {
    h := s.g
    g := s.f
    f := newE
    e := .deferred (temp1 ++ [s.d])
    d := s.c
    c := s.b
    b := newA
    a := .deferred (temp1 ++ temp2) }

/-- `l.chunks(n)` for `n > 0` -/
def chunks {α : Type} (n : ℕ) (l : List α) : List (List α) :=
  if _h : n = 0 ∨ l = [] then [] else l.take n :: chunks n (l.drop n)
termination_by l.length
decreasing_by
  rw [not_or, ← List.length_eq_zero_iff] at _h
  rw [List.length_drop]; omega

/-- `src/gadgets/sha256.rs:71-259` `sha256_compression_function` -/
def compress (one : Var) (input : List Boolean) (cur : List (UInt 32)) : Prog F (List (UInt 32)) :=
  if input.length ≠ 512 ∨ cur.length ≠ 8 then .panic else do
    let w ← mapProg (fun e => orPanic (UInt.fromBitsBe e)) (chunks 32 input)
    let w ← foldProg (extend one) ((List.range 48).map (· + 16)) w
    if w.length ≠ 64 then .panic else
    match cur with
    | [h0, h1, h2, h3, h4, h5, h6, h7] => do
      let s ← foldProg (round one w) (List.range 64) ⟨.concrete h0, h1, h2, h3, .concrete h4, h5, h6, h7⟩
      let r0 ← s.a.compute one [h0]
      let r1 ← UInt.addmany one [h1, s.b]
      let r2 ← UInt.addmany one [h2, s.c]
      let r3 ← UInt.addmany one [h3, s.d]
      let r4 ← s.e.compute one [h4]
      let r5 ← UInt.addmany one [h5, s.f]
      let r6 ← UInt.addmany one [h6, s.g]
      let r7 ← UInt.addmany one [h7, s.h]
      return [r0, r1, r2, r3, r4, r5, r6, r7]
    | _ => .panic

/-- `src/gadgets/sha256.rs:22-36` `sha256_block_no_padding` -/
def sha256BlockNoPadding (one : Var) (input : List Boolean) : Prog F (List Boolean) :=
  if input.length ≠ 512 then .panic else do
    return (← compress one input getIv).flatMap UInt.intoBitsBe

/-- `src/gadgets/sha256.rs:49-52`: append zeros until 64 bits short of a multiple of 512. -/
def padZeros (padded : List Boolean) (fuel : ℕ) : List Boolean :=
  match fuel with
  | 0 => padded
  | fuel + 1 =>
    if (padded.length + 64) % 512 ≠ 0 then padZeros (padded ++ [.constant false]) fuel else padded

/-- `src/gadgets/sha256.rs:45-57`: the padding; `plen as u64` is the length modulo `2^64`, and the
loop stops after at most 511 steps. -/
def pad (input : List Boolean) : List Boolean :=
  let plen : BitVec 64 := BitVec.ofNat 64 input.length
  let padded := padZeros (input ++ [.constant true]) 512
  padded ++ (List.range 64).reverse.map fun i => .constant ((plen >>> i) &&& 1 == 1)

/-- `src/gadgets/sha256.rs:38-65` `sha256` -/
def sha256 (one : Var) (input : List Boolean) : Prog F (List Boolean) :=
  if input.length % 8 ≠ 0 then .panic else
    let padded := pad input
    if padded.length % 512 ≠ 0 then .panic else do
      let cur ← foldProg (fun cur block => compress one block cur) (chunks 512 padded) getIv
      return cur.flatMap UInt.intoBitsBe

end Sha256
end Circuit
end Halo
