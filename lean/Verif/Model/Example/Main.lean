import Verif.Model.Example.Bitcoin
import Verif.Model.Example.Paper
import Verif.Model.Recursion.Proof
/-!
# The programs of the examples: `main` of `examples/paper.rs` and `examples/bitcoin.rs`

Both make parameters of both curves and a chain of proofs, alternating between the curves, and check each proof.
What is printed and the time are left out. `cpus` and `lnCeil` are as for `multiexp`, `fuel` is how often a challenge is
tried (see `squareChallenge`).
-/
namespace Halo
namespace Example
open Circuit Proofs Recursion

/-- `.unwrap()` of a result: an error is a panic. -/
def unwrap {α : Type} : Except Fail α → Except Fail α
  | .ok x => .ok x
  | .error _ => .error .panic

/-- `assert!` -/
def assert (b : Bool) : Except Fail Unit := if b then .ok () else .error .panic

/-- `examples/bitcoin.rs:561-564` `CycleStep`, with the constructors `A` and `B`: whose turn it is, and the last
proof. The curve of the first proof is `E1` here, with base field `B`; it is `Ec1` in the examples. -/
inductive CycleStep (B S : Type) where
  | stepA (old : Option (RecursiveProof S B))
  | stepB (old : Option (RecursiveProof B S))

section
variable {B S : Type} [Field B] [DecidableEq B] [FieldApi B] [Field S] [DecidableEq S] [FieldApi S]
  (E1 E2 : CurveConsts) (cpus : ℕ) (lnCeil : ℕ → ℕ) (fuel : ℕ) (params1 : Params (Proj B)) (params2 : Params (Proj S))
  (circuit1 : RecursiveCircuit S) (circuit2 : RecursiveCircuit B)

/-- `examples/bitcoin.rs:606-649`: the body of the loop -/
def cycle (step : CycleStep B S) (input : List (BitVec 8)) : Except Fail (CycleStep B S) :=
  match step with
  | .stepA old => do
    let proof ← unwrap (RecursiveProof.createProof E1 E2 cpus lnCeil fuel params1 params2 old circuit1 circuit2 input)
    assert (← unwrap (proof.verify E1 E2 cpus lnCeil params1 params2 circuit1 circuit2))
    .ok (.stepB (some proof))
  | .stepB old => do
    let proof ← unwrap (RecursiveProof.createProof E2 E1 cpus lnCeil fuel params2 params1 old circuit2 circuit1 input)
    assert (← unwrap (proof.verify E2 E1 cpus lnCeil params2 params1 circuit2 circuit1))
    .ok (.stepA (some proof))

/-- The loop; `examples/paper.rs:48-128` is five rounds of it written out. -/
def cycles (step : CycleStep B S) (inputs : List (List (BitVec 8))) : Except Fail (CycleStep B S) :=
  inputs.foldlM (cycle E1 E2 cpus lnCeil fuel params1 params2 circuit1 circuit2) step

end

section
variable {B0 B1 : Type} [Field B0] [DecidableEq B0] [FieldApi B0] [Field B1] [DecidableEq B1] [FieldApi B1]
  (E0 E1 : CurveConsts)

/-- The parameters (`examples/paper.rs:44-45`, `examples/bitcoin.rs:595-596`) and the loop. `attempts0` and
`attempts1` are the strings read from the operating system, see `Params.new`; `E0` is `Ec0`, whose base field is `B0`. -/
def program (cpus : ℕ) (lnCeil : ℕ → ℕ) (fuel : ℕ) (attempts0 attempts1 : ℕ → List (Vector (BitVec 8) 32))
    (circuit0 : RecursiveCircuit B1) (circuit1 : RecursiveCircuit B0) (inputs : List (List (BitVec 8))) :
    Except Fail Unit := do
  let params0 ← ofOption (Params.new E0 B0 22 attempts0)
  let params1 ← ofOption (Params.new E1 B1 22 attempts1)
  let _ ← cycles E1 E0 cpus lnCeil fuel params1 params0 circuit1 circuit0 (.stepA none) inputs
  .ok ()

/-- The payloads in `examples/paper.rs` -/
def paperInputs : List (List (BitVec 8)) := List.replicate 5 [0]

/-- `examples/paper.rs:41-129` `main` -/
def paperMain (cpus : ℕ) (lnCeil : ℕ → ℕ) (fuel : ℕ) (attempts0 attempts1 : ℕ → List (Vector (BitVec 8) 32)) :
    Except Fail Unit :=
  program (B0 := B0) (B1 := B1) E0 E1 cpus lnCeil fuel attempts0 attempts1 paper paper paperInputs

/-- `examples/bitcoin.rs:567-578` `headers` -/
def headers : List (List (BitVec 8)) := [
  hexBytes 80 0x010000006fe28c0ab6f1b372c1a6a246ae63f74f931e8365e15a089c68d6190000000000982051fd1e4ba744bbbe680e1fee14677ba1a3c3540bf7b1cdb606e857233e0e61bc6649ffff001d01e36299,
  hexBytes 80 0x010000004860eb18bf1b1620e37e9490fc8a427514416fd75159ab86688e9a8300000000d5fdcc541e25de1c7a5addedf24858b8bb665c9f36ef744ee42c316022c90f9bb0bc6649ffff001d08d2bd61,
  hexBytes 80 0x01000000bddd99ccfda39da1b108ce1a5d70038d0a967bacb68b6b63065f626a0000000044f672226090d85db9a9f2fbfe5f0f9609b387af7be5b7fbb7a1767c831c9e995dbe6649ffff001d05e0ed6d,
  hexBytes 80 0x010000004944469562ae1c2c74d9a535e00b6f3e40ffbad4f2fda3895501b582000000007a06ea98cd40ba2e3288262b28638cec5337c1456aaf5eedc8e9e5a20f062bdf8cc16649ffff001d2bfee0a9,
  hexBytes 80 0x0100000085144a84488ea88d221c8bd6c059da090e88f8a2c99690ee55dbba4e00000000e11c48fecdd9e72510ca84f023370c9a38bf91ac5cae88019bee94d24528526344c36649ffff001d1d03e477,
  hexBytes 80 0x01000000fc33f596f822a0a1951ffdbf2a897b095636ad871707bf5d3162729b00000000379dfb96a5ea8c81700ea4ac6b97ae9a9312b2d4301a29580e924ee6761a2520adc46649ffff001d189c4c97,
  hexBytes 80 0x010000008d778fdc15a2d3fb76b7122a3b5582bea4f21f5a0c693537e7a03130000000003f674005103b42f984169c7d008370967e91920a6a5d64fd51282f75bc73a68af1c66649ffff001d39a59c86,
  hexBytes 80 0x010000004494c8cf4154bdcc0720cd4a59d9c9b285e4b146d45f061d2b6c967100000000e3855ed886605b6d4a99d5fa2ef2e9b0b164e63df3c4136bebf2d0dac0f1f7a667c86649ffff001d1c4b5666,
  hexBytes 80 0x01000000c60ddef1b7618ca2348a46e868afc26e3efc68226c78aa47f8488c4000000000c997a5e56e104102fa209c6a852dd90660a20b2d9c352423edce25857fcd37047fca6649ffff001d28404f53,
  hexBytes 80 0x010000000508085c47cc849eb80ea905cc7800a3be674ffc57263cf210c59d8d00000000112ba175a1e04b14ba9e7ea5f76ab640affeef5ec98173ac9799a852fa39add320cd6649ffff001d1e2de565]

/-- `examples/bitcoin.rs:580-591` `chain_work` -/
def chainWorks : List (List (BitVec 8)) := [
  hexBytes 32 0x0000000000000000000000000000000000000000000000000000000200020002,
  hexBytes 32 0x0000000000000000000000000000000000000000000000000000000300030003,
  hexBytes 32 0x0000000000000000000000000000000000000000000000000000000400040004,
  hexBytes 32 0x0000000000000000000000000000000000000000000000000000000500050005,
  hexBytes 32 0x0000000000000000000000000000000000000000000000000000000600060006,
  hexBytes 32 0x0000000000000000000000000000000000000000000000000000000700070007,
  hexBytes 32 0x0000000000000000000000000000000000000000000000000000000800080008,
  hexBytes 32 0x0000000000000000000000000000000000000000000000000000000900090009,
  hexBytes 32 0x0000000000000000000000000000000000000000000000000000000a000a000a,
  hexBytes 32 0x0000000000000000000000000000000000000000000000000000000b000b000b]

/-- `examples/bitcoin.rs:602-604`: the payloads, with heights from 1 -/
def bitcoinInputs : List (List (BitVec 8)) :=
  (headers.zip chainWorks).zipIdx.map fun e => packPayloadBytes (BitVec.ofNat 32 e.2 + 1) e.1.2 e.1.1

/-- `examples/bitcoin.rs:566-651` `main` -/
def bitcoinMain (cpus : ℕ) (lnCeil : ℕ → ℕ) (fuel : ℕ) (attempts0 attempts1 : ℕ → List (Vector (BitVec 8) 32)) :
    Except Fail Unit :=
  program (B0 := B0) (B1 := B1) E0 E1 cpus lnCeil fuel attempts0 attempts1 bitcoin bitcoin bitcoinInputs

end

end Example
end Halo
