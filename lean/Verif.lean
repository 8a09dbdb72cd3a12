import Verif.Props.Field
import Verif.Props.Curve
import Verif.Props.Util
import Verif.Props.Rescue
import Verif.Props.Collision
import Verif.Props.Count
import Verif.Props.Messages
import Verif.Props.RecursionVerdict
import Verif.Props.Circuit
import Verif.Props.Recover
import Verif.Props.Gadget
import Verif.Props.Ecc
import Verif.Props.EccFast
import Verif.Props.EndoCheat
import Verif.Props.SlopeCheat
import Verif.Props.RecursionCommit
import Verif.Props.Proofs
import Verif.Props.Leftovers
import Verif.Props.Honest
import Verif.Props.Hiding
import Verif.Props.Extract
import Verif.Props.Extend
import Verif.Props.MultiEq
import Verif.Props.Params
import Verif.Props.Recursion
import Verif.Model.Recursion.Proof
import Verif.Props.RecursionShape
import Verif.Props.RecursionHonest
import Verif.Model.Example.Paper
import Verif.Model.Example.Bitcoin
import Verif.Props.Examples
import Verif.Props.Binding
import Verif.Props.BitcoinStep
import Verif.Props.Forgery
import Verif.Props.Attest
import Verif.Spec.Soundness
import Verif.Lemmas.Proofs.SoundPoly
import Verif.Lemmas.Proofs.SoundCircuit
import Verif.Lemmas.Proofs.SoundAlgebra
import Verif.Lemmas.Proofs.SoundTree
import Verif.Lemmas.Proofs.SoundRun
import Verif.Lemmas.Proofs.SoundNode
import Verif.Lemmas.Proofs.Sound
import Verif.Lemmas.Proofs.SoundHonest
import Verif.Lemmas.Proofs.SoundFound
import Verif.Lemmas.Proofs.SoundPool
import Verif.Lemmas.Proofs.SoundSession
import Verif.Props.Soundness
import Verif.Lemmas.Proofs.Unbound
import Verif.Props.Unbound
import Verif.Spec.SoundnessError
import Verif.Lemmas.Proofs.Heavy
import Verif.Lemmas.Proofs.Spaces
import Verif.Lemmas.Proofs.Scripted
import Verif.Props.SoundnessError
import Verif.Spec.Stuck
import Verif.Spec.Verdict
import Verif.Lemmas.Proofs.Total
import Verif.Props.Verdict
import Verif.Props.RecursionDev
import Verif.Spec.CircuitSize
import Verif.Lemmas.Cost.Logic
import Verif.Lemmas.Cost.Num
import Verif.Lemmas.Cost.Ecc
import Verif.Lemmas.Cost.Rescue
import Verif.Lemmas.Cost.Gadgets
import Verif.Lemmas.Cost.Circuit
import Verif.Lemmas.Cost.Verify
import Verif.Props.CircuitSize
import Verif.Props.Main
import Verif.Spec.Acceptance
import Verif.Lemmas.Proofs.Acceptance
import Verif.Props.Acceptance
import Verif.Spec.Malleable
import Verif.Lemmas.Proofs.Malleable
import Verif.Props.Malleable
import Verif.Spec.Machine
import Verif.Lemmas.Proofs.Machine
import Verif.Lemmas.Proofs.MachineProof
import Verif.Lemmas.Proofs.MachineVerify
import Verif.Lemmas.Recursion.Machine
import Verif.Props.Machine
import Verif.Spec.ProverCheck
import Verif.Props.ProverCheck
import Verif.Lemmas.Proofs.Fuel
import Verif.Props.MachineMain
import Verif.Props.Print
import Verif.Spec.Which
import Verif.Props.Which
import Verif.Props.WhichRecursive
import Verif.Spec.Size
import Verif.Props.Size
import Verif.Props.SizeAny
import Verif.Props.SizeLeast
import Verif.Props.RescueKeys
import Verif.Props.BatchInvert
