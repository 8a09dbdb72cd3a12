import Verif.Lemmas.Cost.Sha
import Verif.Lemmas.Example.Twin
/-!
# Upper bounds for the circuits of the examples
-/
namespace Halo
open Circuit Recursion
open Circuit.Sha256 (foldProg index)

namespace Circuit
variable {F : Type} [Field F] [FieldApi F] {one : Var}

omit [Field F] [FieldApi F] in
theorem atMost_index {α : Type} {l : List α} {i : ℕ} : AtMost (index l i : Prog F α) 0 0 0 fun _ => True :=
  (costs_index (R := fun _ => True) fun _ _ => trivial).atMost

omit [Field F] [FieldApi F] in
theorem atMost_orPanic {α : Type} {x : Option α} : AtMost (orPanic x : Prog F α) 0 0 0 fun _ => True :=
  (costs_orPanic (R := fun _ => True) fun _ _ => trivial).atMost

omit [Field F] [FieldApi F] in
theorem atMost_doMultiply {v : Except SynthesisError (F × F × F)} :
    AtMost (.doMultiply v : Prog F _) 0 1 0 fun _ => True := by
  have : Costs (.doMultiply v : Prog F _) 0 1 0 fun _ => True := by cost_leaf
  exact this.atMost

theorem UInt.atMost_mulAcc2 {a b c d : UInt 64} : AtMost (mulAcc2 one a b c d : Prog F _) 0 129 259 fun _ => True := by
  unfold mulAcc2
  have hs : ∀ (n : ℕ) (v : BitVec 128), (shiftBits n v).length = n := by
    intro n
    induction n with
    | zero => exact fun _ => rfl
    | succ n ih => exact fun v => congrArg (· + 1) (ih _)
  simp only
  refine AtMost.bind (a := 0) (m := 128) (l := 256) (R := fun _ => True) (((atMost_mapProg (a := 0) (m := 1) (l := 2)
    (R := fun _ => True) fun _ _ => Boolean.atMost_map AllocatedBit.costs_alloc.atMost).weaken fun _ _ => trivial).le ?_ ?_ ?_)
    (by omega) (by omega) (by omega) fun bits _ => ?_
  iterate 3
    split
    · rw [List.length_map, hs]
    · rw [List.length_replicate]
  refine AtMost.free atMost_orPanic fun _ _ => AtMost.free atMost_orPanic fun _ _ =>
    AtMost.bind atMost_doMultiply (by omega) (by omega) (by omega) fun ⟨_, _, _, _⟩ _ => AtMost.free atMost_orPanic fun _ _ =>
    AtMost.bind costs_enforce.atMost (by omega) (by omega) (by omega) fun _ _ =>
    AtMost.bind costs_enforce.atMost (by omega) (by omega) (by omega) fun _ _ =>
    AtMost.bind costs_enforce.atMost (by omega) (by omega) (by omega) fun _ _ => atMost_pure trivial

end Circuit

namespace Example
variable {F : Type} [Field F] [FieldApi F] {one : Var}

omit [Field F] [FieldApi F] in
theorem atMost_slice {α : Type} {l : List α} {a b : ℕ} : AtMost (slice l a b : Prog F _) 0 0 0 fun s => s.length = b - a :=
  costs_slice.atMost

omit [FieldApi F] in
theorem atMost_bitsToNum {bits : List Boolean} : AtMost (bitsToNum one bits : Prog F _) 1 0 1 fun _ => True := by
  unfold bitsToNum
  exact AtMost.bind AllocatedNum.costs_alloc.atMost (by omega) (by omega) (by omega) fun _ _ =>
    AtMost.bind costs_enforce.atMost (by omega) (by omega) (by omega) fun _ _ => atMost_pure trivial

omit [FieldApi F] in
theorem atMost_unpackPayloadBits {payload : List AllocatedBit} :
    AtMost (unpackPayloadBits one payload : Prog F _) 2 0 2 fun r => r.2.2.length = 640 := by
  unfold unpackPayloadBits
  refine AtMost.free atMost_slice fun _ _ => AtMost.free atMost_slice fun _ _ => AtMost.free atMost_slice fun _ h =>
    AtMost.bind atMost_bitsToNum (by omega) (by omega) (by omega) fun _ _ =>
    AtMost.bind atMost_bitsToNum (by omega) (by omega) (by omega) fun _ _ => atMost_pure (by exact h)

omit [FieldApi F] in
theorem atMost_sha256d {data : List Boolean} (h : data.length = 640) :
    AtMost (sha256d one data : Prog F _) 55296 81312 218472 fun _ => True := by
  unfold sha256d
  refine AtMost.bind (a := 36864) (m := 54208) (l := 145648) (Sha256.atMost_sha256 (n := 2) (by rw [length_flipBytes (by omega), h]; omega)) (by omega) (by omega) (by omega) fun mid hm =>
    AtMost.bind (a := 18432) (m := 27104) (l := 72824) (Sha256.atMost_sha256 (n := 1) (by omega)) (by omega) (by omega) (by omega) fun _ _ => atMost_pure trivial

omit [FieldApi F] in
theorem atMost_enforceEquality {a b : List Boolean} : AtMost (enforceEquality one a b : Prog F _) 0 0 1 fun _ => True := by
  unfold enforceEquality
  split
  · exact atMost_panic
  · exact costs_enforce.atMost

omit [Field F] [FieldApi F] in
theorem atMost_fromHeader {bits : List Boolean} :
    AtMost (CompactBits.fromHeader bits : Prog F _) 0 0 0 fun c => c.sizeBits.length = 8 := by
  unfold CompactBits.fromHeader
  simp only
  refine AtMost.free atMost_slice fun _ _ => AtMost.free atMost_index fun _ _ => AtMost.free atMost_slice fun _ h => ?_
  split
  · exact atMost_panic
  · exact atMost_pure (by exact h)

omit [FieldApi F] in
theorem atMost_powStep {base powSize : AllocatedNum F} {bit : Boolean} :
    AtMost (powStep one base powSize bit : Prog F _) 1 3 7 fun _ => True := by
  unfold powStep
  exact AtMost.bind AllocatedNum.costs_mul.atMost (by omega) (by omega) (by omega) fun _ _ =>
    AtMost.bind AllocatedNum.costs_mul.atMost (by omega) (by omega) (by omega) fun _ _ =>
    AtMost.bind AllocatedNum.costs_alloc.atMost (by omega) (by omega) (by omega) fun _ _ =>
    AtMost.bind atMost_doMultiply (by omega) (by omega) (by omega) fun ⟨_, _, _, _⟩ _ =>
    AtMost.bind costs_enforce.atMost (by omega) (by omega) (by omega) fun _ _ =>
    AtMost.bind costs_enforce.atMost (by omega) (by omega) (by omega) fun _ _ =>
    AtMost.bind costs_enforce.atMost (by omega) (by omega) (by omega) fun _ _ => atMost_pure trivial

omit [FieldApi F] [Field F] in
theorem atMost_limbs {bits : List Boolean} : AtMost (limbs bits : Prog F _) 0 0 0 fun _ => True := by
  unfold limbs
  exact ((atMost_mapProg (a := 0) (m := 0) (l := 0) (R := fun _ => True) fun _ _ =>
    AtMost.free atMost_slice fun _ _ => atMost_orPanic).weaken fun _ _ => trivial).le (by simp) (by simp) (by simp)

theorem atMost_mulOuter {t w acc : List (UInt 64)} {j : ℕ} :
    AtMost (mulOuter one t w acc j : Prog F _) 0 516 1036 fun _ => True := by
  unfold mulOuter
  refine AtMost.bind (a := 0) (m := 516) (l := 1036) ((atMost_foldProg (R := fun _ => True) (a := 0) (m := 129) (l := 259)
    (fun _ _ _ _ => ?_) trivial).le (by simp) (by simp) (by simp)) (by omega) (by omega) (by omega) fun ⟨_, _⟩ _ =>
    atMost_pure trivial
  unfold mulInner
  exact AtMost.free atMost_index fun _ _ => AtMost.free atMost_index fun _ _ => AtMost.free atMost_index fun _ _ =>
    AtMost.bind UInt.atMost_mulAcc2 (by omega) (by omega) (by omega) fun ⟨_, _⟩ _ => atMost_pure trivial

theorem costs_paper {old new : List AllocatedBit} :
    Costs ((paper : RecursiveCircuit F).synthesize one old new) 0 1 0 fun _ => True := by
  unfold paper
  simp only
  split
  · exact costs_panic
  · split
    · exact costs_panic
    · cost_leaf

omit [FieldApi F] in
theorem atMost_allocBits {bit : ℕ → Except SynthesisError Bool} :
    AtMost (allocBits bit 32 : Prog F _) 0 256 512 fun _ => True := by
  unfold allocBits
  have h : (List.range (32 * 8)).length = 256 := List.length_range
  generalize List.range (32 * 8) = l at h
  exact ((atMost_mapProg (a := 0) (m := 1) (l := 2) (R := fun _ => True) fun _ _ =>
    Boolean.atMost_map AllocatedBit.costs_alloc.atMost).weaken fun _ _ => trivial).le (by omega) (by omega) (by omega)

attribute [local irreducible] allocBits powStep foldProg mapProg lcFromBits AllocatedNum.alloc Prog.doMultiply slice index limbs
  mulOuter unpackFe

theorem atMost_constrain {c : CompactBits} (h : c.sizeBits.length = 8) {bit : ℕ → Except SynthesisError Bool} {first : F}
    {product power : Except SynthesisError (F × F × F)} :
    AtMost (c.constrain one bit first product power : Prog F _) 7 273 556 fun _ => True := by
  unfold CompactBits.constrain
  refine AtMost.bind atMost_allocBits (by omega) (by omega) (by omega) fun target _ => ?_
  simp only
  refine AtMost.bind AllocatedNum.costs_alloc.atMost (by omega) (by omega) (by omega) fun base _ =>
    AtMost.bind costs_enforce.atMost (by omega) (by omega) (by omega) fun _ _ => ?_
  rw [if_neg (by omega)]
  refine AtMost.free atMost_index fun _ _ => AtMost.bind costs_enforce.atMost (by omega) (by omega) (by omega) fun _ _ => ?_
  refine AtMost.free atMost_index fun _ _ => AtMost.bind costs_enforce.atMost (by omega) (by omega) (by omega) fun _ _ => ?_
  refine AtMost.free atMost_index fun _ _ => AtMost.bind costs_enforce.atMost (by omega) (by omega) (by omega) fun _ _ => ?_
  refine AtMost.bind AllocatedNum.costs_alloc.atMost (by omega) (by omega) (by omega) fun powSize _ => ?_
  have hl : (c.sizeBits.reverse.drop 3).length = 5 := by rw [List.length_drop, List.length_reverse, h]
  refine AtMost.bind (a := 5) (m := 15) (l := 35) ((atMost_foldProg (R := fun _ => True) (fun _ _ _ _ => atMost_powStep)
    trivial).le (by rw [hl]) (by rw [hl]) (by rw [hl])) (by omega) (by omega) (by omega) fun powSize _ => ?_
  exact AtMost.bind atMost_doMultiply (by omega) (by omega) (by omega) fun ⟨_, _, _, _⟩ _ =>
    AtMost.bind atMost_doMultiply (by omega) (by omega) (by omega) fun ⟨_, _, _, _⟩ _ =>
    AtMost.bind costs_enforce.atMost (by omega) (by omega) (by omega) fun _ _ =>
    AtMost.bind costs_enforce.atMost (by omega) (by omega) (by omega) fun _ _ =>
    AtMost.bind costs_enforce.atMost (by omega) (by omega) (by omega) fun _ _ =>
    AtMost.bind costs_enforce.atMost (by omega) (by omega) (by omega) fun _ _ =>
    AtMost.bind costs_enforce.atMost (by omega) (by omega) (by omega) fun _ _ => atMost_pure trivial

theorem atMost_unpack {c : CompactBits} (h : c.sizeBits.length = 8) :
    AtMost (c.unpack one : Prog F _) 7 273 557 fun _ => True := by
  unfold CompactBits.unpack
  refine AtMost.bind costs_enforce.atMost (by omega) (by omega) (by omega) fun _ _ =>
    AtMost.free (R := fun _ => True) ?_ fun _ _ =>
    AtMost.bind (atMost_constrain h) (by omega) (by omega) (by omega) fun _ _ => atMost_pure trivial
  unfold CompactBits.targetVal
  split
  · exact AtMost.free atMost_orPanic fun _ _ => atMost_pure trivial
  · exact atMost_pure trivial

theorem atMost_constrainWork {target : List Boolean} {prev new : AllocatedNum F} {work remainder : Except SynthesisError F} :
    AtMost (constrainWork one target prev new work remainder : Prog F _) 2 2576 5179 fun _ => True := by
  unfold constrainWork
  refine AtMost.free atMost_limbs fun _ _ =>
    AtMost.bind AllocatedNum.costs_alloc.atMost (by omega) (by omega) (by omega) fun _ _ =>
    AtMost.bind costs_unpackFe.atMost (by omega) (by omega) (by omega) fun _ _ => AtMost.free atMost_limbs fun _ _ =>
    AtMost.bind AllocatedNum.costs_alloc.atMost (by omega) (by omega) (by omega) fun _ _ =>
    AtMost.bind costs_unpackFe.atMost (by omega) (by omega) (by omega) fun _ _ => AtMost.free atMost_limbs fun _ _ =>
    AtMost.bind (a := 0) (m := 2064) (l := 4144) ((atMost_foldProg (R := fun _ => True) (fun _ _ _ _ => atMost_mulOuter)
      trivial).le (by simp) (by simp) (by simp)) (by omega) (by omega) (by omega) fun w _ => ?_
  iterate 8
    refine AtMost.free atMost_index fun _ _ => AtMost.bind costs_enforce.atMost (by omega) (by omega) (by omega) fun _ _ => ?_
  exact costs_enforce.atMost

theorem atMost_checkWork {target : List Boolean} {v : Option ℕ} {prev new : AllocatedNum F} :
    AtMost (checkWork one target v prev new : Prog F _) 2 2576 5179 fun _ => True := by
  unfold checkWork
  refine AtMost.free (R := fun _ => True) ?_ fun _ _ => AtMost.free (R := fun _ => True) ?_ fun _ _ => atMost_constrainWork
  · unfold workValue
    split
    · exact atMost_pure trivial
    · simp only
      split
      · exact atMost_panic
      · split
        · exact atMost_panic
        · exact atMost_pure trivial
  · unfold remainderValue
    split
    · exact atMost_pure trivial
    · split
      · exact atMost_panic
      · exact atMost_pure trivial

attribute [local irreducible] unpackPayloadBits sha256d enforceEquality CompactBits.fromHeader CompactBits.unpack checkWork in
theorem atMost_bitcoin {old new : List AllocatedBit} :
    AtMost ((bitcoin : RecursiveCircuit F).synthesize one old new) 110605 165473 442686 fun _ => True := by
  unfold bitcoin
  simp only
  refine AtMost.bind atMost_unpackPayloadBits (by omega) (by omega) (by omega) fun ⟨_, _, prev⟩ hp =>
    AtMost.bind atMost_unpackPayloadBits (by omega) (by omega) (by omega) fun ⟨_, _, header⟩ hh =>
    AtMost.bind costs_enforce.atMost (by omega) (by omega) (by omega) fun _ _ =>
    AtMost.bind (atMost_sha256d hp) (by omega) (by omega) (by omega) fun _ _ => AtMost.free atMost_slice fun _ _ =>
    AtMost.bind atMost_enforceEquality (by omega) (by omega) (by omega) fun _ _ =>
    AtMost.bind (atMost_sha256d hh) (by omega) (by omega) (by omega) fun _ _ => AtMost.free atMost_fromHeader fun c hc =>
    AtMost.bind (atMost_unpack hc) (by omega) (by omega) (by omega) fun ⟨_, _⟩ _ => atMost_checkWork

end Example
end Halo
