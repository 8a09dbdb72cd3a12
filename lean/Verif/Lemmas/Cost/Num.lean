import Verif.Lemmas.Cost.Logic
import Verif.Lemmas.Gadget.Bits
/-!
# The size of the gadgets for bits and numbers
-/
namespace Halo
namespace Circuit
open Sha256 (foldProg index)
variable {F : Type} [Field F]

namespace AllocatedBit

theorem costs_alloc {v : Except SynthesisError Bool} : Costs (alloc v : Prog F AllocatedBit) 0 1 2 fun _ => True := by
  cost_leaf

theorem costs_allocInputUnchecked {v : Except SynthesisError Bool} :
    Costs (allocInputUnchecked v : Prog F AllocatedBit) 1 0 1 fun _ => True := by cost_leaf

theorem costs_check {b : AllocatedBit} : Costs (check b : Prog F Unit) 0 1 3 fun _ => True := by cost_leaf

end AllocatedBit

theorem costs_constrainPowFive {x : Option F} : Costs (constrainPowFive x) 0 3 5 fun _ => True := by cost_leaf

namespace AllocatedNum

omit [Field F] in
theorem costs_alloc {v : Except SynthesisError F} : Costs (alloc v) 1 0 0 fun _ => True := by cost_leaf
theorem costs_mul {a b : AllocatedNum F} : Costs (a.mul b) 0 1 2 fun _ => True := by cost_leaf
theorem costs_invert [FieldApi F] {one : Var} {a : AllocatedNum F} : Costs (a.invert one) 1 1 3 fun _ => True := by cost_leaf
theorem costs_sqrt [FieldApi F] {a : AllocatedNum F} : Costs a.sqrt 1 1 3 fun _ => True := by cost_leaf
theorem costs_rescueAlpha {one : Var} {a : Combination F} : Costs (rescueAlpha one a) 0 3 6 fun _ => True := by cost_leaf
theorem costs_rescueInvalpha [FieldApi F] {one : Var} {a : Combination F} : Costs (rescueInvalpha one a) 0 3 6 fun _ => True := by
  cost_leaf

end AllocatedNum

theorem Combination.costs_mul {one : Var} {a b : Combination F} : Costs (a.mul one b) 0 1 2 fun _ => True := by cost_leaf

theorem costs_unpackFe [FieldApi F] {one : Var} {n : Num F} :
    Costs (unpackFe one n) 0 256 513 fun bits => bits.length = 256 := by
  unfold unpackFe
  have h : (match n.value with
    | some value => (bytesBits (FieldApi.toBytes value).toList).map some
    | none => List.replicate 256 none : List (Option Bool)).length = 256 := by
    split
    · rw [List.length_map, length_bytesBits, Vector.length_toList]
    · exact List.length_replicate
  refine (Costs.then (costs_mapProg fun _ _ => AllocatedBit.costs_alloc) fun bits hb =>
    Costs.then costs_enforce fun _ _ => costs_pure (R := fun bits : List AllocatedBit => bits.length = 256) (hb.1.trans h)).eq ?_ ?_ ?_
  all_goals rw [h]

end Circuit
end Halo
