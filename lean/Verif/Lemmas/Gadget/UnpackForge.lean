import Verif.Lemmas.Gadget.Bits
import Verif.Lemmas.Gadget.Num
import Verif.Lemmas.Gadget.Closed
/-!
# `unpack_fe` accepts bits that are not canonical
-/
namespace Halo
namespace Circuit
variable {F : Type} [Field F] {one : Var}

/-- Whatever bit is allocated, the wire may carry any other bit. -/
theorem AllocatedBit.alloc_forge (Γ : (Var → F) → Prop) (v v' : Bool) :
    Forge Γ (AllocatedBit.alloc (.ok v)) fun w b => b.Means w v' := by
  intro _
  refine ⟨_, (ofBool v', ofBool v', ofBool v'), rfl,
    by cases v' <;> simp [ofBool], fun a b c => ⟨fun w hw => ?_, fun w hw => ?_, fun w hw => ?_⟩⟩
  · obtain ⟨-, h1, h2, h3⟩ := hw; simp [h1, h2]
  · obtain ⟨-, h1, h2, h3⟩ := hw; simp [h2, h3]
  · exact hw.2.1

theorem allocBits_forge (Γ : (Var → F) → Prop) : ∀ (vs vs' : List Bool), vs.length = vs'.length →
    Forge Γ (mapProg (fun value => AllocatedBit.alloc (orMissing value)) (vs.map some))
      fun w bits => List.Forall₂ (fun b v => b.Means w v) bits vs' := by
  intro vs vs' h
  induction vs generalizing vs' Γ with
  | nil =>
    obtain rfl : vs' = [] := by simpa using h.symm
    exact fun w _ => .nil
  | cons v vs ih =>
    obtain ⟨v', vs', rfl⟩ := List.exists_cons_of_length_eq_add_one h.symm
    refine Forge.seq (AllocatedBit.alloc_forge Γ v v') fun b => ?_
    refine Forge.seq (ih _ vs' (by simpa using h)) fun bs => ?_
    exact fun w hw => .cons hw.1.2 hw.2

theorem unpackFe_forge [LawfulField F] (x : F) (n : ℕ) (hn : n < 2 ^ 256) (hx : (n : F) = x) :
    Forgeable (fun one => do
      let num ← AllocatedNum.alloc (.ok x)
      let bits ← unpackFe one (.ofAllocated num)
      return (num, bits)) fun w r => w r.1.var = x ∧
        List.Forall₂ (fun b v => b.Means w v) r.2 ((List.range 256).map fun i => n.testBit i) := by
  apply forgeable_of_forge
  intro one
  refine Forge.seq (P := fun w num => num.Honest w ∧ w num.var = x ∧ num.value = some x)
    (Forge.honest fun w _ => ?_) fun num => ?_
  · exact (AllocatedNum.alloc_complete x).mono fun r hr =>
      ⟨hr.1, hr.2, by rw [← hr.2]; exact hr.1⟩
  by_cases hv : num.value = some x
  swap
  · exact (Forge.honest fun w hw => (hv hw.2.2.2).elim)
  have hval : (Num.ofAllocated num).value = some x := by
    simp [Num.ofAllocated, Num.value, hv]
  refine Forge.seq (P := fun w bits => List.Forall₂ (fun b v => b.Means w v) bits
    ((List.range 256).map fun i => n.testBit i)) ?_ fun bits w hw => ⟨hw.1.2.2.1, hw.2⟩
  simp only [unpackFe, hval]
  have hlen : (bytesBits (FieldApi.toBytes x).toList).length =
      ((List.range 256).map fun i => n.testBit i).length := by
    rw [length_bytesBits]; simp
  refine Forge.seq (allocBits_forge _ _ _ hlen) fun bits => ⟨fun w hw => ?_, fun w hw => hw.2⟩
  rw [LC.eval_subLC, Num.eval_lc hw.1.1, eval_packBits hw.2, bitsValue_range, Nat.mod_eq_of_lt hn,
    Num.wire_ofAllocated, hw.1.2.2.1, hx, sub_self]

end Circuit
end Halo
