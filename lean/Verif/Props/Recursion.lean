import Verif.Lemmas.Recursion.Dummy
import Verif.Lemmas.Recursion.Layout
import Verif.Lemmas.FieldInst
/-!
# Properties of the recursion (C47, C56–)
-/
namespace Halo
open Circuit Recursion
variable {F : Type} [Field F] {w : Var → F} {one : Var}

/-! ### C47: the base-case switch -/

/-- **C47**: in every satisfying assignment the two bit strings, of any length, are equal unless the
base-case flag is one; and likewise for two numbers. -/
theorem C47_equal_unless_base_case_sound [LawfulField F] (h1 : w one = 1) (flag : AllocatedBit) (v : Bool)
    (hv : flag.Means w v) :
    (∀ (l r : List AllocatedBit) (x y : List Bool), List.Forall₂ (fun b v => b.Means w v) l x →
      List.Forall₂ (fun b v => b.Means w v) r y →
      Sound w (equalUnlessBaseCase one flag l r : Prog F Unit) fun _ => v = true ∨ x = y) ∧
    ∀ a b : Combination F, Sound w (numEqualUnlessBaseCase one flag a b) fun _ =>
      v = true ∨ a.wire w = b.wire w :=
  ⟨fun _ _ _ _ hl hr => equalUnlessBaseCase_holds (hon := false) h1 ⟨hv, nofun⟩ (bitsOk_false.2 hl)
    (bitsOk_false.2 hr) nofun, fun a b => numEqual_sound h1 hv a b⟩

/-- **C47**, the converse: equal strings always pass, and in the base case any two strings of equal
length, or any two numbers, pass. -/
theorem C47_equal_unless_base_case_complete [LawfulField F] (h1 : w one = 1) (flag : AllocatedBit) (v : Bool)
    (hv : flag.Honest w v) :
    (∀ (l r : List AllocatedBit) (x y : List Bool), List.Forall₂ (fun b v => b.Honest w v) l x →
      List.Forall₂ (fun b v => b.Honest w v) r y → x.length = y.length → (v = true ∨ x = y) →
      Complete w (equalUnlessBaseCase one flag l r : Prog F Unit) fun _ => True) ∧
    ∀ a b : Combination F, a.Honest w → b.Honest w → (v = true ∨ a.wire w = b.wire w) →
      Complete w (numEqualUnlessBaseCase one flag a b) fun _ => True :=
  ⟨fun _ _ _ _ hl hr he h => Holds.mono (equalUnlessBaseCase_holds (hon := true) h1 ⟨hv.1, fun _ => hv.2⟩
    (bitsOk_true.2 hl) (bitsOk_true.2 hr) fun _ => ⟨he, h⟩) fun _ _ => trivial,
    fun _ _ ha hb h => numEqual_complete h1 hv ha hb h⟩

/-- a circuit that compares two strings unless the flag is set -/
def switchCircuit (v : Bool) (x y : List Bool) :
    Var → Prog F (AllocatedBit × List AllocatedBit × List AllocatedBit) := fun one => do
  let flag ← AllocatedBit.alloc (.ok v)
  let l ← mapProg (fun v => AllocatedBit.alloc (orMissing v)) (x.map some)
  let r ← mapProg (fun v => AllocatedBit.alloc (orMissing v)) (y.map some)
  equalUnlessBaseCase one flag l r
  return (flag, l, r)

example [LawfulField F] (v : Bool) (x y : List Bool) (hl : x.length = y.length) (h : v = true ∨ x = y) :
    (Enforces (switchCircuit (F := F) v x y) fun w r => ∃ v x y, r.1.Means w v ∧
      List.Forall₂ (fun b v => b.Means w v) r.2.1 x ∧ List.Forall₂ (fun b v => b.Means w v) r.2.2 y ∧
      (v = true ∨ x = y)) ∧
    Provable (switchCircuit (F := F) v x y) fun w r => r.1.Means w v ∧
      List.Forall₂ (fun b v => b.Means w v) r.2.1 x ∧ List.Forall₂ (fun b v => b.Means w v) r.2.2 y := by
  constructor
  · refine enforces_of_sound fun w one h1 => ?_
    refine Sound.bind (AllocatedBit.alloc_sound _) fun b ⟨v, hv⟩ => ?_
    refine Sound.bind (allocBits_sound _) fun l ⟨x, hx, _⟩ => ?_
    refine Sound.bind (allocBits_sound _) fun r ⟨y, hy, _⟩ => ?_
    exact Sound.bind ((C47_equal_unless_base_case_sound h1 b v hv).1 l r x y hx hy) fun _ h =>
      ⟨v, x, y, hv, hx, hy, h⟩
  · refine provable_of_complete fun w one h1 => ?_
    refine Complete.bind (AllocatedBit.alloc_complete _) fun b hv => ?_
    refine Complete.bind (allocBits_complete _) fun l hx => ?_
    refine Complete.bind (allocBits_complete _) fun r hy => ?_
    exact Complete.bind ((C47_equal_unless_base_case_complete h1 b v hv).1 l r x y hx hy hl h) fun _ _ =>
      ⟨hv.1, hx.imp fun _ _ h => h.1, hy.imp fun _ _ h => h.1⟩

/-! ### C56: the deferred checks in the circuit -/

open Proofs

/-- The bits that `to_bytes` gives for a record whose challenges are 128-bit numbers encode the record. -/
theorem C56_encoding [LawfulField F] {k : ℕ} {d : Deferred F} (hs : d.Small)
    (ho : d.challengesSqPackedOld.length = k) (hn : d.challengesSqPackedNew.length = k) :
    (bytesBits d.toBytes).length = deferredSize k ∧ deferredOf k (bytesBits d.toBytes) = d :=
  (deferredOf_toBytes hs ho hn).symm

/-- **C56**, what holds: in every satisfying assignment the bits have the right number, the record makes
sense, and its claims are true up to the sign of `gx` and a common sign of the `b`s.  Missing, and false,
see `C56_deferred_false`: that the claims are true, which is what `Deferred::verify` checks (C45). -/
theorem C56_deferred_partial [LawfulField F] (h1 : w one = 1) (k : ℕ) (bits : List AllocatedBit)
    (vs : List Bool) (h : List.Forall₂ (fun b v => b.Means w v) bits vs) :
    Sound w (verifyDeferred one k bits : Prog F Unit) fun _ => vs.length = deferredSize k ∧
      WellFormedDeferred k (deferredOf k vs : Deferred F) ∧ TrueUpToSigns k (deferredOf k vs : Deferred F) :=
  Holds.mono (hon := false) (verifyDeferred_holds h1 (bitsOk_false.2 h) nofun) fun _ ⟨h1, h2, h3, h4, h5⟩ =>
    ⟨h1, (loose_iff h2 h3 h4 (by simp [deferredOf]) (by simp [deferredOf])).1 h5⟩

/-- **C56**, the converse: the circuit accepts every record that `Deferred::verify` accepts. -/
theorem C56_deferred_complete [LawfulField F] (h1 : w one = 1) (k : ℕ) (bits : List AllocatedBit)
    (vs : List Bool) (h : List.Forall₂ (fun b v => b.Honest w v) bits vs) (hl : vs.length = deferredSize k)
    (hw : WellFormedDeferred k (deferredOf k vs : Deferred F))
    (ht : TrueDeferred k (deferredOf k vs : Deferred F)) :
    Complete w (verifyDeferred one k bits : Prog F Unit) fun _ => True :=
  Holds.mono (hon := true) (verifyDeferred_holds h1 (bitsOk_true.2 h) fun _ => ⟨hl, hw, ht⟩) fun _ _ => trivial

/-- a circuit that verifies a given record -/
def deferredCircuit [FieldApi F] (k : ℕ) (vs : List Bool) : Var → Prog F (List AllocatedBit) := fun one => do
  let bits ← mapProg (fun v => AllocatedBit.alloc (orMissing v)) (vs.map some)
  verifyDeferred one k bits
  return bits

theorem deferred_provable [LawfulField F] {k : ℕ} {vs : List Bool} (hl : vs.length = deferredSize k)
    (hw : WellFormedDeferred k (deferredOf k vs : Deferred F))
    (ht : TrueDeferred k (deferredOf k vs : Deferred F)) :
    Provable (deferredCircuit (F := F) k vs) fun _ _ => True :=
  provable_of_complete fun _ _ h1 => Complete.bind (allocBits_complete _) fun bits hb =>
    Complete.bind (C56_deferred_complete h1 k bits _ hb hl hw ht) fun _ _ => trivial

/-- `C56_deferred_partial` cannot be improved: whenever a record is true up to these signs, there is a
satisfying assignment with the bits of the record. -/
theorem C56_deferred_exact [LawfulField F] {k : ℕ} {vs : List Bool} (hl : vs.length = deferredSize k)
    (hw : WellFormedDeferred k (deferredOf k vs : Deferred F))
    (ht : TrueUpToSigns k (deferredOf k vs : Deferred F)) :
    Forgeable (deferredCircuit (F := F) k vs) fun w bits => List.Forall₂ (fun b v => b.Means w v) bits vs := by
  apply forgeable_of_forge
  intro one
  refine Forge.seq (P := fun w bits => List.Forall₂ (fun b v => b.Honest w v) bits vs)
    (Forge.honest fun w _ => allocBits_complete vs) fun bits => ?_
  refine Forge.seq (verifyDeferred_forge (vs := vs) (fun w hw => ⟨hw.1, bitsOk_true.2 hw.2⟩) hl hw.k_ge hw.x_ne hw.y_ne
    ((loose_iff hw.k_ge hw.x_ne hw.y_ne (by simp [deferredOf]) (by simp [deferredOf])).2 ⟨hw, ht⟩)) fun _ => ?_
  exact Forge.ret fun w hw => hw.1.2.imp fun _ _ h => h.1

/-- **C56** is false: for both scalar fields and every `k` there is a record, with 128-bit challenges, that
`Deferred::verify` rejects, but whose encoding the circuit accepts. -/
theorem C56_deferred_false {E : CurveConsts} {F S : Type} [Field F] [LawfulField F] [Field S] [DecidableEq S]
    [LawfulField S] [HaloCurve E F S] {k : ℕ} (hk : 2 ≤ k) :
    ∃ d : Deferred S, d.Small ∧ d.verify k = some false ∧
      Forgeable (deferredCircuit (F := S) k (bytesBits d.toBytes)) fun w bits =>
        List.Forall₂ (fun b v => b.Means w v) bits (bytesBits d.toBytes) := by
  obtain ⟨d, hs, ho, hn, hw, ht, hf⟩ := negated_dummy (E := E) (F := F) (S := S) hk
  obtain ⟨e1, e2⟩ := C56_encoding hs ho hn
  refine ⟨d, hs, ?_, C56_deferred_exact e1 (by rwa [e2]) (by rwa [e2])⟩
  obtain ⟨b, hb, hbt⟩ := (C45_deferred k d).1 hw
  rw [hb]
  cases b
  · rfl
  · exact (hf (hbt.1 rfl)).elim

/-- the honest circuit for the dummy record, and the forged one, for the parameters of the repository -/
example : (∃ d : Deferred Fp, Deferred.dummy Fp 11 = some d ∧
      Provable (deferredCircuit (F := Fp) 11 (bytesBits d.toBytes)) fun _ _ => True) ∧
    ∃ d : Deferred Fp, d.verify 11 = some false ∧
      Forgeable (deferredCircuit (F := Fp) 11 (bytesBits d.toBytes)) fun _ _ => True := by
  constructor
  · obtain ⟨d, h1, hw, ht, hs, ho, hn, -⟩ := dummy_record (E := ec0) (F := Fq) (S := Fp) (k := 11) (by norm_num)
    obtain ⟨e1, e2⟩ := C56_encoding hs ho hn
    exact ⟨d, h1, deferred_provable e1 (by rwa [e2]) (by rwa [e2])⟩
  · obtain ⟨d, -, h1, a, s, w, h2, h3, -⟩ := C56_deferred_false (E := ec0) (F := Fq) (S := Fp) (k := 11) (by norm_num)
    exact ⟨d, h1, a, s, w, h2, h3, trivial⟩

end Halo
