import Verif.Lemmas.Example.Twin
import Verif.Lemmas.SynthWires
import Verif.Lemmas.Recursion.TwinCircuit
/-!
# When the verifier's synthesis of the example panics
-/
set_option linter.unusedSectionVars false
namespace Halo
open Circuit Recursion

namespace Circuit
variable {F : Type} {α β : Type}

/-- `p` panics when no values are asked for. -/
def Crashes : Prog F α → Prop
  | .pure _ => False
  | .throw _ => False
  | .panic => True
  | .alloc _ k => ∀ x, Crashes (k x none)
  | .allocInput _ _ => False
  | .enforceZero _ k => Crashes k
  | .multiply _ k => ∀ a b c, Crashes (k a b c none)

theorem Crashes.bind {p : Prog F α} {f : α → Prog F β} : Crashes p → Crashes (p >>= f) := by
  induction p with
  | pure a => exact False.elim
  | throw e => exact False.elim
  | panic => exact id
  | alloc v k ih => exact fun h x => ih _ _ (h x)
  | allocInput v k ih => exact False.elim
  | enforceZero lc k ih => exact fun h => ih h
  | multiply v k ih => exact fun h a b c => ih _ _ _ _ (h a b c)

theorem Blind.crashes {p : Prog F α} {f : α → Prog F β} {Q : α → Prop} :
    Blind (fun _ => True) p Q → (∀ a, Q a → Crashes (f a)) → Crashes (p >>= f) := by
  induction p with
  | pure a => exact fun h hf => hf a h
  | throw e => exact False.elim
  | panic => exact False.elim
  | alloc v k ih => exact fun h hf x => ih _ _ (h x trivial) hf
  | allocInput v k ih => exact False.elim
  | enforceZero lc k ih => exact fun h hf => ih h.2 hf
  | multiply v k ih => exact fun h hf a b c => ih _ _ _ _ (h a b c trivial trivial trivial) hf

theorem Crashes.collect [Field F] {p : Prog F α} : ∀ {s : System F}, Crashes p →
    Circuit.collect false p s = .error .panic := by
  induction p with
  | pure a => exact False.elim
  | throw e => exact False.elim
  | panic => exact fun _ => rfl
  | alloc v k ih => exact fun {s} h => by rw [collect_alloc_false]; exact ih _ _ (h _)
  | allocInput v k ih => exact False.elim
  | enforceZero lc k ih => exact fun {s} h => ih h
  | multiply v k ih => exact fun {s} h => by rw [collect_multiply_false]; exact ih _ _ _ _ (h _ _ _)

/-- If `p` completes without values, then `q` panics. -/
def Turns [Field F] (p : Prog F α) (q : Prog F β) : Prop :=
  ∀ s : System F, ∀ r, collect false p s = .ok r → collect false q s = .error .panic

theorem Turns.bind {δ : Type} [Field F] {f : α → Prog F β} {g : α → Prog F δ} (p : Prog F α)
    (h : ∀ a, Turns (f a) (g a)) : Turns (p >>= f) (p >>= g) := by
  induction p with
  | pure a => exact h a
  | throw e => exact fun s r h => nomatch h
  | panic => exact fun s r h => nomatch h
  | alloc v k ih =>
    intro s r
    have := ih (s.fresh 0).1 none (s.fresh 0).2 r
    rwa [← collect_alloc_false v fun x o => (k x o) >>= f, ← collect_alloc_false v fun x o => (k x o) >>= g] at this
  | allocInput v k ih =>
    intro s r
    have := ih (s.fresh 0).1 v.toOption ((s.fresh 0).2.expose (s.fresh 0).1 v.toOption) r
    rwa [← collect_allocInput_false v fun x o => (k x o) >>= f,
      ← collect_allocInput_false v fun x o => (k x o) >>= g] at this
  | enforceZero lc k ih => exact fun s r => ih (s.constrain lc) r
  | multiply v k ih =>
    intro s r
    have := ih (.A (s.gates + 1)) (.B (s.gates + 1)) (.C (s.gates + 1)) none (s.gate (0, 0, 0)) r
    rwa [← collect_multiply_false v fun x y z o => (k x y z o) >>= f,
      ← collect_multiply_false v fun x y z o => (k x y z o) >>= g] at this

theorem Turns.guard [Field F] {c : Prop} [Decidable c] {p : Prog F α} {q : Prog F β} (h : Turns p q) :
    Turns (if c then .panic else p) (if c then .panic else q) := by
  split
  · exact fun s r h => nomatch h
  · exact h

end Circuit

namespace Example
variable {F : Type} [Field F] [DecidableEq F] [LawfulField F] {one : Var}

/-- On other payloads the circuit panics. -/
theorem crashes_bitcoin {old new : List AllocatedBit} (hold : old.length = 928) (hnew : new.length = 928)
    {vs : List Bool} (hk : new.map (·.value) = vs.map some) (hf : ¬ Bitcoin.Fine vs) :
    Crashes ((bitcoin : RecursiveCircuit F).synthesize one old new) := by
  have hvl : vs.length = 928 := by
    have := congrArg List.length hk
    simp only [List.length_map] at this
    rw [← this, hnew]
  have hkn : Knows (new.map Boolean.is) vs := by
    unfold Knows
    rw [List.forall₂_map_left_iff]
    rw [← List.forall₂_eq_eq_eq, List.forall₂_map_left_iff, List.forall₂_map_right_iff] at hk
    exact hk
  have ho : (fun _ : Var => True) one := trivial
  have self : ∀ {l : List AllocatedBit}, l.length = 928 → BitsN (fun _ => True) 928 l l := fun {l} h =>
    ⟨List.forall₂_same.2 fun b _ => ⟨_, _, _, trivial⟩, h⟩
  unfold bitcoin
  simp only []
  refine (twin_unpackPayloadBits ho (self hold)).blind.crashes ?_
  rintro ⟨ph', pw', pb'⟩ ⟨⟨ph, pw, pb⟩, h1, h2, h3, h4, h5⟩
  simp only at h1 h2 h3 h4 h5 ⊢
  refine (twin_unpackPayloadBits ho (self hnew)).blind.crashes ?_
  rintro ⟨nh', nw', nb'⟩ ⟨⟨nh, nw, nb⟩, g1, g2, g3, g4, g5⟩
  simp only at g1 g2 g3 g4 g5 ⊢
  have free : ∀ l : List AllocatedBit, ∀ b ∈ (l.map Boolean.is).drop 288, b.isConstant = false := by
    intro l b hb
    have := List.mem_of_mem_drop hb
    rw [List.mem_map] at this
    obtain ⟨x, -, rfl⟩ := this
    rfl
  show Crashes (Prog.bind _ _)
  refine (twin_sha256d ho h3 (h4 ▸ free old) (by omega)).blind.crashes fun d' ⟨d, hd⟩ => ?_
  refine (twin_slice g3 (by omega) (by omega)).blind.crashes fun s' ⟨s, hs⟩ => ?_
  refine (twin_enforceEquality ho hs.1 hd.1 (by omega)).blind.crashes fun _ _ => ?_
  refine (twin_sha256d ho g3 (g4 ▸ free new) (by omega)).blind.crashes fun _ _ => ?_
  have hkh : Knows nb' (Bitcoin.header vs) := by
    rw [g4, Bitcoin.header, Bitcoin.field, List.take_of_length_le (by rw [List.length_drop]; omega)]
    exact List.forall₂_drop _ hkn
  have hhl : (Bitcoin.header vs).length = 640 := by rw [← hkh.length_eq, g5]
  have hl0 := g3.length_eq
  have hsv := sumBits_eq (forall₂_take (List.forall₂_drop 600 hkh) 8)
  obtain ⟨x, y, z, e1, e2, hx, hy, hz, -⟩ := mantissaBytes_eq (forall₂_take (List.forall₂_drop 576 hkh) 23)
    (by rw [List.length_take, List.length_drop]; omega)
  have hsl : ∀ a b, a ≤ b → b ≤ 640 → (slice nb' a b : Prog F _) = .pure ((nb'.drop a).take (b - a)) := fun a b h1 h2 => by
    rw [slice, if_pos ⟨h1, by omega⟩, List.drop_take]
    rfl
  obtain ⟨sgn, hsg⟩ : ∃ b, nb'[599]? = some b := ⟨_, List.getElem?_eq_getElem (by omega)⟩
  have hix : (Sha256.index nb' 599 : Prog F _) = .pure sgn := by
    rw [Sha256.index, hsg]
    rfl
  have hsg' : List.Forall₂ (Boolean.Twin fun _ => True) nb' nb' := by
    refine List.forall₂_same.2 fun b hb => ?_
    rw [g4] at hb
    have := List.mem_of_mem_drop hb
    rw [List.mem_map] at this
    obtain ⟨x, -, rfl⟩ := this
    exact .is ⟨_, _, _, trivial⟩
  have hfh : (CompactBits.fromHeader nb' : Prog F _) =
      if ∃ s ∈ sumBits ((nb'.drop 600).take 8), s < 4 then .panic else
      .pure ⟨mantissaBytes ((nb'.drop 576).take 23), sumBits ((nb'.drop 600).take 8), (nb'.drop 576).take 23, sgn,
        (nb'.drop 600).take 8⟩ := by
    unfold CompactBits.fromHeader
    simp only []
    rw [hsl _ _ (by norm_num) (by norm_num), hsl _ _ (by norm_num) (by norm_num), hix]
    rfl
  rw [hfh]
  by_cases hlow : Bitcoin.size vs < 4
  · rw [if_pos ⟨_, hsv, hlow⟩]
    trivial
  rw [if_neg (by rw [hsv]; rintro ⟨_, ⟨⟩, h⟩; exact hlow h), e1, hsv]
  show Crashes (CompactBits.unpack one _ >>= _)
  have hct : CompactBits.Twin (fun _ => True) ⟨some [x, y, z], some (bitsValue (((Bitcoin.header vs).drop 600).take 8)),
      (nb'.drop 576).take 23, sgn, (nb'.drop 600).take 8⟩ ⟨some [x, y, z],
        some (bitsValue (((Bitcoin.header vs).drop 600).take 8)), (nb'.drop 576).take 23, sgn, (nb'.drop 600).take 8⟩ := by
    refine ⟨forall₂_take (List.forall₂_drop _ hsg') _, ?_, forall₂_take (List.forall₂_drop _ hsg') _, ?_⟩
    · exact List.forall₂_same.1 hsg' _ (List.mem_of_getElem? hsg)
    · show (List.take 8 _).length = 8
      rw [List.length_take, List.length_drop]; omega
  by_cases hhigh : 32 < Bitcoin.size vs
  · have : (CompactBits.targetVal ⟨some [x, y, z], some (bitsValue (((Bitcoin.header vs).drop 600).take 8)),
      (nb'.drop 576).take 23, sgn, (nb'.drop 600).take 8⟩ : Prog F _) = .panic := by
      unfold CompactBits.targetVal targetBytes
      have h : ¬ bitsValue (((Bitcoin.header vs).drop 600).take 8) - 1 < 32 := by
        have : Bitcoin.size vs = bitsValue (((Bitcoin.header vs).drop 600).take 8) := rfl
        omega
      simp only [if_neg h]
      rfl
    refine Crashes.bind ?_
    unfold CompactBits.unpack
    rw [this]
    trivial
  have hm : Bitcoin.mantissa vs = 0 := by
    by_contra hm
    exact hf ⟨by omega, by omega, hm⟩
  have htv : ∃ t, (CompactBits.targetVal ⟨some [x, y, z], some (bitsValue (((Bitcoin.header vs).drop 600).take 8)),
      (nb'.drop 576).take 23, sgn, (nb'.drop 600).take 8⟩ : Prog F _) = .pure (some t) ∧ bytesValue t = 0 := by
    have h : Bitcoin.size vs = bitsValue (((Bitcoin.header vs).drop 600).take 8) := rfl
    unfold CompactBits.targetVal
    refine ⟨_, by simp only [targetBytes_eq (a := x) (b := y) (c := z)
      (show 3 ≤ bitsValue (((Bitcoin.header vs).drop 600).take 8) by omega) (by omega)]; rfl, ?_⟩
    rw [bytesValue_target, e2]
    have : bitsValue (((Bitcoin.header vs).drop 576).take 23) = 0 := hm
    rw [this, Nat.zero_mul]
  obtain ⟨t, ht, ht0⟩ := htv
  refine Blind.crashes (Q := fun r => r.2 = some 0) ?_ ?_
  · unfold CompactBits.unpack
    rw [ht]
    refine ⟨fun _ _ => trivial, ?_⟩
    show Blind _ (Prog.bind (CompactBits.constrain one _ (bitOfBytes (some t)) 1 _ _) _) _
    refine Blind.bind (fun r _ => ?_) (twin_constrain ho hct (fun _ => .ok false) _ 0 _ (.ok 0) _ (.ok 0) _).blind
    show some (bytesValue t) = some 0
    rw [ht0]
  · rintro ⟨r, _⟩ rfl
    have : (workValue (some 0) : Prog F (Except SynthesisError F)) = .panic := by
      rw [workValue, if_neg (by norm_num)]
      exact if_pos (by norm_num)
    show Crashes (checkWork _ _ _ _ _)
    unfold checkWork
    rw [this]
    trivial

end Example

namespace Recursion
variable {F S : Type} [Field F] [DecidableEq F] [LawfulField F] [Field S] [DecidableEq S] [LawfulField S]
  {E1 E2 : CurveConsts}

theorem turns_synthesize {c c' : VerificationCircuit F S} {X : RecursiveCircuit F} (hc : c' = { c with inner := X })
    (hb : X.basePayload = c.inner.basePayload)
    (h : ∀ one op new, Turns (X.synthesize one op new) (c.inner.synthesize one op new)) (one : Var) :
    Turns (c'.synthesize E1 E2 one) (c.synthesize E1 E2 one) := by
  subst hc
  unfold VerificationCircuit.synthesize
  simp only [hb]
  refine Turns.bind _ fun _ => Turns.bind _ fun _ => Turns.bind _ fun _ => Turns.bind _ fun _ => Turns.bind _ fun _ =>
    Turns.bind _ fun _ => Turns.bind _ fun _ => Turns.bind _ fun _ => Turns.bind _ fun _ => Turns.guard ?_
  refine Turns.bind _ fun _ => Turns.bind _ fun _ => Turns.bind _ fun _ => ?_
  have e1 : oldDeferredBytes { c with inner := X } = oldDeferredBytes c := rfl
  have e2 : ∀ a b d e f, verifyProof E2 one { c with inner := X } a b d e f = verifyProof E2 one c a b d e f :=
    fun _ _ _ _ _ => rfl
  simp only [e1, e2]
  refine Turns.bind _ fun _ => Turns.bind _ fun _ => Turns.guard ?_
  exact Turns.bind _ fun _ => Turns.bind _ fun _ => Turns.bind _ fun _ => Turns.bind _ fun _ => Turns.bind _ fun _ =>
    Turns.bind _ fun _ => Turns.bind _ fun _ => Turns.bind _ fun _ => Turns.bind _ fun _ => h _ _ _

/-- Does nothing if it gets the expected bits -/
def expect (base payload : List Bool) : RecursiveCircuit F where
  basePayload := base
  synthesize _ old new := if ¬ (old.length = base.length ∧ new.length = base.length ∧
    new.map (fun b => b.value) = payload.map some) then .panic else .pure ()

theorem expect_uniform {base payload : List Bool} :
    (expect base payload : RecursiveCircuit F).Uniform (expect base payload) payload where
  base := rfl
  same V one h1 old old' new new' ho hn _ _ hv :=
    twin_guard (by rw [not_not]; exact ⟨ho, hn, hv⟩) trivial

/-- If the user's circuit panics on the payload, then so does the verification circuit. -/
theorem synthesis_panics [HaloCurve E2 F S] [HaloCurve E1 S F] {c : VerificationCircuit F S}
    (hp : GoodParams E2 c.params) (hc : c.WellShaped E2)
    (h : ∀ one old new, old.length = c.inner.basePayload.length → new.length = c.inner.basePayload.length →
      new.map (fun b => b.value) = (bytesBits c.newPayload).map some → Crashes (c.inner.synthesize one old new)) :
    circuitSystem false (c.synthesize E1 E2) = .error .panic := by
  have hw : VerificationCircuit.WellShaped E2
      { c with inner := expect c.inner.basePayload (bytesBits c.newPayload) } :=
    ⟨hc.newPayload, hc.proof, hc.forkvalues, hc.oldLeftovers, hc.newLeftovers, hc.deferred⟩
  obtain ⟨b, t', h1, -⟩ := twin_system (F := F) (R := fun _ _ => True)
    fun V one h1 => twin_synthesize (E1 := E1) (E2 := E2) (V := V) (one := one) h1
      ⟨rfl, expect_uniform, hw, hw⟩ hp
  have ht : ∀ one, Turns (VerificationCircuit.synthesize E1 E2
      { c with inner := expect c.inner.basePayload (bytesBits c.newPayload) } one) (c.synthesize E1 E2 one) := by
    refine turns_synthesize rfl rfl fun one op new s r hr => ?_
    unfold expect at hr
    simp only at hr
    split at hr
    · cases hr
    · rename_i hh
      rw [not_not] at hh
      exact (h one op new hh.1 hh.2.1 hh.2.2).collect
  unfold circuitSystem at h1 ⊢
  exact ht _ _ _ h1

theorem inputs_panic {α : Type} {circuit : Var → Prog F α} (h : circuitSystem false circuit = .error .panic) :
    Basic.synthesize inputMapBackend [] circuit = .error .panic := by
  have := sim_inputMap.synthesize_follows circuit (b := [])
    (by exact ⟨.empty, rfl, rfl, rfl, rfl⟩)
  rw [h] at this
  cases hs : Basic.synthesize inputMapBackend [] circuit with
  | ok r => rw [hs] at this; exact this.elim
  | error e =>
    rw [hs] at this
    rcases this with rfl | rfl <;> rfl

end Recursion
end Halo
