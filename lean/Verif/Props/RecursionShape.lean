import Verif.Lemmas.Recursion.TwinCircuit
import Verif.Spec.Proofs
/-!
# C57: the verification circuit is the same circuit, whatever it is given
-/
namespace Halo
namespace Recursion
open Circuit Proofs
variable {F S : Type} [Field F] [DecidableEq F] [LawfulField F] [Field S] [DecidableEq S] [LawfulField S]
  {E1 E2 : CurveConsts}

/-- Let `c` and `c'` be verification circuits for the same parameters, with data whose lists have the right lengths and whose points are on the curve. The circuit `c'` can be run
without values; it exposes one public input for each bit of the payload, the two leftovers and the deferred
data, by its first constraints. Whenever `c` can be run, with or without values, it asks for the same
gates and constraints, and its public inputs are these bits. -/
theorem C57_same_circuit [HaloCurve E2 F S] [HaloCurve E1 S F] {c c' : VerificationCircuit F S}
    (hp : GoodParams E2 c.params) (hpar : c'.params = c.params)
    (hin : c.inner.Uniform c'.inner (bytesBits c'.newPayload))
    (hc : c.WellShaped E2) (hc' : c'.WellShaped E2) :
    ∃ gates lcs,
      HasShape false (c'.synthesize E1 E2) gates lcs (List.range' 1 ((c.publicBits E1 E2).length + 1)) ∧
      ∀ known a s, circuitSystem known (c.synthesize E1 E2) = .ok (a, s) →
        HasShape known (c.synthesize E1 E2) gates lcs (List.range' 1 ((c.publicBits E1 E2).length + 1)) ∧
        s.inputs.map Prod.snd = some 1 :: (c.publicBits E1 E2).map fun b => some (if b then 1 else 0) := by
  obtain ⟨b, t', h1, h2, h3, h4⟩ := twin_system (F := F) (R := fun _ _ => True)
    fun V one h1 => twin_synthesize (E1 := E1) (E2 := E2) (V := V) (one := one) h1
      ⟨hpar, hin, hc, hc'⟩ hp
  rw [List.length_map] at h3 h4
  refine ⟨t'.gates, t'.lcs, ⟨b, t', h1, rfl, rfl, h3, h2⟩, fun known a s hs => ?_⟩
  obtain ⟨-, h5, h6⟩ := h4 known a s hs
  refine ⟨⟨a, s, hs, h5.gates, h5.lcs, h5.inputs.trans h3, h5.wellScoped.trans h2⟩, ?_⟩
  rw [h6, ← List.unzip_snd, List.unzip_zip (by simp)]
  simp [ofBool]

/-- The public inputs of a circuit that knows everything are the bits of the bytes that the verifier
hashes into the commitment. -/
theorem C57_public_inputs {c : VerificationCircuit F S} {proof : RecursiveProof S F}
    (h1 : c.newPayload = proof.payload) (h2 : c.oldLeftovers = some proof.oldproof1)
    (h3 : c.newLeftovers = some proof.oldproof2) (h4 : c.deferred = some proof.deferred) :
    c.publicBits E1 E2 = bytesBits (proof.inputBytes E1 E2) := by
  simp [VerificationCircuit.publicBits, RecursiveProof.inputBytes, bytesBits_append, h1, h2, h3, h4, bitsOr]

/-! The hypotheses can be met: the parameters `[G, G, G, G]`, a user circuit that constrains the first bit
of the new payload, and a base case with and without values. -/

/-- Four times the generator of the group -/
def fourG (E : CurveConsts) : Params (Proj F) :=
  { d := 16, k := 2, n := 4, generators := List.replicate 4 (Proj.one E) }

/-- The old payload is a zero byte, the first bit of the new one is one -/
def firstBit : RecursiveCircuit F where
  basePayload := List.replicate 8 false
  synthesize one _ new := do
    let b ← Sha256.index new 0
    .enforce ((LC.ofVar b.var).subVar one)

omit [DecidableEq S] in
theorem fourG_good [h : HaloCurve E2 F S] : GoodParams E2 (fourG E2 : Params (Proj F)) := by
  have hd := h.is.denotes_one (F := F) rfl
  have g := HaloCurve.good E2 F S
  refine ⟨le_rfl, by simp [fourG], fun p hp => ?_, ?_⟩
  · rw [List.eq_of_mem_replicate hp]
    exact ⟨rfl, _, hd⟩
  · intro p q hp hq A B hA hB
    cases hp
    cases hq
    rw [denotes_unique hA hd, denotes_unique hB hd]
    intro e
    have e := eq_neg_of_add_eq_zero_left e
    unfold IsHaloCurve.gen at e
    rw [WeierstrassCurve.Affine.Point.neg_some, WeierstrassCurve.Affine.Point.some.injEq, negY_short] at e
    have hy := y_ne_zero g.no_two_torsion (h.is.gen_nonsing (F := F) rfl)
    exact mul_ne_zero g.two_ne hy (by linear_combination e.2)

omit [DecidableEq F] [LawfulField F] in
theorem firstBit_uniform {payload : List Bool} : (firstBit : RecursiveCircuit F).Uniform firstBit payload where
  base := rfl
  same V one h1 old old' new new' _ hn _ h _ := by
    refine (twin_index h (i := 0) ?_).bind fun b b' hb => ?_
    · rw [hn]
      exact Nat.zero_lt_succ _
    · obtain ⟨_, _, x, hx⟩ := hb
      exact twin_enforce' rfl (LC.in_subVar (LC.in_ofVar hx) h1) trivial

/-- The base case, where everything is known -/
def baseExample (l1 : Leftovers (Proj S) F) (l2 : Leftovers (Proj F) S) (d : Deferred S) (E : CurveConsts) :
    VerificationCircuit F S where
  params := fourG E
  baseCase := some true
  inner := firstBit
  proof := none
  newPayload := [1]
  forkvalues := some [0, 0]
  oldLeftovers := some l1
  newLeftovers := some l2
  deferred := some d

example : ∃ (c c' : VerificationCircuit Fp Fq), GoodParams ec1 c.params ∧ c'.params = c.params ∧
    c.inner.Uniform c'.inner (bytesBits c'.newPayload) ∧ c.WellShaped ec1 ∧ c'.WellShaped ec1 := by
  obtain ⟨d, -, -, -, -, h1, h2, -⟩ := dummy_record (E := ec1) (F := Fp) (S := Fq) (k := 2) le_rfl
  refine ⟨baseExample ⟨Proj.zero, 5, Proj.one ec0, [12, 12]⟩ ⟨Proj.zero, 7, Proj.one ec1, [12, 12]⟩ d ec1,
    blankCircuit (fourG ec1) firstBit [0], fourG_good (S := Fq), rfl, firstBit_uniform, ?_, ?_⟩
  · exact ⟨rfl, by rintro _ ⟨⟩, by rintro _ ⟨⟩; exact le_rfl, by rintro _ ⟨⟩; rfl, by rintro _ ⟨⟩; rfl,
      by rintro _ ⟨⟩; exact ⟨h1, h2⟩⟩
  · exact ⟨rfl, by rintro _ ⟨⟩, by rintro _ ⟨⟩, by rintro _ ⟨⟩, by rintro _ ⟨⟩, by rintro _ ⟨⟩⟩

end Recursion
end Halo
