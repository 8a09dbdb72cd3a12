import Verif.Lemmas.Proofs.Sound
import Verif.Lemmas.Proofs.SoundPool
import Verif.Lemmas.Proofs.SoundSession
import Verif.Props.Leftovers
/-!
# Soundness of proofs (C66)
-/
namespace Halo
namespace Proofs
open Util Circuit
variable {E : CurveConsts} {F : Type} [Field F] [DecidableEq F] [LawfulField F]
  {S : Type} [Field S] [DecidableEq S] [LawfulField S]

/-- **C66**. Whoever convinces the verifier knows an assignment of the circuit. Let the parameters, the circuit,
its public inputs and the old leftovers be fixed. Let `P` be any prover, `ch` challenges that an extractor tries,
enough of them in every place, and assume that the verifier accepts the answers of `P` to all of them, and so
do the two checks that it leaves over. Unless the extractor has found two different vectors with the same commitment,
one of the vectors that it has found is what `P` has committed to in its first message, and the wires of the circuit
in it satisfy the circuit for the public inputs. Moreover the old leftovers are right.

There is no assumption that a commitment or a folded generator is not the identity. -/
theorem C66_knowledge_soundness [HaloCurve E F S] {cpus : ℕ} (hcpus : 0 < cpus) {lnCeil : ℕ → ℕ}
    (hln : ∀ n, 32 ≤ n → n < 2 ^ 32 → 1 ≤ lnCeil n ∧ lnCeil n ≤ 57) {α : Type}
    {st : Statement (Proj F) S α} {g : ℕ → Pt (E.b : F)} (hp : ValidParams (Denotes (E.b : F)) g st.params)
    {gates : ℕ} {lcs : List (LC S)} {positions : List ℕ} (hs : HasShape false st.circuit gates lcs positions)
    (hgates : gates ≤ st.params.n) (hlcs : lcs.length < 2 ^ st.params.k)
    (hso : ∃ A, Denotes (E.b : F) st.old.sNewCommitment A) (hgo : ∃ A, Denotes (E.b : F) st.old.gNew A)
    (hlen : st.old.challengesSqPackedNew.length = st.params.k) {P : Prover (Proj F) S}
    (hP : P.OnCurve (Denotes (E.b : F))) {ch : Challenges S} (he : ch.Enough st.params.k lcs.length) :
    letI := Proj.curveOps E F S
    letI := HaloCurve.module (E := E) (F := F) (S := S)
    ∀ (_ : ∀ c, st.kCommitment = some c →
        Denotes (E.b : F) c (combine g 0 (kPoly (positions.zip (1 :: st.inputs)))))
      (_ : ∀ y x yNew z us, ch.Tried y x yNew z → us.length = st.params.k → ch.Path y x yNew z [] us →
        st.Accepts (F := F) cpus lnCeil P y x yNew z us)
      (_ : Binding g st P ch positions),
      (∃ v, Found st P ch positions v ∧
        Denotes (E.b : F) P.r (∑ m ∈ Finset.range (2 ^ st.params.k), v m • g m) ∧
        ∃ a s, circuitSystem false st.circuit = .ok (a, s) ∧ s.Satisfied (wires st.params.n v) st.inputs ∧
          st.inputs.length + 1 = s.inputs.length) ∧
      ValidLeftovers (Denotes (E.b : F)) g st.params st.circuit st.old := by
  let := Proj.curveOps E F S
  let := HaloCurve.module (E := E) (F := F) (S := S)
  have L := HaloCurve.lawfulOps (E := E) (F := F) (S := S)
  intro hk hacc hb
  obtain ⟨a, s, hsys, rfl, rfl, rfl, hw⟩ := hs
  have hshape : Shape st.circuit st.params.n s := ⟨⟨a, hsys⟩, hw, hgates⟩
  have hkl := (hshape.kLength st.inputs).trans hlcs
  -- one of the runs
  obtain ⟨y, hy⟩ := Finset.card_pos.1 (show 0 < ch.ys.card by have := he.ys; omega)
  obtain ⟨x, hx⟩ := Finset.card_pos.1 (show 0 < (ch.xs y).card by
    have := he.xs y hy
    have : 0 < 2 ^ st.params.k := by positivity
    omega)
  obtain ⟨yn, hyn⟩ := Finset.card_pos.1 (show 0 < (ch.yNews y x).card by have := he.yNews y hy x hx; omega)
  obtain ⟨z, hz⟩ := Finset.card_pos.1 (show 0 < (ch.zs y x yn).card by have := he.zs y hy x hx yn hyn; omega)
  have ht := tried_of hy hx hyn hz
  obtain ⟨us, hul, hup⟩ := exists_path (fun pre => (he.us y x yn z ht pre).1) st.params.k []
  obtain ⟨-, -, K, -, -, uso, -, -, -, h1, h2, -, h4, -⟩ := accepts_steps hshape (hacc y x yn z us ht hul hup)
  have hK : Denotes (E.b : F) K (combine g 0 (kPoly (kInputs s st.inputs))) := by
    unfold kOf at h1
    cases hc : st.kCommitment with
    | some c =>
      rw [hc] at h1
      cases h1
      exact hk _ hc
    | none =>
      rw [hc] at h1
      obtain ⟨K', e1, e2⟩ := commit_rep L.toLawfulCurve hcpus hln hp.size hp.gens
        (v := kPoly (kInputs s st.inputs)) (by rw [hp.length]; exact hkl) false
      rw [e1] at h1
      cases h1
      exact e2
  obtain ⟨⟨v, v1, v2, v3⟩, hold⟩ := sound L ⟨hcpus, hln, hp, hshape, hlcs, h1, hK, h4, hlen, hP⟩ hb he hacc hso hgo
  refine ⟨⟨v, v1, v2, a, s, hsys, v3, ?_⟩, hold⟩
  obtain ⟨-, i, hi⟩ := first_constraint hsys
  rw [h2, hi]
  simp

/-- A concrete case: the cube circuit over the first curve, with eight gates, 32 generators, an honest prover and 240
challenges in every place. It meets every hypothesis, and the extractor finds a cube root of 27. -/
example : letI := Proj.curveOps ec0 Fq Fp
    letI := HaloCurve.module (E := ec0) (F := Fq) (S := Fp)
    ∃ (st : Statement (Proj Fq) Fp Unit) (g : ℕ → Pt (ec0.b : Fq)) (P : Prover (Proj Fq) Fp) (ch : Challenges Fp),
      st.circuit = cubeCircuit 3 ∧ st.inputs = [27] ∧
      ValidParams (Denotes (ec0.b : Fq)) g st.params ∧ HasShape false st.circuit 4 (cubeLcs Fp) [1, 6] ∧
      4 ≤ st.params.n ∧ (cubeLcs Fp).length < 2 ^ st.params.k ∧
      (∃ A, Denotes (ec0.b : Fq) st.old.sNewCommitment A) ∧ (∃ A, Denotes (ec0.b : Fq) st.old.gNew A) ∧
      st.old.challengesSqPackedNew.length = st.params.k ∧
      P.OnCurve (Denotes (ec0.b : Fq)) ∧ ch.Enough st.params.k (cubeLcs Fp).length ∧
      (∀ c, st.kCommitment = some c →
        Denotes (ec0.b : Fq) c (combine g 0 (kPoly (([1, 6] : List ℕ).zip (1 :: st.inputs))))) ∧
      (∀ y x yNew z us, ch.Tried y x yNew z → us.length = st.params.k → ch.Path y x yNew z [] us →
        st.Accepts (F := Fq) 4 (fun _ => 4) P y x yNew z us) ∧
      Binding g st P ch [1, 6] ∧
      ∃ v, Found st P ch [1, 6] v ∧ ∃ a s, circuitSystem false (cubeCircuit (3 : Fp)) = .ok (a, s) ∧
        s.Satisfied (wires st.params.n v) [27] := by
  let := Proj.curveOps ec0 Fq Fp
  let := HaloCurve.module (E := ec0) (F := Fq) (S := Fp)
  obtain ⟨p⟩ := exists_pool
  have hsat := cube_satisfied (3 : Fp)
  rw [show (3 * 3 * 3 : Fp) = 27 by norm_num] at hsat
  have hln : ∀ n : ℕ, 32 ≤ n → n < 2 ^ 32 → 1 ≤ (fun _ => 4 : ℕ → ℕ) n ∧ (fun _ => 4 : ℕ → ℕ) n ≤ 57 :=
    fun _ _ _ => ⟨by norm_num, by norm_num⟩
  obtain ⟨st, g, P, e1, e2, e3, e4, e5, hp, hold, hP, he, hacc, hb⟩ := honest_session (E := ec0) p
    (cube_shape true (3 : Fp)) (cube_shape false 3) (by norm_num) (by simp [cubeLcs]) hsat (cpus := 4)
    (by norm_num) (lnCeil := fun _ => 4) hln
  have hs : HasShape false st.circuit 4 (cubeLcs Fp) [1, 6] := e1 ▸ cube_shape false 3
  have h4 : 4 ≤ st.params.n := by rw [e5]; norm_num
  have h7 : (cubeLcs Fp).length < 2 ^ st.params.k := by rw [e4]; simp [cubeLcs]
  have hk : ∀ c, st.kCommitment = some c →
      Denotes (ec0.b : Fq) c (combine g 0 (kPoly (([1, 6] : List ℕ).zip (1 :: st.inputs)))) := fun c hc => by
    rw [e3] at hc
    exact absurd hc (by simp)
  obtain ⟨⟨sx, -, hso⟩, hlen, us, -, hgo⟩ := id hold
  refine ⟨st, g, P, p.challenges, e1, e2, hp, hs, h4, h7, ⟨_, hso⟩, ⟨_, hgo⟩, hlen, hP, he, hk, hacc, hb, ?_⟩
  obtain ⟨⟨v, v1, -, a, s, v2, v3, -⟩, -⟩ := C66_knowledge_soundness (E := ec0) (F := Fq) (S := Fp) (by norm_num) hln hp
    hs h4 h7 ⟨_, hso⟩ ⟨_, hgo⟩ hlen hP he hk hacc hb
  rw [e1] at v2
  rw [e2] at v3
  exact ⟨v, v1, a, s, v2, v3⟩

end Proofs
end Halo
