import Verif.Lemmas.Rescue
import Verif.Lemmas.FieldInst
/-!
# Properties of the Rescue sponge (C24–C26)

`Rescue.run cs r` runs a history `cs` of `absorb`/`squeeze` calls on the sponge `r` and returns the
squeezed values; `Rescue.new` is the fresh sponge.
-/
namespace Halo
open Rescue SpongeSpec
variable {F : Type} [Field F] [LawfulField F]

/-- a field of the code satisfies the assumptions of this file -/
example : Nonempty (LawfulField Fp) ∧ Nonempty (LawfulField Fq) := ⟨⟨inferInstance⟩, ⟨inferInstance⟩⟩

/-- the block function of the sponge, written out: add the block to the first twelve elements,
padding with ones, and apply the permutation -/
theorem dup_eq (s : Vector F 13) (block : List F) : Rescue.dup s block =
    permute key (Vector.ofFn fun i => if i.1 < 12 then s[i] + block.getD i 1 else s[i]) := rfl

/-- **C26**: no history of calls panics or loops, and its outputs are those of a duplex sponge.
Every history is, up to a tail of `absorb` calls that produces no output, a sequence of phases
that absorb the elements `xs` (at least one, except in the first phase) and then squeeze `n + 1`
elements.  The specification `phases` is in `Verif.Spec.Sponge`. -/
theorem C26_duplex :
    (∀ (cs : List (Call F)) (r : Rescue F), (∃ cs₀, (run cs₀ new).map Prod.snd = some r) →
      ∃ es r', run cs r = some (es, r') ∧ es.length = cs.countP fun c => c matches .squeeze) ∧
    (∀ (p : List F × ℕ) (ps : List (List F × ℕ)) (tail : List F), (∀ p ∈ ps, p.1 ≠ []) →
      (run ((p :: ps).flatMap (fun p => p.1.map Call.absorb ++ List.replicate (p.2 + 1) Call.squeeze)
          ++ tail.map Call.absorb) new).map Prod.fst =
        some (phases Rescue.dup Rescue.out (Vector.replicate 13 0) (p :: ps))) := by
  refine ⟨?_, ?_⟩
  · rintro cs r ⟨cs₀, h₀⟩
    obtain ⟨r₁, h1, h2⟩ := run_rel cs₀ (rel_new (F := F))
    rw [h1] at h₀
    simp only [Option.map_some, Option.some.injEq] at h₀
    subst h₀
    obtain ⟨r', h3, -⟩ := run_rel cs h2
    exact ⟨_, r', h3, St.run_length _ _⟩
  · intro p ps tail hne
    obtain ⟨r', h3, -⟩ := run_rel ((p :: ps).flatMap
      (fun p => p.1.map Call.absorb ++ List.replicate (p.2 + 1) Call.squeeze) ++ tail.map Call.absorb)
      (rel_new (F := F))
    rw [h3, Option.map_some, St.run_append, St.run_absorbs, List.append_nil]
    exact congrArg some (phases_run_new p ps hne _)

/-- a history in the form of C26: absorb 14 elements, squeeze 13, absorb one, squeeze one -/
example : ∀ p ∈ [(([7] : List Fp), 0)], p.1 ≠ [] := by simp

/-- **C24 is false of the code**: the first element of every block is ignored.  After any history
that is empty or ends with a squeeze, absorbing `v` or `v'` gives the same outputs in every
continuation. -/
theorem C24_first_element_ignored (cs : List (Call F)) (h : cs = [] ∨ ∃ cs', cs = cs' ++ [.squeeze])
    (v v' : F) (ds : List (Call F)) :
    (run (cs ++ .absorb v :: ds) new).map Prod.fst = (run (cs ++ .absorb v' :: ds) new).map Prod.fst := by
  obtain ⟨r1, h1, -⟩ := run_rel (cs ++ .absorb v :: ds) (rel_new (F := F))
  obtain ⟨r2, h2, -⟩ := run_rel (cs ++ .absorb v' :: ds) (rel_new (F := F))
  rw [h1, h2]
  simp only [Option.map_some, St.run_append]
  congr 2
  rcases h with rfl | ⟨cs', rfl⟩
  · exact head_run ds _ v v' []
  · rw [St.run_append]
    obtain ⟨s, k, hs⟩ := St.squeeze_squeezing (St.run cs' (.absorbing (Vector.replicate M (0 : F)) [])).2
    simp only [St.run, hs]
    exact head_run ds _ v v' []

/-- **C24 is false of the code**: explicit statement of the negation.  Two histories that differ in
one absorbed element have the same output. -/
theorem C24_is_wrong :
    ¬ ∀ (xs ys : List F) (v v' : F), v ≠ v' →
      (run (xs.map .absorb ++ .absorb v :: ys.map .absorb ++ [.squeeze]) new).map Prod.fst ≠
      (run (xs.map .absorb ++ .absorb v' :: ys.map .absorb ++ [.squeeze]) new).map Prod.fst := by
  intro h
  exact h [] [] 0 1 zero_ne_one (C24_first_element_ignored [] (Or.inl rfl) 0 1 [.squeeze])

/-- **C24, also false for the last positions**: absorbing a one is the same as absorbing
nothing, unless the block is full. -/
theorem C24_one_is_padding (xs : List F) (h : xs = [] ∨ xs.length % 12 ≠ 0) :
    (run (xs.map .absorb ++ [.squeeze]) new).map Prod.fst =
    (run ((xs ++ [1]).map .absorb ++ [.squeeze]) new).map Prod.fst := by
  have key : ∀ xs : List F, (run (xs.map .absorb ++ [.squeeze]) new).map Prod.fst =
      some [Rescue.out (absorbAll Rescue.dup (Vector.replicate M 0) xs) 0] := by
    intro xs
    have := C26_duplex.2 (xs, 0) [] [] (by simp)
    simp only [List.flatMap_cons, List.flatMap_nil, List.append_nil, List.map_nil, zero_add,
      List.replicate_one] at this
    rw [this]
    simp [phases, stream]
  rw [key, key, absorbAll_append_one _ _ h]

/-- **C24/C25, consequence**: the twelve outputs of a block are determined by the first one.  After
any history followed by an absorption, the next twelve outputs `e₀, …, e₁₁` satisfy
`e_i = (i + 1)·(e₀ - 1) + 1`. -/
theorem C24_outputs_predictable (cs : List (Call F)) (v : F) :
    ∃ (es₀ es : List F), (run (cs ++ .absorb v :: List.replicate 12 .squeeze) new).map Prod.fst =
      some (es₀ ++ es) ∧ es.length = 12 ∧
      ∀ i < 12, es.getD i 0 = (i + 1 : F) * (es.getD 0 0 - 1) + 1 := by
  obtain ⟨r1, h1, -⟩ := run_rel (cs ++ .absorb v :: List.replicate 12 .squeeze) (rel_new (F := F))
  rw [h1, Option.map_some, St.run_append]
  refine ⟨_, _, rfl, by rw [St.run_length]; rfl, ?_⟩
  obtain ⟨s, buf, hb, hs⟩ := St.absorb_absorbing
    (St.run cs (.absorbing (Vector.replicate M (0 : F)) [])).2
    (St.Ok_run cs _ (by simp [St.Ok])) v
  have hph := phase_absorbing s buf [] hb 11
  simp only [phaseCalls, List.map_nil, List.nil_append] at hph
  have hrun : ((St.run cs (.absorbing (Vector.replicate M (0 : F)) [])).2.run
      (.absorb v :: List.replicate 12 .squeeze)).1 =
      (List.range 12).map (stream Rescue.dup Rescue.out (absorbAll Rescue.dup s (buf ++ []))) := by
    simp only [St.run, hs, hph]
  obtain ⟨t, ht⟩ := absorbAll_line s (buf ++ [])
  intro i hi
  rw [hrun]
  have e : ∀ i < 12, ((List.range 12).map (stream Rescue.dup Rescue.out
      (absorbAll Rescue.dup s (buf ++ [])))).getD i 0 = (i + 1 : F) * t + 1 := by
    intro i hi
    rw [← ht ⟨i, by simp only [M]; omega⟩]
    simp [List.getD, hi, stream, Nat.div_eq_of_lt hi, Nat.mod_eq_of_lt hi, Rescue.out,
      show i < 13 by omega]
  rw [e i hi, e 0 (by norm_num)]
  push_cast
  ring

/-- **C24, the part that holds**: two states that differ in one element other than the first are
still different after the first half round.  Missing: the following nineteen half rounds, which act
on a single scalar by maps that need not be injective. -/
theorem C24_partial (s s' : Vector F 13) (j : Fin 13) (hj : j.1 ≠ 0)
    (hne : s[j] ≠ s'[j]) (hsame : ∀ i, i ≠ j → s[i] = s'[i]) :
    addVec (mds (sbox 0 (addVec s (key 0)))) (key 1) ≠
      addVec (mds (sbox 0 (addVec s' (key 0)))) (key 1) := by
  intro h
  have h0 : trace (sbox 0 (addVec s (key 0))) = trace (sbox 0 (addVec s' (key 0))) := by
    have := congrArg (fun v : Vector F M => v[(0 : Fin M)]) h
    simp only [addVec_get, mds_eq] at this
    simpa using this
  unfold trace at h0
  rw [← Finset.add_sum_erase _ _ (Finset.mem_univ j),
    ← Finset.add_sum_erase _ _ (Finset.mem_univ j)] at h0
  have hrest : ∑ x ∈ Finset.univ.erase j, (x.1 : F) * (sbox 0 (addVec s (key 0)))[x] =
      ∑ x ∈ Finset.univ.erase j, (x.1 : F) * (sbox 0 (addVec s' (key 0)))[x] := by
    apply Finset.sum_congr rfl
    intro i hi
    rw [sbox_get, sbox_get, addVec_get, addVec_get, hsame i (Finset.ne_of_mem_erase hi)]
  rw [hrest] at h0
  have hj0 : (j.1 : F) ≠ 0 := by
    intro hz
    have hc := LawfulField.charP (F := F)
    have hd := (CharP.cast_eq_zero_iff F (FieldApi.modulus F) j.1).1 hz
    have hb := (LawfulField.modulus_bound (F := F)).1
    have h13 : j.1 < 13 := j.2
    exact absurd (Nat.le_of_dvd (Nat.pos_of_ne_zero hj) hd) (by
      have : (13 : ℕ) ≤ 2 ^ 254 := by norm_num
      omega)
  have h1 := mul_left_cancel₀ hj0 (add_right_cancel h0)
  rw [sbox_get, sbox_get] at h1
  have h2 := pow_injective 0 _ _ h1
  rw [addVec_get, addVec_get] at h2
  exact hne (add_right_cancel h2)

/-- hypotheses of `C24_partial` -/
example : ∃ (s s' : Vector Fp 13) (j : Fin 13), j.1 ≠ 0 ∧ s[j] ≠ s'[j] ∧ ∀ i, i ≠ j → s[i] = s'[i] := by
  refine ⟨Vector.replicate 13 0, (Vector.replicate 13 0).set 1 1, 1, by decide, by simp, ?_⟩
  intro i hi
  have : 1 ≠ i.1 := fun h => hi (Fin.ext h.symm)
  simp [this]

/-- **C25 is false of the code**: the permutation is neither injective nor surjective. -/
theorem C25_not_bijective :
    ¬ Function.Injective (permute (key (F := F))) ∧ ¬ Function.Surjective (permute (key (F := F))) := by
  constructor
  · intro h
    have := h (permute_congr (s := Vector.replicate M (0 : F)) (t := (Vector.replicate M 0).set 0 1) (by
      intro i hi
      simp [Ne.symm hi]))
    have := congrArg (fun v : Vector F M => v[0]) this
    simp at this
  · intro h
    obtain ⟨s, hs⟩ := h ((Vector.replicate M (0 : F)).set 2 1)
    obtain ⟨t, ht⟩ := permute_line s
    rw [hs] at ht
    have h0 := ht 0
    have h1 := ht 1
    simp at h0 h1
    have : t = 0 := by linear_combination h0 - h1
    subst this
    simp at h0

/-- **C25, exact extent of the failure**: the whole image lies on one line of the 13-dimensional
space. -/
theorem C25_image_is_a_line (s : Vector F 13) :
    ∃ t : F, ∀ i : Fin 13, (permute key s)[i] = (i.1 + 1 : F) * t + 1 := permute_line s

/-- **C25, the part that holds**: the power maps and the key additions, hence everything but the
matrix, are bijections of the state.  Missing: the matrix layer, which is not. -/
theorem C25_partial (r : ℕ) (k : Vector F 13) :
    Function.Bijective (sbox (F := F) r) ∧ Function.Bijective fun s => addVec s k := by
  refine ⟨⟨?_, ?_⟩, ?_, ?_⟩
  · intro s t h
    apply vec_ext
    intro i
    have := congrArg (fun v : Vector F M => v[i]) h
    simp only [sbox_get] at this
    exact pow_injective r _ _ this
  · intro t
    choose f hf using pow_surjective (F := F) r
    refine ⟨t.map f, ?_⟩
    apply vec_ext
    intro i
    rw [sbox_get, ← hf t[i]]
    simp [hf]
  · intro s t h
    apply vec_ext
    intro i
    have := congrArg (fun v : Vector F M => v[i]) h
    simp only [addVec_get] at this
    exact add_right_cancel this
  · intro t
    refine ⟨Vector.ofFn fun i => t[i] - k[i], ?_⟩
    apply vec_ext
    intro i
    simp [addVec]

end Halo
