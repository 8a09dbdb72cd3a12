import Verif.Props.Rescue
/-!
# Collisions of the Rescue sponge (C70)
-/
namespace Halo
open Rescue SpongeSpec
variable {F : Type} [Field F] [LawfulField F]

theorem permute_of_trace {s t : Vector F M} (h : trace (sbox 0 (addVec s (key 0))) = trace (sbox 0 (addVec t (key 0)))) :
    permute key s = permute key t := by
  unfold permute
  rw [show 2 * rounds = 19 + 1 from rfl, List.range_succ_eq_map, List.foldl_cons, List.foldl_cons]
  have hm : mds (sbox 0 (addVec s (key 0))) = mds (sbox 0 (addVec t (key 0))) := by
    apply vec_ext
    intro i
    rw [mds_eq, mds_eq, h]
  rw [hm]

theorem cast_ne_zero {j : Fin 13} (hj : j.1 ≠ 0) : (j.1 : F) ≠ 0 := by
  intro hz
  have hc := LawfulField.charP (F := F)
  have hd := (CharP.cast_eq_zero_iff F (FieldApi.modulus F) j.1).1 hz
  have hb := (LawfulField.modulus_bound (F := F)).1
  have h13 : j.1 < 13 := j.2
  exact absurd (Nat.le_of_dvd (Nat.pos_of_ne_zero hj) hd) (by
    have : (13 : ℕ) ≤ 2 ^ 254 := by norm_num
    omega)

/-- **C70**, the permutation: for every state `s`, every state `s'` and every position other than the first, this element at
that position gives `s'` the same image as `s`. -/
theorem C70_permutation (s s' : Vector F 13) (j : Fin 13) (hj : j.1 ≠ 0) :
    let root := fun x : F => x ^ FieldApi.rescueInvAlpha F
    let k := key (F := F) 0
    permute key (s'.set j
      (((∑ i : Fin 13, (i.1 : F) * root (s[i] + k[i]) -
        ∑ i ∈ Finset.univ.erase j, (i.1 : F) * root (s'[i] + k[i])) / (j.1 : F)) ^ 5 - k[j])) = permute key s := by
  intro root k
  apply permute_of_trace
  unfold trace
  rw [← Finset.add_sum_erase _ _ (Finset.mem_univ j)]
  have e1 : ∀ i : Fin 13, (i.1 : F) * (sbox 0 (addVec s (key 0)))[i] = (i.1 : F) * root (s[i] + k[i]) := fun i => by
    rw [sbox_get, addVec_get]; rfl
  have e2 : ∀ (x : F), ∀ i ∈ Finset.univ.erase j, (i.1 : F) * (sbox 0 (addVec (s'.set j x) (key 0)))[i] =
      (i.1 : F) * root (s'[i] + k[i]) := fun x i hi => by
    have : j.1 ≠ i.1 := fun h => (Finset.ne_of_mem_erase hi) (Fin.ext h.symm)
    rw [sbox_get, addVec_get]
    simp [this, root, k]
  have e3 : ∀ x : F, (sbox 0 (addVec (s'.set j (x ^ 5 - k[j])) (key 0)))[j] = x := fun x => by
    rw [sbox_get, addVec_get]
    simp only [Nat.zero_mod, if_true]
    have : (s'.set j (x ^ 5 - k[j]))[j] + (key (F := F) 0)[j] = x ^ 5 := by simp [k]
    rw [this]
    exact LawfulField.invAlpha x
  rw [Finset.sum_congr rfl (e2 _), Finset.sum_congr rfl fun i _ => e1 i, e3,
    mul_div_cancel₀ _ (cast_ne_zero hj), sub_add_cancel]

/-- **C70**, the part that holds: no other element at that position gives the same state after the first half round.
Missing: the following nineteen half rounds, in which other states may meet. -/
theorem C70_partial (s s' : Vector F 13) (j : Fin 13) (hj : j.1 ≠ 0) :
    ∃! x : F, addVec (mds (sbox 0 (addVec (s'.set j x) (key 0)))) (key 1) = addVec (mds (sbox 0 (addVec s (key 0)))) (key 1) := by
  obtain ⟨f, hf⟩ : ∃ f : F → F, ∀ x, trace (sbox 0 (addVec (s'.set j x) (key 0))) =
      (j.1 : F) * (x + (key (F := F) 0)[j]) ^ FieldApi.rescueInvAlpha F + f 0 := by
    refine ⟨fun _ => ∑ i ∈ Finset.univ.erase j, (i.1 : F) * (s'[i] + (key (F := F) 0)[i]) ^ FieldApi.rescueInvAlpha F,
      fun x => ?_⟩
    unfold trace
    rw [← Finset.add_sum_erase _ _ (Finset.mem_univ j)]
    congr 1
    · rw [sbox_get, addVec_get]; simp
    · refine Finset.sum_congr rfl fun i hi => ?_
      have : j.1 ≠ i.1 := fun h => (Finset.ne_of_mem_erase hi) (Fin.ext h.symm)
      rw [sbox_get, addVec_get]
      simp [this]
  have same : ∀ t t' : Vector F M, addVec (mds t) (key 1) = addVec (mds t') (key 1) ↔ trace t = trace t' := by
    refine fun t t' => ⟨fun h => ?_, fun h => vec_ext fun i => by rw [addVec_get, addVec_get, mds_eq, mds_eq, h]⟩
    have := congrArg (fun v : Vector F M => v[(0 : Fin M)]) h
    simp only [addVec_get, mds_eq] at this
    simpa using this
  simp only [same, hf]
  set c := trace (sbox 0 (addVec s (key 0)))
  refine ⟨((c - f 0) / (j.1 : F)) ^ 5 - (key (F := F) 0)[j], ?_, fun y hy => ?_⟩
  · simp only [sub_add_cancel]
    rw [show (((c - f 0) / (j.1 : F)) ^ 5) ^ FieldApi.rescueInvAlpha F = (c - f 0) / (j.1 : F) from LawfulField.invAlpha _,
      mul_div_cancel₀ _ (cast_ne_zero hj), sub_add_cancel]
  · simp only at hy
    have e : (y + (key (F := F) 0)[j]) ^ FieldApi.rescueInvAlpha F = (c - f 0) / (j.1 : F) := by
      rw [← hy, add_sub_cancel_right, mul_div_cancel_left₀ _ (cast_ne_zero hj)]
    rw [← e, ← pow_mul, mul_comm, pow_mul, LawfulField.invAlpha, add_sub_cancel_right]

/-- hypotheses of `C70_permutation` and `C70_partial` -/
example : (⟨7, by norm_num⟩ : Fin 13).1 ≠ 0 := by decide

/-- For every target there is a value, at every position but the first of a block. -/
theorem dup_collide (s u : Vector F M) (b zs : List F) (hb : b ≠ []) (hl : b.length + 1 + zs.length ≤ 12) :
    ∃ v, dup s (b ++ v :: zs) = permute key u := by
  have hj : b.length < 13 := by omega
  have hb0 : (⟨b.length, hj⟩ : Fin 13).1 ≠ 0 := by simpa using hb
  have h := C70_permutation u (Vector.ofFn fun i => if i.1 < rate then s[i] + (b ++ (0 : F) :: zs).getD i 1 else s[i])
    ⟨b.length, hj⟩ hb0
  simp only at h
  set x := (_ : F) ^ 5 - _ with hx
  refine ⟨x - s[b.length], ?_⟩
  rw [← h]
  unfold dup
  congr 1
  apply vec_ext
  intro i
  simp only [Fin.getElem_fin, Vector.getElem_ofFn, Vector.getElem_set]
  by_cases hi : b.length = i.1
  · simp only [← hi]
    rw [if_pos (by simp only [rate]; omega)]
    simp
  · rw [if_neg hi]
    by_cases h12 : i.1 < rate
    · rw [if_pos h12, if_pos h12]
      congr 1
      simp only [List.getD, List.getElem?_append]
      split
      · rfl
      · obtain ⟨m, hm⟩ := Nat.exists_eq_succ_of_ne_zero (show i.1 - b.length ≠ 0 by omega)
        rw [hm]
        rfl
    · rw [if_neg h12, if_neg h12]

theorem absorbAll_split (s : Vector F M) (ys : List F) (h : ys.length % 12 ≠ 0) :
    ∃ s' b, b.length = ys.length % 12 ∧ ∀ zs : List F, b.length + zs.length ≤ 12 →
      absorbAll dup s (ys ++ zs) = dup s' (b ++ zs) := by
  induction hn : ys.length using Nat.strong_induction_on generalizing s ys with
  | _ n ih =>
    by_cases hle : ys.length ≤ 12
    · have : ys.length ≠ 12 := fun e => by simp [e] at h
      refine ⟨s, ys, by omega, fun zs hz => ?_⟩
      rw [absorbAll.eq_def, if_pos (by simp; omega)]
    · obtain ⟨s', b, h1, h2⟩ := ih (ys.drop 12).length (by simp; omega) (dup s (ys.take 12)) (ys.drop 12)
        (by simp; omega) rfl
      refine ⟨s', b, by rw [h1]; simp; omega, fun zs hz => ?_⟩
      rw [absorbAll.eq_def, if_neg (by simp; omega), List.take_append_of_le_length (by omega),
        List.drop_append_of_le_length (by omega), h2 zs hz]

theorem absorbAll_image (s : Vector F M) (xs : List F) : ∃ u, absorbAll dup s xs = permute key u := by
  induction hn : xs.length using Nat.strong_induction_on generalizing s xs with
  | _ n ih =>
    rw [absorbAll.eq_def]
    split
    · exact ⟨_, rfl⟩
    · exact ih (xs.drop 12).length (by simp; omega) _ _ rfl

/-- What the sponge holds after a history that is empty or ends with a squeeze, then some absorptions and a squeeze. -/
theorem run_block {cs : List (Call F)} (h : cs = [] ∨ ∃ cs', cs = cs' ++ [.squeeze]) :
    ∃ s : Vector F M, ∀ xs : List F, xs ≠ [] → ∃ es, St.run (cs ++ xs.map .absorb ++ [.squeeze])
        (.absorbing (Vector.replicate M (0 : F)) []) =
      (es ++ [out (absorbAll dup s xs) 0], .squeezing (absorbAll dup s xs) 1) := by
  rcases h with rfl | ⟨cs', rfl⟩
  · refine ⟨Vector.replicate M 0, fun xs _ => ⟨[], ?_⟩⟩
    have := phase_absorbing (Vector.replicate M (0 : F)) [] xs (by simp) 0
    simpa [phaseCalls, stream] using this
  · obtain ⟨s, k, hs⟩ := St.squeeze_squeezing (St.run cs' (.absorbing (Vector.replicate M (0 : F)) [])).2
    refine ⟨s, fun xs hx => ⟨(St.run (cs' ++ [.squeeze]) (.absorbing (Vector.replicate M (0 : F)) [])).1, ?_⟩⟩
    obtain ⟨x, xs, rfl⟩ := List.exists_cons_of_ne_nil hx
    rw [List.append_assoc, St.run_append]
    have e : (St.run (cs' ++ [.squeeze]) (.absorbing (Vector.replicate M (0 : F)) [])).2 = .squeezing s k := by
      rw [St.run_append]
      simp only [St.run, hs]
    rw [e]
    have := phase_absorbing s [x] xs (by simp) 0
    simp only [phaseCalls, zero_add, List.replicate_one] at this
    simp only [List.map_cons, List.cons_append, St.run, St.absorb, this]
    simp [stream]

/-- **C70.** Take any history of calls `cs` that is empty or ends with a squeeze, and any message `xs`. Take any other such
history `cs'`, and any message around a gap, `ys` before it and `zs` after it, where the gap is in the last block, but is not
its first element. The gap can be filled so that the sponges cannot be told apart afterwards: the values squeezed next are the
same, and so are all outputs of every continuation. -/
theorem C70_collision {cs cs' : List (Call F)} (h : cs = [] ∨ ∃ ds, cs = ds ++ [.squeeze])
    (h' : cs' = [] ∨ ∃ ds, cs' = ds ++ [.squeeze]) {xs : List F} (hxs : xs ≠ []) {ys zs : List F}
    (hys : ys.length % 12 ≠ 0) (hzs : ys.length % 12 + 1 + zs.length ≤ 12) :
    ∃ v : F, ∃ (es es' : List F) (e : F) (r r' : Rescue F),
      run (cs ++ xs.map .absorb ++ [.squeeze]) new = some (es ++ [e], r) ∧
      run (cs' ++ (ys ++ v :: zs).map .absorb ++ [.squeeze]) new = some (es' ++ [e], r') ∧
      ∀ ds, (run ds r).map Prod.fst = (run ds r').map Prod.fst := by
  obtain ⟨s, hs⟩ := run_block h
  obtain ⟨s', hs'⟩ := run_block h'
  obtain ⟨s1, b, hb1, hb2⟩ := absorbAll_split s' ys hys
  obtain ⟨u, hu⟩ := absorbAll_image s xs
  obtain ⟨v, hv⟩ := dup_collide s1 u b zs (by rintro rfl; simp at hb1; omega) (by omega)
  obtain ⟨es, he⟩ := hs xs hxs
  obtain ⟨es', he'⟩ := hs' (ys ++ v :: zs) (by simp)
  rw [hb2 (v :: zs) (by simp; omega), hv, ← hu] at he'
  obtain ⟨r, hr, hR⟩ := run_rel (cs ++ xs.map .absorb ++ [.squeeze]) (rel_new (F := F))
  obtain ⟨r', hr', hR'⟩ := run_rel (cs' ++ (ys ++ v :: zs).map .absorb ++ [.squeeze]) (rel_new (F := F))
  rw [he] at hr hR
  rw [he'] at hr' hR'
  refine ⟨v, es, es', _, r, r', hr, hr', fun ds => ?_⟩
  obtain ⟨r1, h1, -⟩ := run_rel ds hR
  obtain ⟨r2, h2, -⟩ := run_rel ds hR'
  rw [h1, h2]
  rfl

/-- two histories, of which the second has an output already, and messages of 13 and 4 elements -/
example : ∃ v e : Fp, ∃ es es' r r', run (([] : List (Call Fp)) ++
      (List.replicate 13 (5 : Fp)).map Call.absorb ++ [.squeeze]) new = some (es ++ [e], r) ∧
    run ([Call.absorb (3 : Fp), .squeeze] ++ ([(8 : Fp)] ++ v :: [9, 10]).map Call.absorb ++ [.squeeze]) new =
      some (es' ++ [e], r') := by
  obtain ⟨v, es, es', e, r, r', h1, h2, -⟩ := C70_collision (cs := ([] : List (Call Fp))) (Or.inl rfl)
    (cs' := [Call.absorb (3 : Fp), .squeeze]) (Or.inr ⟨[Call.absorb 3], rfl⟩) (xs := List.replicate 13 (5 : Fp)) (by simp)
    (ys := [8]) (zs := [9, 10]) (by simp) (by simp)
  exact ⟨v, e, es, es', r, r', h1, h2⟩

theorem run_append (cs ds : List (Call F)) (r : Rescue F) : run (cs ++ ds) r = (run cs r).bind fun q =>
    (run ds q.2).map fun q' => (q.1 ++ q'.1, q'.2) := by
  induction cs generalizing r with
  | nil => cases h : run ds r <;> simp [run, h]
  | cons c cs ih =>
    cases c with
    | absorb v => exact ih _
    | squeeze =>
      simp only [List.cons_append, run, ih, Option.bind_eq_bind]
      cases squeeze r with
      | none => rfl
      | some q =>
        simp only [Option.bind_some]
        cases run cs q.2 with
        | none => rfl
        | some q =>
          simp only [Option.bind_some]
          cases run ds q.2 <;> rfl

/-- **C70**, the property is false: there are two different messages, which differ in an element that is not ignored, after which
the outputs are the same forever. -/
theorem C70_not_collision_resistant : ∃ xs xs' : List F, xs.length = 3 ∧ xs'.length = 3 ∧ xs.getD 2 0 ≠ xs'.getD 2 0 ∧
    ∀ ds, (run (xs.map .absorb ++ .squeeze :: ds) new).map Prod.fst =
      (run (xs'.map .absorb ++ .squeeze :: ds) new).map Prod.fst := by
  obtain ⟨v, es, es', e, r, r', h1, h2, h3⟩ := C70_collision (cs := ([] : List (Call F))) (Or.inl rfl)
    (cs' := []) (Or.inl rfl) (xs := [0, 0, 0]) (by simp) (ys := [0]) (zs := [1]) (by simp) (by simp)
  refine ⟨[0, 0, 0], [0, v, 1], rfl, rfl, by simp, fun ds => ?_⟩
  have len : ∀ {xs es : List F} {r : Rescue F}, run (xs.map Call.absorb ++ [Call.squeeze]) new = some (es ++ [e], r) →
      es = [] := by
    intro xs es r h
    obtain ⟨r1, h4, -⟩ := run_rel (xs.map Call.absorb ++ [Call.squeeze]) (rel_new (F := F))
    have := congrArg List.length (congrArg Prod.fst (Option.some.inj (h.symm.trans h4)))
    rw [St.run_append, St.run_absorbs] at this
    simpa [St.run] using this
  obtain rfl := len h1
  obtain rfl := len h2
  have split : ∀ (xs : List F), xs.map Call.absorb ++ .squeeze :: ds = (xs.map Call.absorb ++ [.squeeze]) ++ ds := by simp
  have h1 : run (([0, 0, 0] : List F).map Call.absorb ++ [.squeeze]) new = some ([] ++ [e], r) := h1
  have h2 : run (([0, v, 1] : List F).map Call.absorb ++ [.squeeze]) new = some ([] ++ [e], r') := h2
  rw [split, split, run_append _ ds, run_append _ ds, h1, h2]
  have := h3 ds
  simp only [Option.bind_some]
  cases h4 : run ds r <;> cases h5 : run ds r' <;> simp_all

end Halo
