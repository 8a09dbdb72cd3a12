import Verif.Lemmas.Cost.Ecc
/-!
# The size of the Rescue gadget

The S-boxes of constants cost nothing. This is why the first permutation, on a state in which the capacity is constant, has one
S-box less than the others, and why the key schedule is free.
-/
namespace Halo
namespace Circuit
open Sha256 (foldProg index)
variable {F : Type} [Field F]

namespace Combination

theorem anyAllocated_addNum (c : Combination F) (n : Num F) :
    (c.addNum n).anyAllocated = (c.anyAllocated || !n.isConstant) := by
  simp [anyAllocated, addNum]

theorem anyAllocated_ofNum (n : Num F) : (ofNum n).anyAllocated = !n.isConstant := by
  simp [anyAllocated, ofNum]

theorem anyAllocated_addScaled (c : Combination F) (k : Coeff F) (n : Num F) :
    (c.addScaled k n).anyAllocated = (c.anyAllocated || !n.isConstant) := by
  have : (n.scaled k).isConstant = n.isConstant := by cases n <;> rfl
  simp [anyAllocated, addScaled, this]

omit [Field F] in
theorem anyAllocated_ofAllocated (n : AllocatedNum F) : (ofAllocated n).anyAllocated = true := rfl

theorem costs_rescueAlpha {one : Var} {c : Combination F} :
    Costs (c.rescueAlpha one) 0 (3 * c.anyAllocated.toNat) (6 * c.anyAllocated.toNat) fun n =>
      n.isConstant = !c.anyAllocated := by
  unfold rescueAlpha
  cases h : c.anyAllocated
  · simp only [Bool.false_eq_true, if_false]
    split
    · exact costs_pure rfl
    · exact costs_throw
  · simp only [if_true]
    exact Costs.then AllocatedNum.costs_rescueAlpha fun _ _ => costs_pure (R := fun n : Num F => n.isConstant = !true) rfl

theorem costs_rescueInvalpha [FieldApi F] {one : Var} {c : Combination F} :
    Costs (c.rescueInvalpha one) 0 (3 * c.anyAllocated.toNat) (6 * c.anyAllocated.toNat) fun n =>
      n.isConstant = !c.anyAllocated := by
  unfold rescueInvalpha
  cases h : c.anyAllocated
  · simp only [Bool.false_eq_true, if_false]
    split
    · exact costs_pure rfl
    · exact costs_throw
  · simp only [if_true]
    exact Costs.then AllocatedNum.costs_rescueInvalpha fun _ _ => costs_pure (R := fun n : Num F => n.isConstant = !true) rfl

theorem costs_evaluate_constant {one : Var} {c : Combination F} (h : c.anyAllocated = false) :
    Costs (c.evaluate one) 0 0 0 fun n => n.isConstant = true := by
  unfold evaluate
  rw [if_neg (by simp [h])]
  split
  · exact costs_pure rfl
  · exact costs_throw

end Combination

namespace RescueGadget
variable {one : Var}

/-- All entries of a list of thirteen are allocated, or all are constant. -/
def Full (b : Bool) (state : List (Combination F)) : Prop := state.length = 13 ∧ ∀ c ∈ state, c.anyAllocated = b

/-- A key of constants -/
def Key (key : List (Num F)) : Prop := key.length = 13 ∧ ∀ n ∈ key, n.isConstant = true

theorem costs_sboxes [FieldApi F] {r : ℕ} : ∀ {state : List (Combination F)},
    Costs (sboxes one r state) 0 (3 * state.countP (·.anyAllocated)) (6 * state.countP (·.anyAllocated)) fun mid =>
      mid.length = state.length ∧ mid.any (!·.isConstant) = state.any (·.anyAllocated)
  | [] => costs_pure ⟨rfl, rfl⟩
  | c :: state => by
    unfold sboxes mapProg
    refine (Costs.then (p := if r % 2 = 0 then c.rescueInvalpha one else c.rescueAlpha one)
      (a := 0) (m := 3 * c.anyAllocated.toNat) (l := 6 * c.anyAllocated.toNat)
      (R := fun n : Num F => n.isConstant = !c.anyAllocated) ?_ fun n hn => Costs.then
      (costs_sboxes (r := r) (state := state)) fun mid hm => costs_pure (R := fun mid : List (Num F) =>
        mid.length = (c :: state).length ∧ mid.any (!·.isConstant) = (c :: state).any (·.anyAllocated)) ?_).eq ?_ ?_ ?_
    · split
      · exact Combination.costs_rescueInvalpha
      · exact Combination.costs_rescueAlpha
    · simp [hm.1, hm.2, hn]
    · rfl
    all_goals
      rw [List.countP_cons]
      cases c.anyAllocated <;> simp [Nat.mul_add, Nat.add_comm]

theorem anyAllocated_rowSum_from : ∀ {row : List F} {mid : List (Num F)} (acc : Combination F), mid.length ≤ row.length →
    ((row.zip mid).foldl (fun sum t => sum.addScaled (.full t.1) t.2) acc).anyAllocated =
      (acc.anyAllocated || mid.any (!·.isConstant))
  | _, [], acc, _ => by simp
  | [], n :: mid, acc, h => by simp at h
  | x :: row, n :: mid, acc, h => by
    rw [List.zip_cons_cons, List.foldl_cons, anyAllocated_rowSum_from _ (by simpa using h),
      Combination.anyAllocated_addScaled, List.any_cons, Bool.or_assoc]

theorem mixed_full [FieldApi F] {mid keys : List (Num F)} (hm : mid.length = 13) (hk : Key keys) :
    Full (mid.any (!·.isConstant)) (mixed mid keys) := by
  unfold mixed
  refine ⟨by simp [hk.1, mdsMatrix], fun c hc => ?_⟩
  obtain ⟨t, ht, rfl⟩ := List.mem_map.1 hc
  have h1 := List.of_mem_zip ht
  obtain ⟨i, -, hi⟩ := List.mem_map.1 h1.1
  rw [Combination.anyAllocated_addNum, hk.2 _ h1.2, rowSum, anyAllocated_rowSum_from _ (by rw [hm, ← hi]; simp),
    Combination.anyAllocated_ofNum]
  simp [Num.const, Num.isConstant]

omit [Field F] in
theorem Full.count {b : Bool} {state : List (Combination F)} (h : Full b state) :
    state.countP (·.anyAllocated) = 13 * b.toNat ∧ state.any (·.anyAllocated) = b := by
  obtain ⟨h1, h2⟩ := h
  cases b
  · refine ⟨List.countP_eq_zero.2 fun c hc => by simp [h2 c hc], ?_⟩
    simpa using h2
  · refine ⟨by rw [List.countP_eq_length.2 fun c hc => h2 c hc, h1]; rfl, ?_⟩
    rw [List.any_eq_true]
    cases state with
    | nil => cases h1
    | cons c _ => exact ⟨c, by simp, h2 c (by simp)⟩

variable [FieldApi F]

theorem costs_round {ks : List (List (Num F))} (hks : ∀ k ∈ ks, Key k) {r n : ℕ} {b : Bool} {state : List (Combination F)}
    (hl : state.length = 13) (hn : state.countP (·.anyAllocated) = n) (hb : state.any (·.anyAllocated) = b) :
    Costs (do
      let mid ← sboxes one r state
      let key ← index ks (r + 1)
      return mixed mid key) 0 (3 * n) (6 * n) (Full b) := by
  subst hn
  exact Costs.then costs_sboxes fun mid hm => Costs.then (costs_index hks) fun key hk =>
    costs_pure (by have := mixed_full (hm.1.trans hl) hk; rwa [hm.2, hb] at this)

omit [FieldApi F] in
theorem zipWith_addNum {key : List (Num F)} (hk : ∀ n ∈ key, n.isConstant = true) :
    ∀ {state : List (Combination F)}, state.length = key.length →
      (List.zipWith Combination.addNum state key).map (·.anyAllocated) = state.map (·.anyAllocated) := by
  induction key with
  | nil =>
    intro state h
    rw [List.length_nil, List.length_eq_zero_iff] at h
    subst h
    rfl
  | cons n key ih =>
    intro state h
    cases state with
    | nil => rfl
    | cons c state =>
      simp only [List.zipWith_cons_cons, List.map_cons, Combination.anyAllocated_addNum, hk n (by simp)]
      rw [ih (fun m hm => hk m (by simp [hm])) (by simpa using h)]
      simp

theorem costs_rescueF {ks : List (List (Num F))} (hks : ∀ k ∈ ks, Key k) {n : ℕ} {state : List (Combination F)}
    (hl : state.length = 13) (hn : state.countP (·.anyAllocated) = n) (h0 : 0 < n) :
    Costs (rescueF one ks state) 0 (3 * (n + 247)) (6 * (n + 247)) (Full true) := by
  unfold rescueF
  refine Costs.free (costs_index hks) fun key hk => ?_
  have hz := zipWith_addNum hk.2 (hl.trans hk.1.symm)
  have h1 : (List.zipWith Combination.addNum state key).length = 13 := by simp [hl, hk.1]
  have h2 : (List.zipWith Combination.addNum state key).countP (·.anyAllocated) = n := by
    have := congrArg (List.countP id) hz
    rw [List.countP_map, List.countP_map] at this
    exact this.trans hn
  have h3 : (List.zipWith Combination.addNum state key).any (·.anyAllocated) = true := by
    rw [← h2, List.countP_pos_iff] at h0
    obtain ⟨c, hc, hc'⟩ := h0
    exact List.any_eq_true.2 ⟨c, hc, hc'⟩
  have hr : List.range (2 * Rescue.rounds) = 0 :: (List.range 19).map Nat.succ := List.range_succ_eq_map
  rw [hr]
  refine (Costs.then (costs_round hks h1 h2 h3) fun st hst => costs_foldProg (R := Full true)
    (fun st _ _ hst => costs_round (n := 13) hks hst.1 hst.count.1 hst.count.2) hst).eq ?_ ?_ ?_
  all_goals simp only [List.length_map, List.length_range]; try ring

omit [Field F] [FieldApi F] in
theorem replicate_key (x : F) : Key (List.replicate Rescue.M (.const x : Num F)) :=
  ⟨by simp, fun n hn => by rw [List.eq_of_mem_replicate hn]; rfl⟩

omit [FieldApi F] in
theorem costs_evaluateAll {state : List (Combination F)} (h : Full false state) :
    Costs (mapProg (fun c => Combination.evaluate one c) state) 0 0 0 Key :=
  ((costs_mapProg fun c hc => Combination.costs_evaluate_constant (h.2 c hc)).weaken fun ns hns =>
    (⟨hns.1.trans h.1, hns.2⟩ : Key ns)).eq (by simp) (by simp) (by simp)

omit [FieldApi F] in
theorem zipWith_full {as bs : List (Num F)} (ha : Key as) (hb : Key bs) :
    Full false (List.zipWith (fun e k => (Combination.ofNum e).addNum k) as bs) := by
  refine ⟨by simp [ha.1, hb.1], fun c hc => ?_⟩
  rw [← List.map_uncurry_zip_eq_zipWith] at hc
  obtain ⟨⟨a, b⟩, h, rfl⟩ := List.mem_map.1 hc
  have h := List.of_mem_zip h
  rw [Function.uncurry_apply_pair, Combination.anyAllocated_addNum, Combination.anyAllocated_ofNum, ha.2 _ h.1, hb.2 _ h.2]
  rfl

theorem costs_generateKeySchedule {master : List (Num F)} (hm : Key master) :
    Costs (generateKeySchedule one master) 0 0 0 fun ks => ∀ k ∈ ks, Key k := by
  unfold generateKeySchedule
  have hc := replicate_key (1 : F)
  generalize List.replicate Rescue.M (Num.const (1 : F)) = constants at hc ⊢
  have h0 := zipWith_full hm hc
  refine Costs.free (costs_evaluateAll h0) fun key0 hk0 => ?_
  refine Costs.free (R := fun s : List (Combination F) × List (List (Num F)) => Full false s.1 ∧ ∀ k ∈ s.2, Key k)
    ((costs_foldProg (a := 0) (m := 0) (l := 0) ?_ ?_).eq (by simp) (by simp) (by simp)) fun ⟨_, _⟩ hs => costs_pure hs.2
  · rintro ⟨st, ks⟩ r - ⟨hst, hks⟩
    refine Costs.free (costs_sboxes.eq (a' := 0) (m' := 0) (l' := 0) rfl (by rw [hst.count.1]; rfl)
      (by rw [hst.count.1]; rfl)) fun mid hm => ?_
    have hf : Full false (mixed mid constants) := by
      have := mixed_full (hm.1.trans hst.1) hc
      rwa [hm.2, hst.count.2] at this
    refine Costs.free (costs_evaluateAll hf) fun key hk => costs_pure ⟨hf, fun k hk' => ?_⟩
    rcases List.mem_append.1 hk' with h | h
    · exact hks k h
    · rw [List.mem_singleton.1 h]; exact hk
  · exact ⟨h0, fun k hk => by rw [List.mem_singleton.1 hk]; exact hk0⟩

/-- All values that have been absorbed are allocated. -/
def Inputs (n : ℕ) (input : List (Option (Num F))) : Prop :=
  ∃ vs : List (Num F), vs.length = n ∧ n ≤ 12 ∧ (∀ v ∈ vs, v.isConstant = false) ∧
    input = vs.map some ++ List.replicate (12 - n) none

omit [FieldApi F] in
theorem costs_pad {n : ℕ} {input : List (Option (Num F))} (h : Inputs n input) :
    Costs (pad one input) 1 0 1 fun ns => ns.length = 12 ∧ ∀ v ∈ ns, v.isConstant = false := by
  unfold pad
  obtain ⟨vs, h1, h2, h3, rfl⟩ := h
  refine Costs.then AllocatedNum.costs_alloc fun a _ => Costs.then costs_enforce fun _ _ => costs_pure ⟨?_, ?_⟩
  · simp [h1, h2]
  · intro v hv
    obtain ⟨e, he, rfl⟩ := List.mem_map.1 hv
    cases e with
    | none => rfl
    | some e =>
      rcases List.mem_append.1 he with he | he
      · obtain ⟨v, hv, hv'⟩ := List.mem_map.1 he
        cases hv'
        exact h3 _ hv
      · cases List.eq_of_mem_replicate he

omit [FieldApi F] in
theorem addFirst_length : ∀ (st : List (Combination F)) (ns : List (Num F)), (addFirst st ns).length = st.length
  | [], ns => by cases ns <;> rfl
  | e :: es, [] => rfl
  | e :: es, n :: ns => by simp [addFirst, addFirst_length es ns]

omit [FieldApi F] in
theorem addFirst_count : ∀ (st : List (Combination F)) (ns : List (Num F)), (∀ v ∈ ns, v.isConstant = false) →
    ns.length ≤ st.length →
    (addFirst st ns).countP (·.anyAllocated) = ns.length + (st.drop ns.length).countP (·.anyAllocated)
  | st, [], _, _ => by cases st <;> simp [addFirst]
  | [], n :: ns, _, h => by simp at h
  | e :: es, n :: ns, hv, h => by
    simp only [addFirst, List.countP_cons, Combination.anyAllocated_addNum, hv n (by simp), List.length_cons,
      List.drop_succ_cons]
    rw [addFirst_count es ns (fun v h => hv v (by simp [h])) (by simpa using h)]
    simp
    omega

theorem costs_duplex {ks : List (List (Num F))} (hks : ∀ k ∈ ks, Key k) {b : Bool} {state : List (Combination F)}
    (hst : Full b state) {n : ℕ} {input : List (Option (Num F))} (hi : Inputs n input) :
    Costs (duplex one ks state input) 1 (777 + 3 * b.toNat) (1555 + 6 * b.toNat) (Full true) := by
  unfold duplex
  refine (Costs.then (costs_pad hi) fun ns hns => costs_rescueF (n := 12 + b.toNat) hks
    ((addFirst_length _ _).trans hst.1) ?_ (by omega)).eq rfl ?_ ?_
  · rw [addFirst_count _ _ hns.2 (by rw [hns.1, hst.1]; omega), hns.1]
    congr 1
    have hd : (state.drop 12).length = 1 := by simp [hst.1]
    obtain ⟨c, hc⟩ := List.length_eq_one_iff.1 hd
    have := hst.2 c (List.mem_of_mem_drop (by rw [hc]; simp))
    rw [hc]
    cases b <;> simp [this]
  all_goals ring

/-- The sponge, after it has absorbed `n` values since the last permutation or squeezed value; `b` is whether it has been permuted -/
structure At (b : Bool) (n : ℕ) (g : RescueGadget F) : Prop where
  keys : ∀ k ∈ g.keySchedule, Key k
  state : Full b g.state
  sponge : (∃ input, g.sponge = .absorbing input ∧ Inputs n input) ∨ n = 0 ∧ ∃ out, g.sponge = .squeezing out

theorem costs_new : Costs (new one : Prog F _) 0 0 0 (At false 0) := by
  unfold new
  have hk := replicate_key (0 : F)
  generalize List.replicate Rescue.M (Num.const (0 : F)) = master at hk ⊢
  have hf : Full false (List.replicate Rescue.M (Combination.ofNum (Num.const (0 : F)))) :=
    ⟨List.length_replicate, fun c hc => by rw [List.eq_of_mem_replicate hc]; rfl⟩
  generalize List.replicate Rescue.M (Combination.ofNum (Num.const (0 : F))) = state at hf ⊢
  exact Costs.free (costs_generateKeySchedule hk) fun ks hks => costs_pure ⟨hks, hf, .inl ⟨_, rfl, [], rfl, by omega, nofun, rfl⟩⟩

omit [Field F] [FieldApi F] in
theorem fillFirst_map (val : Num F) : ∀ (vs : List (Num F)) (l : List (Option (Num F))),
    fillFirst val (vs.map some ++ l) = (fillFirst val l).map (vs.map some ++ ·)
  | [], l => by simp
  | v :: vs, l => by
    simp only [List.map_cons, List.cons_append, fillFirst, fillFirst_map val vs l, Option.map_map]
    rfl

omit [Field F] [FieldApi F] in
theorem inputs_one {val : Num F} (h : val.isConstant = false) :
    Inputs 1 ((List.replicate Rescue.rate none).set 0 (some val)) :=
  ⟨[val], rfl, by omega, by simpa using h, rfl⟩

theorem costs_absorb {b : Bool} {n : ℕ} {g : RescueGadget F} (h : At b n g) (hn : n < 12) {val : Num F}
    (hv : val.isConstant = false) : Costs (g.absorb one val) 0 0 0 (At b (n + 1)) := by
  unfold absorb
  obtain ⟨input, hs, vs, h1, h2, h3, rfl⟩ | ⟨rfl, out, hs⟩ := h.sponge
  · rw [hs]
    obtain ⟨k, hk⟩ : ∃ k, 12 - n = k + 1 := ⟨11 - n, by omega⟩
    simp only [fillFirst_map, hk, List.replicate_succ, fillFirst, Option.map_some]
    refine costs_pure ⟨h.keys, h.state, .inl ⟨_, rfl, vs ++ [val], by simp [h1], hn, ?_, ?_⟩⟩
    · intro v hv'
      rcases List.mem_append.1 hv' with h | h
      · exact h3 v h
      · rw [List.mem_singleton.1 h]; exact hv
    · rw [show 12 - (n + 1) = k by omega]
      simp
  · rw [hs]
    exact costs_pure ⟨h.keys, h.state, .inl ⟨_, rfl, inputs_one hv⟩⟩

theorem costs_absorb_full {b : Bool} {g : RescueGadget F} (h : At b 12 g) {val : Num F}
    (hv : val.isConstant = false) :
    Costs (g.absorb one val) 1 (777 + 3 * b.toNat) (1555 + 6 * b.toNat) (At true 1) := by
  unfold absorb
  obtain ⟨input, hs, hi⟩ | ⟨h, -⟩ := h.sponge
  · rw [hs]
    have : fillFirst val input = none := by
      obtain ⟨vs, -, -, -, rfl⟩ := hi
      rw [fillFirst_map]
      rfl
    simp only [this]
    exact Costs.then (costs_duplex h.keys h.state hi) fun st hst =>
      costs_pure ⟨h.keys, hst, .inl ⟨_, rfl, inputs_one hv⟩⟩
  · omega

theorem costs_squeeze {b : Bool} {n : ℕ} {g : RescueGadget F} (h : At b n g) (hn : 0 < n) :
    Costs (g.squeeze one) 2 (777 + 3 * b.toNat) (1556 + 6 * b.toNat) fun r => At true 0 r.2 := by
  unfold squeeze
  obtain ⟨input, hs, hi⟩ | ⟨h, -⟩ := h.sponge
  · rw [squeezeLoop, hs]
    refine (Costs.then (costs_duplex h.keys h.state hi) fun st hst => (?_ : Costs _ 1 0 1 _)).eq rfl rfl (by ring)
    rw [squeezeLoop]
    have hf : firstFalse (List.replicate Rescue.rate false) = some 0 := rfl
    simp only [hf]
    exact Costs.free (costs_index (R := fun _ => True) fun _ _ => trivial) fun _ _ =>
      Costs.then AllocatedNum.costs_alloc fun out _ => Costs.then costs_enforce fun _ _ =>
        costs_pure ⟨h.keys, ⟨by simpa using hst.1, fun c hc => by
          rcases List.mem_or_eq_of_mem_set hc with h | rfl
          · exact hst.2 c h
          · rfl⟩, .inr ⟨rfl, _, rfl⟩⟩
  · omega

end RescueGadget
end Circuit
end Halo
