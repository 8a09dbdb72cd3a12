import Verif.Lemmas.Fft
/-!
# The multi-threaded FFT
-/
namespace Halo
namespace Util
open Finset Mem
variable {F : Type} [Field F]

theorem log2FloorAux_spec (num fuel pow : ℕ) (h : num < 2 ^ (pow + fuel + 1)) (hp : 2 ^ pow ≤ num) :
    2 ^ log2FloorAux num fuel pow ≤ num ∧ num < 2 ^ (log2FloorAux num fuel pow + 1) := by
  induction fuel generalizing pow with
  | zero => exact ⟨hp, h⟩
  | succ fuel ih =>
    rw [log2FloorAux, Nat.shiftLeft_eq, one_mul]
    split
    · rename_i h1
      exact ih (pow + 1) (by rw [show pow + 1 + fuel + 1 = pow + (fuel + 1) + 1 by ring]; exact h) h1
    · rename_i h1
      exact ⟨hp, not_le.1 h1⟩

theorem log2Floor_spec {num : ℕ} (h : 0 < num) :
    ∃ l, log2Floor num = some l ∧ 2 ^ l ≤ num ∧ num < 2 ^ (l + 1) := by
  refine ⟨_, if_neg h.ne', log2FloorAux_spec num num 0 ?_ h⟩
  rw [zero_add]
  exact Nat.lt_two_pow_self.trans (Nat.pow_lt_pow_right (by norm_num) (Nat.lt_succ_self _))

/-- the inner loop of a thread -/
theorem threadInner {n N i : ℕ} (hi : i < N) (a t : ℕ → F) (e st : F) (idx : ℕ → ℕ)
    (S : ℕ) (hidx : ∀ s < S, idx s < n) :
    (List.range S).foldlM (fun (s : Array F × F) sh => do
      let (tmp, elt) := s
      let idx := idx sh
      let t ← Mem.get (arr n a) idx
      let t := t * elt
      let old ← Mem.get tmp i
      let tmp ← Mem.set tmp i (old + t)
      some (tmp, elt * st)) (arr N t, e) =
    some (arr N (Function.update t i (t i + ∑ s ∈ range S, a (idx s) * (e * st ^ s))), e * st ^ S) := by
  induction S with
  | zero => simp
  | succ S ih =>
    rw [List.range_succ, List.foldlM_append, ih fun s hs => hidx s (by omega)]
    simp only [Option.bind_eq_bind, Option.bind_some, List.foldlM_cons, List.foldlM_nil,
      get_arr _ (hidx S (Nat.lt_succ_self S)), get_arr _ hi, set_arr _ _ hi]
    simp only [Option.pure_def, Function.update_self, Option.some.injEq, Prod.mk.injEq,
      Function.update_idem]
    refine ⟨?_, by rw [pow_succ]; ring⟩
    congr 2
    rw [Finset.sum_range_succ]; ring

/-- what a thread has in its vector before the sub-transform -/
def threadFn (N cpus : ℕ) (ω : F) (a : ℕ → F) (j i : ℕ) : F :=
  ∑ s ∈ range cpus, a (i + s * N) * (ω ^ j) ^ (i + s * N)

theorem fftThread_arr {L d c : ℕ} (hL : L = d + c) {ω : F} (hω : 0 < L → ω ^ 2 ^ (L - 1) = -1)
    (hc : ω ^ 2 ^ L = 1) (a : ℕ → F) (j : ℕ) :
    fftThread (arr (2 ^ L) a) ω L d (2 ^ c) j (ω ^ 2 ^ c) =
      some (arr (2 ^ d) (dft (2 ^ d) (ω ^ 2 ^ c) (threadFn (2 ^ d) (2 ^ c) ω a j))) := by
  have h1 : (Array.replicate (1 <<< d) (0 : F)) = arr (2 ^ d) fun _ => 0 := by
    apply Array.ext
    · simp [Nat.shiftLeft_eq]
    · intro i h1 h2; simp [arr]
  have hn : 2 ^ L = 2 ^ d * 2 ^ c := by rw [hL, pow_add]
  have main : ∀ I ≤ 2 ^ d, (List.range I).foldlM (fun (s : Array F × F) i => do
      let s ← (List.range (2 ^ c)).foldlM (fun (s : Array F × F) sh => do
        let (tmp, elt) := s
        let idx := (i + (sh <<< d)) % (1 <<< L)
        let t ← Mem.get (arr (2 ^ L) a) idx
        let t := t * elt
        let old ← Mem.get tmp i
        let tmp ← Mem.set tmp i (old + t)
        some (tmp, elt * ω ^ (j <<< d))) s
      some (s.1, s.2 * ω ^ j)) (arr (2 ^ d) (fun _ => 0), 1) =
      some (arr (2 ^ d) (fun i => if i < I then threadFn (2 ^ d) (2 ^ c) ω a j i else 0),
        (ω ^ j) ^ I) := by
    intro I hI
    induction I with
    | zero => simp
    | succ I ih =>
      rw [List.range_succ, List.foldlM_append, ih (by omega)]
      simp only [Option.bind_eq_bind, Option.bind_some, List.foldlM_cons, List.foldlM_nil]
      have := threadInner (n := 2 ^ L) (N := 2 ^ d) (i := I) (by omega) a
        (fun i => if i < I then threadFn (2 ^ d) (2 ^ c) ω a j i else 0)
        ((ω ^ j) ^ I) (ω ^ (j <<< d)) (fun sh => (I + (sh <<< d)) % (1 <<< L)) (2 ^ c)
        (fun s _ => by
          simp only [Nat.shiftLeft_eq, one_mul]; exact Nat.mod_lt _ (Nat.two_pow_pos L))
      simp only [Option.bind_eq_bind] at this
      rw [this]
      simp only [Option.bind_some, Option.pure_def, Option.some.injEq, Prod.mk.injEq]
      constructor
      · apply arr_congr
        intro i hi
        simp only [Function.update_apply]
        by_cases h : i = I
        · subst h
          rw [if_pos rfl, if_neg (lt_irrefl _), if_pos (Nat.lt_succ_self _), zero_add, threadFn]
          apply Finset.sum_congr rfl
          intro s hs
          have hs' : s < 2 ^ c := Finset.mem_range.1 hs
          have hlt : i + s * 2 ^ d < 2 ^ L := by
            rw [hn]
            calc i + s * 2 ^ d < 2 ^ d + s * 2 ^ d := by omega
              _ = 2 ^ d * (s + 1) := by ring
              _ ≤ 2 ^ d * 2 ^ c := Nat.mul_le_mul_left _ hs'
          simp only [Nat.shiftLeft_eq, one_mul, Nat.mod_eq_of_lt hlt]
          congr 1
          rw [pow_add, ← pow_mul, ← pow_mul, ← pow_mul]
          congr 2
          ring
        · rw [if_neg h]
          have : i < I ↔ i < I + 1 := by omega
          simp only [this]
      · have : (ω ^ (j <<< d)) ^ 2 ^ c = 1 := by
          rw [← pow_mul, Nat.shiftLeft_eq, mul_assoc, ← hn, mul_comm, pow_mul, hc, one_pow]
        rw [this, mul_one, pow_succ]
  have hm := main (2 ^ d) le_rfl
  unfold fftThread
  simp only [Option.bind_eq_bind] at hm ⊢
  rw [h1]
  simp only [Nat.shiftLeft_eq (1 : ℕ) d, one_mul] at hm ⊢
  rw [hm]
  simp only [Option.bind_some]
  rw [arr_congr (g := threadFn (2 ^ d) (2 ^ c) ω a j) fun i hi => if_pos hi]
  apply serialFft_arr
  intro hd
  rw [← pow_mul, ← pow_add, ← hω (by omega)]
  congr 2; omega

theorem mapM_some {α β : Type} (f : α → β) (l : List α) {g : α → Option β}
    (h : ∀ x ∈ l, g x = some (f x)) : l.mapM g = some (l.map f) := by
  induction l with
  | nil => rfl
  | cons a l ih =>
    rw [List.mapM_cons, h a List.mem_cons_self, ih fun x hx => h x (List.mem_cons_of_mem _ hx)]
    rfl

theorem unshuffle {α : Type} {n : ℕ} (f : ℕ → α) (g : ℕ → α)
    {get : ℕ → Option α} (hget : ∀ i < n, get i = some (g i)) (K : ℕ) (hK : K ≤ n) :
    (List.range K).foldlM (fun out idx => do
      let v ← get idx
      Mem.set out idx v) (arr n f) = some (arr n fun i => if i < K then g i else f i) := by
  induction K with
  | zero => simp
  | succ K ih =>
    rw [List.range_succ, List.foldlM_append, ih (by omega)]
    simp only [Option.bind_eq_bind, Option.bind_some, List.foldlM_cons, List.foldlM_nil]
    rw [hget K (by omega), Option.bind_some, set_arr _ _ (by omega)]
    simp only [Option.pure_def, Option.bind_some, Option.some.injEq]
    apply arr_congr
    intro i hi
    simp only [Function.update_apply]
    by_cases h : i = K
    · subst h; simp
    · have : i < K ↔ i < K + 1 := by omega
      simp only [h, if_false, this]

theorem parallelFft_arr {L c : ℕ} (hcL : c ≤ L) {ω : F} (hω : 0 < L → ω ^ 2 ^ (L - 1) = -1)
    (hc : ω ^ 2 ^ L = 1) (a : ℕ → F) :
    parallelFft (arr (2 ^ L) a) ω L c = some (arr (2 ^ L) (dft (2 ^ L) ω a)) := by
  obtain ⟨d, hL⟩ : ∃ d, L = d + c := ⟨L - c, by omega⟩
  have hn : 2 ^ L = 2 ^ d * 2 ^ c := by rw [hL, pow_add]
  have hLc : L - c = d := by omega
  have hmap := mapM_some
    (fun j => arr (2 ^ d) (dft (2 ^ d) (ω ^ 2 ^ c) (threadFn (2 ^ d) (2 ^ c) ω a j)))
    (List.range (2 ^ c)) (fun j _ => fftThread_arr hL hω hc a j)
  have hrow : (List.map (fun j => arr (2 ^ d) (dft (2 ^ d) (ω ^ 2 ^ c)
      (threadFn (2 ^ d) (2 ^ c) ω a j))) (List.range (2 ^ c))).toArray =
      arr (2 ^ c) fun j => arr (2 ^ d) (dft (2 ^ d) (ω ^ 2 ^ c) (threadFn (2 ^ d) (2 ^ c) ω a j)) := by
    apply Array.ext
    · simp
    · intro i h1 h2; simp [arr]
  unfold parallelFft
  rw [if_neg (by omega)]
  simp only [Nat.shiftLeft_eq, one_mul, hLc, hmap, size_arr]
  simp only [Option.bind_eq_bind, Option.bind_some]
  rw [hrow]
  have hun := unshuffle (n := 2 ^ L) a (dft (2 ^ L) ω a)
    (get := fun idx => do
      let row ← Mem.get (arr (2 ^ c) fun j => arr (2 ^ d)
        (dft (2 ^ d) (ω ^ 2 ^ c) (threadFn (2 ^ d) (2 ^ c) ω a j))) (idx &&& (2 ^ c - 1))
      Mem.get row (idx >>> c)) ?_ (2 ^ L) le_rfl
  · simp only [Option.bind_eq_bind, Option.bind_assoc] at hun
    rw [hun]
    congr 1
    apply arr_congr
    intro i hi
    rw [if_pos hi]
  · intro i hi
    have hmask : i &&& (2 ^ c - 1) = i % 2 ^ c := Nat.and_two_pow_sub_one_eq_mod i c
    have hsh : i >>> c = i / 2 ^ c := Nat.shiftRight_eq_div_pow i c
    have h1 : i % 2 ^ c < 2 ^ c := Nat.mod_lt _ (Nat.two_pow_pos c)
    have h2 : i / 2 ^ c < 2 ^ d := Nat.div_lt_of_lt_mul (by rw [mul_comm, ← hn]; exact hi)
    simp only [hmask, hsh, Option.bind_eq_bind, get_arr _ h1, Option.bind_some, get_arr _ h2,
      Option.some.injEq]
    generalize hj : i % 2 ^ c = j at *
    generalize ht : i / 2 ^ c = t at *
    have hi' : i = 2 ^ c * t + j := by rw [← hj, ← ht]; exact (Nat.div_add_mod _ _).symm
    rw [dft, dft]
    simp only [threadFn, Finset.sum_mul]
    rw [Finset.sum_comm]
    have hreindex : ∀ g : ℕ → F, ∑ x ∈ range (2 ^ L), g x =
        ∑ s ∈ range (2 ^ c), ∑ i ∈ range (2 ^ d), g (i + s * 2 ^ d) := by
      intro g
      rw [hn]
      generalize 2 ^ c = m
      induction m with
      | zero => simp
      | succ m ih =>
        rw [Nat.mul_succ, Finset.sum_range_add, ih, Finset.sum_range_succ]
        congr 1
        apply Finset.sum_congr rfl
        intro x _
        congr 1; ring
    rw [hreindex]
    apply Finset.sum_congr rfl
    intro s _
    apply Finset.sum_congr rfl
    intro x _
    rw [mul_assoc]
    congr 1
    have e1 : (ω ^ i) ^ (x + s * 2 ^ d) = (ω ^ j) ^ (x + s * 2 ^ d) * ((ω ^ 2 ^ c) ^ t) ^ x
        * (ω ^ (2 ^ L)) ^ (t * s) := by
      rw [hn]
      simp only [← pow_mul, ← pow_add]
      congr 1
      rw [hi']; ring
    rw [e1, hc, one_pow, mul_one]

/-- `best_fft` computes the transform, whatever the number of cores -/
theorem bestFft_arr {L cpus : ℕ} (hcpus : 0 < cpus) {ω : F}
    (hω : 0 < L → ω ^ 2 ^ (L - 1) = -1) (hc : ω ^ 2 ^ L = 1) (a : ℕ → F) :
    bestFft cpus (arr (2 ^ L) a) ω L = some (arr (2 ^ L) (dft (2 ^ L) ω a)) := by
  obtain ⟨l, hl, -, -⟩ := log2Floor_spec hcpus
  simp only [bestFft, hl, Option.bind_eq_bind, Option.bind_some]
  split
  · exact serialFft_arr hω a
  · exact parallelFft_arr (by omega) hω hc a

end Util
end Halo
