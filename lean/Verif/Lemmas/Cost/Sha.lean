import Verif.Lemmas.Cost.Bound
/-!
# Upper bounds for SHA-256
-/
namespace Halo
namespace Circuit
open Sha256 (foldProg index)
variable {F : Type} [Field F] {one : Var}

namespace AllocatedBit

theorem costs_xor {a b : AllocatedBit} : Costs (xor a b : Prog F _) 1 1 3 fun _ => True := by cost_leaf
theorem costs_and {a b : AllocatedBit} : Costs (and a b : Prog F _) 0 1 2 fun _ => True := by cost_leaf
theorem costs_andNot {a b : AllocatedBit} : Costs (andNot one a b : Prog F _) 0 1 2 fun _ => True := by cost_leaf
theorem costs_nor {a b : AllocatedBit} : Costs (nor one a b : Prog F _) 0 1 2 fun _ => True := by cost_leaf

end AllocatedBit

namespace Boolean

omit [Field F] in
theorem atMost_map {α β : Type} {p : Prog F α} {f : α → β} {a m l : ℕ} (h : AtMost p a m l fun _ => True) :
    AtMost (p >>= fun x => pure (f x)) a m l fun _ => True :=
  AtMost.then (a' := 0) (m' := 0) (l' := 0) h fun _ _ => atMost_pure trivial

theorem atMost_xor {a b : Boolean} : AtMost (xor a b : Prog F _) 1 1 3 fun _ => True := by
  unfold xor
  split
  all_goals first | exact atMost_pure trivial | exact atMost_map AllocatedBit.costs_xor.atMost

theorem atMost_and {a b : Boolean} : AtMost (and one a b : Prog F _) 0 1 2 fun _ => True := by
  unfold and
  split
  all_goals first
    | exact atMost_pure trivial
    | exact atMost_map AllocatedBit.costs_andNot.atMost
    | exact atMost_map AllocatedBit.costs_nor.atMost
    | exact atMost_map AllocatedBit.costs_and.atMost

theorem atMost_chGeneral {a b c : Boolean} {v : Option Bool} :
    AtMost (chGeneral one a b c v : Prog F _) 1 1 3 fun _ => True := by
  have : Costs (chGeneral one a b c v : Prog F _) 1 1 3 fun _ => True := by cost_leaf
  exact this.atMost

theorem atMost_sha256Ch {a b c : Boolean} : AtMost (sha256Ch one a b c : Prog F _) 1 1 3 fun _ => True := by
  have h1 : ∀ {a b : Boolean}, AtMost (and one a b : Prog F _) 1 1 3 fun _ => True :=
    atMost_and.le (by omega) (by omega) (by omega)
  unfold sha256Ch
  simp only
  split
  · split
    · exact atMost_pure trivial
    · exact atMost_panic
  all_goals first
    | exact atMost_pure trivial
    | exact h1
    | exact atMost_map h1
    | exact atMost_chGeneral

theorem atMost_majGeneral {a b c : Boolean} {v : Option Bool} :
    AtMost (majGeneral one a b c v : Prog F _) 1 2 5 fun _ => True := by
  unfold majGeneral
  refine AtMost.bind (R := fun _ => True) (a := 1) (m := 0) (l := 0) ?_ (by omega) (by omega) (by omega) fun ⟨_, _⟩ _ => ?_
  · have : Costs (.doAlloc ((orMissing v).map fun b => (ofBool b : F)) : Prog F _) 1 0 0 fun _ => True := by cost_leaf
    exact this.atMost
  refine AtMost.bind atMost_and (by omega) (by omega) (by omega) fun bc _ => ?_
  refine Costs.atMost (R := fun _ => True) ?_
  cost_leaf

theorem atMost_sha256Maj {a b c : Boolean} : AtMost (sha256Maj one a b c : Prog F _) 1 2 5 fun _ => True := by
  have h1 : ∀ {a b : Boolean}, AtMost (and one a b : Prog F _) 1 2 5 fun _ => True :=
    atMost_and.le (by omega) (by omega) (by omega)
  unfold sha256Maj
  simp only
  split
  · split
    · exact atMost_pure trivial
    · exact atMost_panic
  all_goals first
    | exact h1
    | exact atMost_map h1
    | exact atMost_majGeneral

end Boolean

namespace UInt

/-- A word of at most 32 bits -/
def Word (u : UInt 32) : Prop := u.bits.length ≤ 32

theorem word_rotr (n : ℕ) (u : UInt 32) : Word (u.rotr n) := List.length_take_le _ _
theorem word_shr (n : ℕ) (u : UInt 32) : Word (u.shr n) := List.length_take_le _ _
theorem word_constant (v : BitVec 32) : Word (constant v) := by
  have : ∀ (n : ℕ) (v : BitVec 32), (shiftBits n v).length = n := by
    intro n
    induction n with
    | zero => exact fun _ => rfl
    | succ n ih => exact fun v => congrArg (· + 1) (ih _)
  exact (List.length_map _).trans_le (this 32 v).le

theorem atMost_xor {a b : UInt 32} (h : Word a) : AtMost (xor a b : Prog F _) 32 32 96 Word := by
  unfold xor
  have hz : (a.bits.zip b.bits).length ≤ 32 := by rw [List.length_zip]; exact (Nat.min_le_left _ _).trans h
  refine (AtMost.then (a' := 0) (m' := 0) (l' := 0) (atMost_mapProg fun _ _ => Boolean.atMost_xor) fun bits hb =>
    atMost_pure (R := Word) (by exact hb.1.trans_le hz)).le ?_ ?_ ?_ <;> omega

omit [Field F] in
theorem atMost_triop {f : BitVec 32 → BitVec 32 → BitVec 32 → BitVec 32} {g : Boolean → Boolean → Boolean → Prog F Boolean}
    {A M L : ℕ} (hg : ∀ a b c, AtMost (g a b c) A M L fun _ => True) {a b c : UInt 32} (h : Word a) :
    AtMost (triop f g a b c : Prog F _) (32 * A) (32 * M) (32 * L) Word := by
  unfold triop
  have hz : ((a.bits.zip b.bits).zip c.bits).length ≤ 32 := by
    rw [List.length_zip, List.length_zip]; exact ((Nat.min_le_left _ _).trans (Nat.min_le_left _ _)).trans h
  exact (AtMost.then (a' := 0) (m' := 0) (l' := 0) (atMost_mapProg fun _ _ => hg _ _ _) fun bits hb =>
    atMost_pure (R := Word) (by exact hb.1.trans_le hz)).le (Nat.mul_le_mul_right _ hz) (Nat.mul_le_mul_right _ hz) (Nat.mul_le_mul_right _ hz)

theorem atMost_addmanyLoop {v : Option ℕ} : ∀ (n : ℕ) {max i : ℕ} {c : Coeff F} {bits : List Boolean} {lc : LC F},
    max < 2 ^ n → AtMost (addmanyLoop v max i c bits lc) 0 n (2 * n) fun _ => True := by
  intro n
  induction n with
  | zero =>
    intro max i c bits lc h
    obtain rfl : max = 0 := by omega
    unfold addmanyLoop
    exact atMost_pure trivial
  | succ n ih =>
    intro max i c bits lc h
    unfold addmanyLoop
    split
    · exact atMost_pure trivial
    · refine (AtMost.then AllocatedBit.costs_alloc.atMost fun b _ => ih ?_).le ?_ ?_ ?_
      · rw [Nat.shiftRight_one]; rw [pow_succ] at h; omega
      all_goals omega

theorem atMost_addmany {us : List (UInt 32)} : AtMost (addmany one us : Prog F _) 0 36 73 Word := by
  unfold addmany
  split
  · exact atMost_panic
  · rename_i hl
    simp only
    split
    · exact atMost_pure (word_constant _)
    · refine AtMost.bind (atMost_addmanyLoop 36 ?_) (by omega) (by omega) (by omega) fun ⟨_, _⟩ _ =>
        AtMost.bind costs_enforce.atMost (by omega) (by omega) (by omega) fun _ _ => atMost_pure (R := Word) (by exact List.length_take_le _ _)
      have : us.length * (2 ^ 32 - 1) ≤ 10 * (2 ^ 32 - 1) := Nat.mul_le_mul_right _ (by omega)
      omega

end UInt

namespace Sha256
open UInt

theorem atMost_extend {w : List (UInt 32)} {i : ℕ} : AtMost (extend one w i : Prog F _) 128 164 457 fun _ => True := by
  unfold extend
  have hi : ∀ {j : ℕ}, AtMost (index w j : Prog F _) 0 0 0 fun _ => True :=
    (costs_index (R := fun _ => True) fun _ _ => trivial).atMost
  refine AtMost.free hi fun w15 _ => ?_
  refine AtMost.bind (atMost_xor (word_rotr _ _)) (by omega) (by omega) (by omega) fun s0 h0 => ?_
  refine AtMost.bind (atMost_xor h0) (by omega) (by omega) (by omega) fun s0 _ => ?_
  refine AtMost.free hi fun w2 _ => ?_
  refine AtMost.bind (atMost_xor (word_rotr _ _)) (by omega) (by omega) (by omega) fun s1 h1 => ?_
  refine AtMost.bind (atMost_xor h1) (by omega) (by omega) (by omega) fun s1 _ => ?_
  refine AtMost.free hi fun w16 _ => ?_
  refine AtMost.free hi fun w7 _ => ?_
  exact AtMost.bind atMost_addmany (by omega) (by omega) (by omega) fun _ _ => atMost_pure trivial

/-- A value that has been computed is a word. -/
def Maybe.Word : Maybe → Prop
  | .deferred _ => True
  | .concrete v => UInt.Word v

theorem Maybe.atMost_compute {m : Maybe} (h : m.Word) {us : List (UInt 32)} :
    AtMost (m.compute one us : Prog F _) 0 36 73 UInt.Word := by
  cases m with
  | deferred v => exact atMost_addmany
  | concrete v => exact atMost_pure (R := UInt.Word) (by exact h)

theorem atMost_round {w : List (UInt 32)} {s : Work} (h : s.a.Word ∧ s.e.Word) {i : ℕ} :
    AtMost (round one w s i : Prog F _) 192 296 786 fun s => s.a.Word ∧ s.e.Word := by
  unfold round
  have hi : ∀ {α : Type} {w : List α} {j : ℕ}, AtMost (index w j : Prog F _) 0 0 0 fun _ => True :=
    (costs_index (R := fun _ => True) fun _ _ => trivial).atMost
  refine AtMost.bind (Maybe.atMost_compute h.2) (by omega) (by omega) (by omega) fun e he => ?_
  refine AtMost.bind (atMost_xor (word_rotr _ _)) (by omega) (by omega) (by omega) fun s1 h1 => ?_
  refine AtMost.bind (atMost_xor h1) (by omega) (by omega) (by omega) fun s1 _ => ?_
  refine AtMost.bind (atMost_triop (fun _ _ _ => Boolean.atMost_sha256Ch) he) (by omega) (by omega) (by omega) fun ch _ => ?_
  refine AtMost.free hi fun ki _ => ?_
  refine AtMost.free hi fun wi _ => ?_
  refine AtMost.bind (Maybe.atMost_compute h.1) (by omega) (by omega) (by omega) fun a ha => ?_
  refine AtMost.bind (atMost_xor (word_rotr _ _)) (by omega) (by omega) (by omega) fun s0 h0 => ?_
  refine AtMost.bind (atMost_xor h0) (by omega) (by omega) (by omega) fun s0 _ => ?_
  refine AtMost.bind (atMost_triop (fun _ _ _ => Boolean.atMost_sha256Maj) ha) (by omega) (by omega) (by omega) fun maj _ => ?_
  exact atMost_pure ⟨trivial, trivial⟩

theorem atMost_compress {input : List Boolean} {cur : List (UInt 32)} (h : ∀ u ∈ cur, UInt.Word u) :
    AtMost (compress one input cur : Prog F _) 18432 27104 72824 fun r => r.length = 8 ∧ ∀ u ∈ r, UInt.Word u := by
  unfold compress
  split
  · exact atMost_panic
  refine AtMost.free (R := fun _ => True) ?_ fun w _ => ?_
  · exact ((atMost_mapProg (a := 0) (m := 0) (l := 0) (R := fun _ => True) fun _ _ =>
      (costs_orPanic (R := fun _ => True) fun _ _ => trivial).atMost).weaken fun _ _ => trivial).le (by simp) (by simp) (by simp)
  refine AtMost.bind (a := 6144) (m := 7872) (l := 21936) ((atMost_foldProg (R := fun _ => True) (fun _ _ _ _ => atMost_extend) trivial).le ?_ ?_ ?_)
    (by omega) (by omega) (by omega) fun w _ => ?_
  · simp
  · simp
  · simp
  split
  · exact atMost_panic
  split
  · rename_i h0 h1 h2 h3 h4 h5 h6 h7 _
    refine AtMost.bind (a := 12288) (m := 18944) (l := 50304) ((atMost_foldProg (R := fun s : Work => s.a.Word ∧ s.e.Word)
      (fun s _ _ hs => atMost_round hs) (by exact ⟨h h0 (by simp), h h4 (by simp)⟩)).le ?_ ?_ ?_) (by omega) (by omega) (by omega)
      fun s hs => ?_
    · simp
    · simp
    · simp
    refine AtMost.bind (Maybe.atMost_compute hs.1) (by omega) (by omega) (by omega) fun r0 k0 => ?_
    refine AtMost.bind atMost_addmany (by omega) (by omega) (by omega) fun r1 k1 => ?_
    refine AtMost.bind atMost_addmany (by omega) (by omega) (by omega) fun r2 k2 => ?_
    refine AtMost.bind atMost_addmany (by omega) (by omega) (by omega) fun r3 k3 => ?_
    refine AtMost.bind (Maybe.atMost_compute hs.2) (by omega) (by omega) (by omega) fun r4 k4 => ?_
    refine AtMost.bind atMost_addmany (by omega) (by omega) (by omega) fun r5 k5 => ?_
    refine AtMost.bind atMost_addmany (by omega) (by omega) (by omega) fun r6 k6 => ?_
    refine AtMost.bind atMost_addmany (by omega) (by omega) (by omega) fun r7 k7 => ?_
    refine atMost_pure ⟨rfl, ?_⟩
    simp only [List.forall_mem_cons, List.not_mem_nil, false_imp_iff, implies_true, and_true]
    exact ⟨k0, k1, k2, k3, k4, k5, k6, k7⟩
  · exact atMost_panic

theorem length_padZeros : ∀ (fuel : ℕ) (l : List Boolean), (padZeros l fuel).length ≤ l.length + fuel
  | 0, l => le_rfl
  | fuel + 1, l => by
    unfold padZeros
    split
    · refine (length_padZeros fuel _).trans ?_
      rw [List.length_append, List.length_singleton]
      omega
    · omega

theorem length_flatMap_words : ∀ {us : List (UInt 32)}, (∀ u ∈ us, UInt.Word u) →
    (us.flatMap UInt.intoBitsBe).length ≤ 32 * us.length
  | [], _ => le_rfl
  | u :: us, h => by
    have h1 : u.bits.length ≤ 32 := h u (by simp)
    have h2 := length_flatMap_words (us := us) fun v hv => h v (by simp [hv])
    rw [List.flatMap_cons, List.length_append, List.length_cons, UInt.intoBitsBe, List.length_reverse]
    omega

theorem getIv_words : getIv.length = 8 ∧ ∀ u ∈ getIv, UInt.Word u := by
  have : ∀ l : List (BitVec 32), ∀ u ∈ l.map UInt.constant, UInt.Word u := by
    intro l u hu
    obtain ⟨v, -, rfl⟩ := List.mem_map.1 hu
    exact word_constant v
  exact ⟨(List.length_map _).trans (by decide), this iv⟩

attribute [local irreducible] getIv compress pad in
/-- Hashing a message that takes at most `n` blocks -/
theorem atMost_sha256 {input : List Boolean} {n : ℕ} (h : input.length + 577 < 512 * (n + 1)) :
    AtMost (sha256 one input : Prog F _) (n * 18432) (n * 27104) (n * 72824) fun r => r.length ≤ 256 := by
  unfold sha256
  split
  · exact atMost_panic
  simp only
  split
  · exact atMost_panic
  rename_i h8 h512
  have hl : (pad input).length ≤ input.length + 577 := by
    unfold pad
    have := length_padZeros 512 (input ++ [.constant true])
    simp only [List.length_append, List.length_map, List.length_reverse, List.length_range, List.length_singleton] at this ⊢
    omega
  have hc : (chunks 512 (pad input)).length ≤ n := by
    rw [Recursion.length_chunks 511]
    omega
  refine (AtMost.then (a' := 0) (m' := 0) (l' := 0) (atMost_foldProg (R := fun r : List (UInt 32) => r.length = 8 ∧ ∀ u ∈ r, UInt.Word u)
    (fun s _ _ hs => atMost_compress hs.2) getIv_words) fun cur hcur => atMost_pure ?_).le
    (by omega) (by omega) (by omega)
  · have := length_flatMap_words hcur.2
    rw [hcur.1] at this
    exact this

end Sha256
end Circuit
end Halo
