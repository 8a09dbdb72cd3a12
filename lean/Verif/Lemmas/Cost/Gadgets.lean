import Verif.Lemmas.Cost.Rescue
import Verif.Model.Recursion.Gadgets
/-!
# The size of the parts of the verification circuit
-/
namespace Halo
namespace Recursion
open Circuit RescueGadget
open Circuit.Sha256 (foldProg index)
variable {F : Type} [Field F] {one : Var}

omit [Field F] in
theorem costs_slice {α : Type} {l : List α} {a b : ℕ} : Costs (slice l a b : Prog F _) 0 0 0 fun s => s.length = b - a := by
  unfold slice
  split
  · exact costs_pure (by rw [List.length_drop, List.length_take]; omega)
  · exact costs_panic

omit [Field F] in
theorem costs_split {α : Type} {n : ℕ} {l : List α} : Costs (split n l : Prog F _) 0 0 0 fun _ => True := by
  unfold split
  split
  · exact costs_pure trivial
  · exact costs_panic

theorem costs_numEqual {b : AllocatedBit} {lhs rhs : Combination F} :
    Costs (numEqualUnlessBaseCase one b lhs rhs) 0 1 3 fun _ => True := by cost_leaf

theorem length_chunks {α : Type} (n : ℕ) : ∀ (l : List α), (Sha256.chunks (n + 1) l).length = (l.length + n) / (n + 1) := by
  intro l
  induction hk : l.length using Nat.strong_induction_on generalizing l with
  | _ k ih =>
    subst hk
    unfold Sha256.chunks
    split
    · rename_i h
      have h : l = [] := h.resolve_left (by omega)
      subst h
      exact (Nat.div_eq_of_lt (by simp)).symm
    · rename_i h
      rw [not_or, ← List.length_eq_zero_iff] at h
      rw [List.length_cons, ih _ (by rw [List.length_drop]; omega) _ rfl, List.length_drop]
      rcases Nat.lt_or_ge l.length (n + 1) with h1 | h1
      · rw [show l.length - (n + 1) + n = n by omega, Nat.div_eq_of_lt (by omega)]
        exact (Nat.div_eq_of_lt_le (by omega) (by omega)).symm
      · rw [← Nat.add_div_right _ (by omega)]
        congr 1
        omega

theorem costs_equal {b : AllocatedBit} {lhs rhs : List AllocatedBit} {n : ℕ} (h : lhs.length = n) :
    Costs (equalUnlessBaseCase one b lhs rhs : Prog F Unit) 0 ((n + 249) / 250) (3 * ((n + 249) / 250)) fun _ => True := by
  unfold equalUnlessBaseCase
  split
  · exact costs_panic
  · rename_i hl
    rw [not_ne_iff] at hl
    have hn : (Sha256.chunks 250 (lhs.zip rhs)).length = (n + 249) / 250 := by
      rw [length_chunks, List.length_zip, ← hl, Nat.min_self, h]
    refine (costs_foldProg (R := fun _ => True) (fun _ _ _ _ => costs_numEqual) trivial).eq ?_ ?_ ?_
    all_goals rw [hn]; ring

theorem costs_obtainScalar {bits : List AllocatedBit} : Costs (obtainScalarFromBits bits : Prog F _) 1 0 1 fun _ => True := by
  cost_leaf

theorem costs_witnessBits {S : Type} [FieldApi S] {v : S} :
    Costs (witnessBitsFromFe v : Prog F _) 0 256 512 fun bits => bits.length = 256 := by
  have h : (bytesBits (FieldApi.toBytes v).toList).length = 256 := by rw [length_bytesBits, Vector.length_toList]
  refine ((costs_mapProg fun _ _ => AllocatedBit.costs_alloc).weaken fun bits hb => hb.1.trans h).eq ?_ ?_ ?_
  all_goals rw [h]

section
variable [FieldApi F]

theorem costs_challengeStep {bits : List AllocatedBit} {acc : Combination F} {i : ℕ} :
    Costs (challengeStep one bits acc i) 0 1 2 fun _ => True := by
  unfold challengeStep
  refine Costs.free (costs_index (R := fun _ => True) fun _ _ => trivial) fun _ _ =>
    Costs.free (costs_index (R := fun _ => True) fun _ _ => trivial) fun _ _ => ?_
  cost_leaf

theorem costs_getChallengeScalar {bits : List AllocatedBit} :
    Costs (getChallengeScalar one bits : Prog F _) 1 63 127 fun _ => True := by
  unfold getChallengeScalar
  split
  · exact costs_panic
  · exact Costs.then ((costs_foldProg (xs := List.range' 1 63) (fun _ _ _ _ => costs_challengeStep) trivial).eq (a' := 0)
      (m' := 63) (l' := 126) (by simp) (by simp) (by simp)) fun _ _ => Costs.then AllocatedNum.costs_alloc fun _ _ =>
      Costs.then costs_enforce fun _ _ => costs_pure trivial

theorem costs_commitPoint {b : Bool} {n : ℕ} {t : RescueGadget F} (h : At b n t) (hn : n < 11) {p : CurvePoint F}
    (hp : p.Allocated) : Costs (commitPoint one t p) 0 0 0 (At b (n + 2)) :=
  Costs.free (costs_absorb h (by omega) hp.1) fun _ h => costs_absorb h (by omega) hp.2

theorem costs_commitPoint_full {t : RescueGadget F} (h : At true 12 t) {p : CurvePoint F}
    (hp : p.Allocated) : Costs (commitPoint one t p) 1 780 1561 (At true 2) :=
  Costs.then (costs_absorb_full h hp.1) fun _ h => costs_absorb h (by omega) hp.2

theorem costs_getChallenge {b : Bool} {n : ℕ} {t : RescueGadget F} (h : At b n t) (hn : 0 < n) :
    Costs (getChallenge one t) 2 (1033 + 3 * b.toNat) (2069 + 6 * b.toNat) fun r => At true 0 r.2 ∧ r.1.length = 128 := by
  unfold getChallenge
  refine (Costs.then (costs_squeeze h hn) fun ⟨_, _⟩ h => Costs.then costs_unpackFe fun bits hb => costs_pure
    ⟨h, by simp [hb]⟩).eq rfl ?_ ?_
  all_goals ring

omit [FieldApi F] in
theorem costs_computeBRev : ∀ {us uis : List (AllocatedNum F)} {x : AllocatedNum F} (n : ℕ), us.length = n + 1 →
    Costs (computeBRev one x us uis) 0 (3 * n + 1) (6 * n + 2) fun _ => True
  | [], _, _, _, h => by simp at h
  | u :: us, [], _, _, _ => by unfold computeBRev; exact costs_panic
  | [u], ui :: uis, x, n, h => by
    have : n = 0 := by simpa using h.symm
    subst this
    unfold computeBRev
    exact Costs.then AllocatedNum.costs_mul fun _ _ => costs_pure trivial
  | u :: v :: us, ui :: uis, x, n, h => by
    obtain ⟨m, rfl⟩ : ∃ m, n = m + 1 := ⟨us.length, by simpa using h.symm⟩
    unfold computeBRev
    refine (Costs.then AllocatedNum.costs_mul fun _ _ => Costs.then AllocatedNum.costs_mul fun _ _ =>
      Costs.then (costs_computeBRev m (by simpa using h)) fun _ _ => Costs.then Combination.costs_mul fun _ _ =>
        costs_pure trivial).eq ?_ ?_ ?_
    all_goals ring

omit [FieldApi F] in
theorem costs_computeB {x : AllocatedNum F} {cs is : List (AllocatedNum F)} {k : ℕ} (h : cs.length = k) :
    Costs (computeB one x cs is) 0 (3 * (k - 1) + 1) (6 * (k - 1) + 2) fun _ => True := by
  unfold computeB
  split
  · exact costs_panic
  · rename_i hn
    exact costs_computeBRev _ (by rw [List.length_reverse]; omega)

omit [FieldApi F] in
theorem costs_takeScalar {n : ℕ} {bits : List AllocatedBit} : Costs (takeScalar n bits : Prog F _) 1 0 1 fun _ => True := by
  unfold takeScalar
  exact Costs.free costs_split fun ⟨_, _⟩ _ => Costs.then costs_obtainScalar fun _ _ => costs_pure trivial

theorem costs_takeChallenges : ∀ {k : ℕ} {bits : List AllocatedBit},
    Costs (takeChallenges one k bits : Prog F _) k (63 * k) (127 * k) fun r => r.1.length = k
  | 0, _ => costs_pure rfl
  | k + 1, bits => by
    unfold takeChallenges
    refine Costs.free costs_split fun ⟨_, _⟩ _ => (Costs.then costs_getChallengeScalar fun _ _ =>
      Costs.then costs_takeChallenges fun ⟨_, _⟩ h => costs_pure (congrArg (· + 1) h)).eq ?_ ?_ ?_
    all_goals ring

theorem costs_unpackDeferred {k : ℕ} {bits : List AllocatedBit} :
    Costs (unpackDeferred one k bits : Prog F _) (16 + 2 * k) (126 * k) (16 + 254 * k) fun d =>
      d.challengesSqOld.length = k ∧ d.challengesSqNew.length = k := by
  unfold unpackDeferred
  iterate 10 refine Costs.bind costs_takeScalar (by omega) (by omega) (by omega) fun ⟨_, _⟩ _ => ?_
  refine Costs.bind costs_takeChallenges (by omega) (by omega) (by omega) fun ⟨_, _⟩ h1 => ?_
  refine Costs.bind costs_takeScalar (by omega) (by omega) (by omega) fun ⟨_, _⟩ _ => ?_
  refine Costs.bind costs_takeChallenges (by omega) (by omega) (by omega) fun ⟨_, _⟩ h2 => ?_
  iterate 5 refine Costs.bind costs_takeScalar (by omega) (by omega) (by omega) fun ⟨_, _⟩ _ => ?_
  dsimp only
  split
  · exact costs_panic
  · exact (costs_pure ⟨h1, h2⟩).eq (by omega) (by omega) (by omega)

omit [FieldApi F] in
theorem costs_squareTimes {n : ℕ} {x : AllocatedNum F} : Costs (squareTimes n x) 0 n (2 * n) fun _ => True :=
  (costs_foldProg (fun _ _ _ _ => AllocatedNum.costs_mul) trivial).eq (by simp) (by simp) (by simp [mul_comm])

omit [FieldApi F] in
theorem costs_computeThing {x : AllocatedNum F} {n : ℕ} : Costs (computeThing one x n) 0 (2 * n) (4 * n) fun _ => True := by
  unfold computeThing
  refine (Costs.then (costs_foldProg (R := fun _ => True) (a := 0) (m := 2) (l := 4) (fun _ _ _ _ => ?_) trivial)
    fun ⟨_, _⟩ _ => costs_pure trivial).eq (by simp) (by simp [mul_comm]) (by simp [mul_comm])
  exact Costs.then Combination.costs_mul fun _ _ => Costs.then AllocatedNum.costs_mul fun _ _ => costs_pure trivial

theorem costs_deferredSides {k : ℕ} {d : DeferredNums F} :
    Costs (deferredSides one k d) 2 (22 + 8 * (k - 2)) (46 + 16 * (k - 2)) fun _ => True := by
  unfold deferredSides
  have hm : ∀ {a b : AllocatedNum F}, Costs (a.mul b) 0 1 2 fun _ => True := AllocatedNum.costs_mul
  refine (Costs.then AllocatedNum.costs_invert fun _ _ => Costs.then AllocatedNum.costs_invert fun _ _ =>
    Costs.then hm fun _ _ => Costs.then hm fun _ _ => Costs.then hm fun _ _ =>
    (?_ : Costs _ 0 (17 + 8 * (k - 2)) (34 + 16 * (k - 2)) _)).eq ?_ ?_ ?_
  · split
    · exact costs_panic
    · refine (Costs.then costs_squareTimes fun _ _ => Costs.then costs_squareTimes fun _ _ =>
        Costs.then costs_squareTimes fun _ _ => Costs.then costs_squareTimes fun _ _ =>
        Costs.then costs_squareTimes fun _ _ => Costs.then hm fun _ _ => Costs.then hm fun _ _ =>
        Costs.then hm fun _ _ => Costs.then hm fun _ _ => Costs.then hm fun _ _ => Costs.then hm fun _ _ =>
        Costs.then hm fun _ _ => Costs.then hm fun _ _ => Costs.then hm fun _ _ => Costs.then hm fun _ _ =>
        Costs.then costs_computeThing fun _ _ => Costs.then costs_computeThing fun _ _ =>
        Costs.then Combination.costs_mul fun _ _ => Costs.then hm fun _ _ => Costs.then hm fun _ _ =>
        Costs.then Combination.costs_mul fun _ _ => Costs.then hm fun _ _ => costs_pure trivial).eq ?_ ?_ ?_
      all_goals ring
  all_goals ring

omit [FieldApi F] in
theorem costs_enforceIs {c : Combination F} {v : AllocatedNum F} : Costs (enforceIs one c v) 0 0 1 fun _ => True :=
  costs_enforce

theorem costs_rootsOf {cs : List (AllocatedNum F)} {k : ℕ} (h : cs.length = k) :
    Costs (rootsOf one cs) (2 * k) (2 * k) (6 * k) fun r => r.1.length = k := by
  unfold rootsOf
  subst h
  refine (Costs.then (costs_mapProg fun _ _ => AllocatedNum.costs_sqrt) fun rs hr => (Costs.then
    ((costs_mapProg fun _ _ => AllocatedNum.costs_invert).eq (congrArg (· * 1) hr.1) (congrArg (· * 1) hr.1)
      (congrArg (· * 3) hr.1)) fun _ _ => costs_pure hr.1)).eq ?_ ?_ ?_
  all_goals ring

theorem costs_verifyDeferred {k : ℕ} {bits : List AllocatedBit} :
    Costs (verifyDeferred one k bits : Prog F _) (18 + 6 * k) (22 + 130 * k + 8 * (k - 2) + 6 * (3 * (k - 1) + 1))
      (69 + 266 * k + 16 * (k - 2) + 6 * (6 * (k - 1) + 2)) fun _ => True := by
  unfold verifyDeferred
  refine (Costs.then costs_unpackDeferred fun d hd => Costs.then costs_deferredSides fun ⟨_, _, _⟩ _ =>
    Costs.then costs_enforce fun _ _ => Costs.then (costs_rootsOf hd.1) fun ⟨_, _⟩ ho =>
    Costs.then (costs_computeB ho) fun _ _ => Costs.then costs_enforceIs fun _ _ =>
    Costs.then (costs_rootsOf hd.2) fun ⟨_, _⟩ hn =>
    Costs.then (costs_computeB hn) fun _ _ => Costs.then (costs_computeB hn) fun _ _ =>
    Costs.then (costs_computeB hn) fun _ _ => Costs.then (costs_computeB hn) fun _ _ =>
    Costs.then (costs_computeB hn) fun _ _ => Costs.then costs_enforceIs fun _ _ =>
    Costs.then costs_enforceIs fun _ _ => Costs.then costs_enforceIs fun _ _ =>
    Costs.then costs_enforceIs fun _ _ => costs_enforceIs).eq ?_ ?_ ?_
  all_goals ring

end
end Recursion
end Halo
