import Verif.Model.Rescue
import Verif.Spec.Sponge
import Verif.Lemmas.LawfulField
import Mathlib.Algebra.BigOperators.Fin
import Mathlib.Tactic.Ring
import Mathlib.Tactic.LinearCombination
/-!
# Rescue: structure of the permutation and refinement of the sponge
-/
namespace Halo
namespace Rescue
open SpongeSpec
variable {F : Type} [Field F] [LawfulField F]

/-! ## The permutation -/

theorem mdsEntry_eq (i j : Fin M) : mdsEntry (F := F) i j = ((i : ℕ) + 1 : F) * (j : ℕ) := by
  rw [mdsEntry, LawfulField.fromU64_eq, BitVec.toNat_ofNat]
  have h1 : i.1 < 13 := i.2
  have h2 : j.1 < 13 := j.2
  have : (i.1 + 1) * j.1 ≤ 13 * 13 := Nat.mul_le_mul (by omega) (by omega)
  rw [Nat.mod_eq_of_lt (by omega)]
  push_cast; ring

omit [LawfulField F] in
theorem foldl_eq_sum (n : ℕ) (f : Fin n → F) :
    (List.finRange n).foldl (fun acc j => acc + f j) 0 = ∑ j, f j := by
  have : ∀ (l : List (Fin n)) (a : F), l.foldl (fun acc j => acc + f j) a = a + (l.map f).sum := by
    intro l
    induction l with
    | nil => simp
    | cons x l ih => intro a; simp [ih, add_assoc]
  rw [this, zero_add, ← List.ofFn_eq_map, List.sum_ofFn]

/-- the scalar on which everything depends after a matrix multiplication -/
def trace (s : Vector F M) : F := ∑ j : Fin M, (j : ℕ) * s[j]

theorem mds_eq (s : Vector F M) (i : Fin M) : (mds s)[i] = ((i : ℕ) + 1 : F) * trace s := by
  simp only [mds, Fin.getElem_fin, Vector.getElem_ofFn]
  rw [foldl_eq_sum, trace, Finset.mul_sum]
  apply Finset.sum_congr rfl
  intro j _
  have := mdsEntry_eq (F := F) i j
  simp only [Fin.getElem_fin] at this ⊢
  rw [this]; ring

omit [LawfulField F] in
theorem addVec_get (s k : Vector F M) (i : Fin M) : (addVec s k)[i] = s[i] + k[i] := by
  simp [addVec]

omit [LawfulField F] in
theorem ones_get (i : Fin M) : (ones : Vector F M)[i] = 1 := by
  simp [ones]

omit [Field F] [LawfulField F] in
theorem vec_ext {s t : Vector F M} (h : ∀ i : Fin M, s[i] = t[i]) : s = t :=
  Vector.ext fun i hi => h ⟨i, hi⟩

/-- every permuted state lies on a line -/
theorem permute_line (s : Vector F M) :
    ∃ t : F, ∀ i : Fin M, (permute key s)[i] = ((i : ℕ) + 1 : F) * t + 1 := by
  unfold permute
  rw [show 2 * rounds = 19 + 1 from rfl, List.range_succ, List.foldl_append]
  simp only [List.foldl_cons, List.foldl_nil]
  generalize (List.range 19).foldl _ _ = u
  have hk : (key (F := F) (19 + 1)) = addVec (mds (sbox 19 (key 19))) ones := rfl
  refine ⟨trace (sbox 19 u) + trace (sbox 19 (key 19)), fun i => ?_⟩
  rw [addVec_get, hk, addVec_get, ones_get, mds_eq, mds_eq]
  ring

/-- the sbox exponents are inverse to each other -/
theorem pow_injective (r : ℕ) (x y : F)
    (h : x ^ (if r % 2 = 0 then FieldApi.rescueInvAlpha F else 5) =
      y ^ (if r % 2 = 0 then FieldApi.rescueInvAlpha F else 5)) : x = y := by
  have e := LawfulField.invAlpha (F := F)
  split at h
  · rw [← e x, ← e y, ← pow_mul, ← pow_mul, mul_comm, pow_mul, pow_mul, h]
  · rw [← e x, ← e y, h]

theorem pow_surjective (r : ℕ) (y : F) :
    ∃ x : F, x ^ (if r % 2 = 0 then FieldApi.rescueInvAlpha F else 5) = y := by
  have e := LawfulField.invAlpha (F := F)
  split
  · exact ⟨y ^ 5, e y⟩
  · exact ⟨y ^ FieldApi.rescueInvAlpha F, by rw [← pow_mul, mul_comm, pow_mul, e]⟩

omit [LawfulField F] in
theorem sbox_get [FieldApi F] (r : ℕ) (s : Vector F M) (i : Fin M) :
    (sbox r s)[i] = s[i] ^ (if r % 2 = 0 then FieldApi.rescueInvAlpha F else 5) := by
  simp [sbox]

omit [LawfulField F] in
theorem trace_congr {s t : Vector F M} (h : ∀ i : Fin M, i.1 ≠ 0 → s[i] = t[i]) :
    trace s = trace t := by
  apply Finset.sum_congr rfl
  intro j _
  by_cases hj : j.1 = 0
  · rw [hj]; simp
  · rw [h j hj]

/-- element `0` is ignored -/
theorem permute_congr {s t : Vector F M} (h : ∀ i : Fin M, i.1 ≠ 0 → s[i] = t[i]) :
    permute key s = permute key t := by
  unfold permute
  rw [show 2 * rounds = 19 + 1 from rfl, List.range_succ_eq_map, List.foldl_cons, List.foldl_cons]
  have hm : mds (sbox 0 (addVec s (key 0))) = mds (sbox 0 (addVec t (key 0))) := by
    apply vec_ext
    intro i
    have ht : trace (sbox 0 (addVec s (key 0))) = trace (sbox 0 (addVec t (key 0))) := by
      apply trace_congr
      intro j hj
      rw [sbox_get, sbox_get, addVec_get, addVec_get, h j hj]
    rw [mds_eq, mds_eq, ht]
  rw [hm]

/-! ## The sponge -/

/-- block function of the sponge, on lists -/
def dup (s : Vector F M) (block : List F) : Vector F M :=
  permute key (Vector.ofFn fun i => if i.1 < rate then s[i] + block.getD i 1 else s[i])

/-- state of the specification machine -/
inductive St (F : Type) where
  | absorbing (s : Vector F M) (buf : List F)
  | squeezing (s : Vector F M) (k : ℕ)

def St.absorb (v : F) : St F → St F
  | .absorbing s buf => if buf.length < 12 then .absorbing s (buf ++ [v]) else .absorbing (dup s buf) [v]
  | .squeezing s _ => .absorbing s [v]

omit [LawfulField F] in
/-- read-out -/
def out (s : Vector F M) (i : ℕ) : F := s.toList.getD i 0

def St.squeeze : St F → F × St F
  | .absorbing s buf => (out (dup s buf) 0, .squeezing (dup s buf) 1)
  | .squeezing s k => if k < 12 then (out s k, .squeezing s (k + 1))
    else (out (dup s []) 0, .squeezing (dup s []) 1)

def St.run : List (Call F) → St F → List F × St F
  | [], st => ([], st)
  | .absorb v :: cs, st => run cs (st.absorb v)
  | .squeeze :: cs, st => let (e, st) := st.squeeze; let (es, st) := run cs st; (e :: es, st)

/-- buffer as an array of optional entries -/
def vecOf (buf : List F) : Vector (Option F) rate := Vector.ofFn fun i => buf[i.1]?

def remaining (s : Vector F M) (k : ℕ) : Vector (Option F) rate :=
  Vector.ofFn fun i => if i.1 < k then none else some s[i.1]

inductive Rel : Rescue F → St F → Prop
  | absorbing (s : Vector F M) (buf : List F) (h : buf.length ≤ 12) :
    Rel ⟨.absorbing (vecOf buf), s⟩ (.absorbing s buf)
  | squeezing (s : Vector F M) (k : ℕ) (h : k ≤ 12) :
    Rel ⟨.squeezing (remaining s k), s⟩ (.squeezing s k)

omit [Field F] [LawfulField F] in
theorem vecOf_nil : vecOf ([] : List F) = Vector.replicate rate none := by
  apply Vector.ext; intro i hi; simp [vecOf]

omit [Field F] [LawfulField F] in
theorem fillFirst_vecOf (v : F) (buf : List F) (i : ℕ) (hi : i ≤ buf.length) (hb : buf.length ≤ 12) :
    fillFirst v (vecOf buf) i = if buf.length < 12 then some (vecOf (buf ++ [v])) else none := by
  induction hn : buf.length - i generalizing i with
  | zero =>
    have : i = buf.length := by omega
    subst this
    unfold fillFirst
    by_cases h : buf.length < 12
    · rw [dif_pos h, if_pos h, if_pos (by simp [vecOf])]
      congr 1
      apply Vector.ext
      intro j hj
      rw [Vector.getElem_set]
      simp only [vecOf, Vector.getElem_ofFn]
      rw [List.getElem?_append]
      split
      · rename_i h; subst h; simp
      · split
        · rfl
        · rw [List.getElem?_eq_none (by omega), List.getElem?_eq_none (by simp; omega)]
    · rw [dif_neg h, if_neg h]
  | succ n ih =>
    have hlt : i < buf.length := by omega
    unfold fillFirst
    rw [dif_pos (show i < rate by simp only [rate]; omega), if_neg (by simp [vecOf, hlt])]
    exact ih (i + 1) (by omega) (by omega)

omit [LawfulField F] in
theorem takeFirst_remaining (s : Vector F M) (k : ℕ) (i : ℕ) (hi : i ≤ k) (hk : k ≤ 12) :
    takeFirst (remaining s k) i =
      if k < 12 then some (out s k, remaining s (k + 1)) else none := by
  induction hn : k - i generalizing i with
  | zero =>
    have : i = k := by omega
    subst this
    unfold takeFirst
    by_cases h : i < 12
    · rw [dif_pos h, if_pos h]
      have : (remaining s i)[i] = some (s[i]'(by simp only [M]; omega)) := by simp [remaining]
      simp only [this]
      congr 2
      · simp [out, List.getD, show i < 13 by omega]
      · apply Vector.ext
        intro j hj
        rw [Vector.getElem_set]
        simp only [remaining, Vector.getElem_ofFn]
        split
        · rw [if_pos (by omega)]
        · by_cases hji : j < i
          · rw [if_pos hji, if_pos (by omega)]
          · rw [if_neg hji, if_neg (by omega)]
    · rw [dif_neg h, if_neg h]
  | succ n ih =>
    unfold takeFirst
    have h12 : i < 12 := by omega
    rw [dif_pos h12]
    have : (remaining s k)[i] = none := by simp [remaining]; omega
    simp only [this]
    exact ih (i + 1) (by omega) (by omega)

theorem duplexState_vecOf (s : Vector F M) (buf : List F) :
    duplexState s (vecOf buf) = dup s buf := by
  have : (Vector.ofFn fun i : Fin M => if h : i.1 < rate then s[i] + (pad (vecOf buf))[i.1] else s[i])
      = Vector.ofFn fun i : Fin M => if i.1 < rate then s[i] + buf.getD i 1 else s[i] := by
    apply vec_ext
    intro i
    simp only [Fin.getElem_fin, Vector.getElem_ofFn]
    by_cases h : i.1 < rate
    · simp only [h, dif_pos, if_true, pad, vecOf, Vector.getElem_map, Vector.getElem_ofFn, List.getD]
    · simp only [h, dif_neg, if_false, not_false_eq_true]
  unfold duplexState dup
  simp only
  rw [this]

omit [Field F] [LawfulField F] in
theorem output_eq (s : Vector F M) : output s = remaining s 0 := by
  apply Vector.ext; intro i hi; simp [output, remaining]

theorem absorb_rel {r : Rescue F} {st : St F} (h : Rel r st) (v : F) :
    Rel (absorb v r) (st.absorb v) := by
  have hone : Sponge.absorb v = .absorbing (vecOf [v]) := by
    have : (Vector.replicate rate none).set 0 (some v) = vecOf [v] := by
      apply Vector.ext
      intro j hj
      rw [Vector.getElem_set]
      simp only [vecOf, Vector.getElem_ofFn, Vector.getElem_replicate]
      cases j <;> simp
    rw [Sponge.absorb, this]
  cases h with
  | absorbing s buf h =>
    simp only [absorb, fillFirst_vecOf v buf 0 (by omega) h, St.absorb]
    split
    · rename_i hs
      split at hs
      · cases hs
        rename_i hlt
        rw [if_pos hlt]
        exact .absorbing _ _ (by simp; omega)
      · cases hs
    · rename_i hs
      split at hs
      · cases hs
      · rename_i hlt
        rw [if_neg hlt, hone, duplexState_vecOf]
        exact .absorbing _ _ (by simp)
  | squeezing s k h =>
    simp only [absorb, St.absorb, hone]
    exact .absorbing _ _ (by simp)

theorem squeezeLoop_squeezing (s : Vector F M) (k : ℕ) (hk : k < 12) (fuel : ℕ) :
    squeezeLoop (fuel + 1) ⟨.squeezing (remaining s k), s⟩ =
      some (out s k, ⟨.squeezing (remaining s (k + 1)), s⟩) := by
  rw [squeezeLoop]
  simp only [takeFirst_remaining s k 0 (by omega) hk.le, if_pos hk]

theorem squeezeLoop_absorbing (s : Vector F M) (buf : List F) (fuel : ℕ) :
    squeezeLoop (fuel + 2) ⟨.absorbing (vecOf buf), s⟩ =
      some (out (dup s buf) 0, ⟨.squeezing (remaining (dup s buf) 1), dup s buf⟩) := by
  rw [squeezeLoop]
  simp only [duplexState_vecOf, output_eq]
  exact squeezeLoop_squeezing _ 0 (by omega) fuel

theorem squeeze_rel {r : Rescue F} {st : St F} (h : Rel r st) :
    ∃ r', squeeze r = some (st.squeeze.1, r') ∧ Rel r' st.squeeze.2 := by
  cases h with
  | absorbing s buf h =>
    exact ⟨_, squeezeLoop_absorbing s buf 1, .squeezing _ _ (by omega)⟩
  | squeezing s k h =>
    by_cases hk : k < 12
    · refine ⟨⟨.squeezing (remaining s (k + 1)), s⟩, ?_, ?_⟩
      · rw [squeeze, squeezeLoop_squeezing s k hk]; simp only [St.squeeze, if_pos hk]
      · simp only [St.squeeze, if_pos hk]; exact .squeezing _ _ (by omega)
    · have : k = 12 := by omega
      subst this
      refine ⟨⟨.squeezing (remaining (dup s []) 1), dup s []⟩, ?_, ?_⟩
      · rw [squeeze, squeezeLoop]
        simp only [takeFirst_remaining s 12 0 (by omega) le_rfl, lt_irrefl, if_false, ← vecOf_nil]
        rw [squeezeLoop_absorbing s [] 0]
        simp only [St.squeeze, lt_irrefl, if_false]
      · simp only [St.squeeze, lt_irrefl, if_false]; exact .squeezing _ _ (by omega)

theorem run_rel (cs : List (Call F)) : ∀ {r : Rescue F} {st : St F}, Rel r st →
    ∃ r', run cs r = some ((st.run cs).1, r') ∧ Rel r' (st.run cs).2 := by
  induction cs with
  | nil => intro r st h; exact ⟨r, rfl, h⟩
  | cons c cs ih =>
    intro r st h
    cases c with
    | absorb v => exact ih (absorb_rel h v)
    | squeeze =>
      obtain ⟨r1, h1, h2⟩ := squeeze_rel h
      obtain ⟨r2, h3, h4⟩ := ih h2
      refine ⟨r2, ?_, h4⟩
      simp only [run, h1, Option.bind_eq_bind, Option.bind_some, h3]
      rfl

omit [LawfulField F] in
theorem rel_new : Rel (new : Rescue F) (.absorbing (Vector.replicate M 0) []) := by
  have := Rel.absorbing (Vector.replicate M (0 : F)) [] (by simp)
  rwa [vecOf_nil] at this

theorem St.run_append (cs ds : List (Call F)) (st : St F) :
    st.run (cs ++ ds) = ((st.run cs).1 ++ ((st.run cs).2.run ds).1, ((st.run cs).2.run ds).2) := by
  induction cs generalizing st with
  | nil => rfl
  | cons c cs ih =>
    cases c with
    | absorb v => exact ih _
    | squeeze => simp only [List.cons_append, St.run, ih]

/-! ## Closed form by phases -/

/-- state that the next squeeze permutes to -/
theorem absorbs_then (xs : List F) : ∀ (s : Vector F M) (buf : List F), buf.length ≤ 12 →
    ∃ s' buf', St.run (xs.map .absorb) (.absorbing s buf) = ([], .absorbing s' buf') ∧
      dup s' buf' = absorbAll dup s (buf ++ xs) := by
  induction xs with
  | nil =>
    intro s buf h
    refine ⟨s, buf, rfl, ?_⟩
    rw [absorbAll, if_pos (by simpa using h), List.append_nil]
  | cons x xs ih =>
    intro s buf h
    simp only [List.map_cons, St.run, St.absorb]
    by_cases hb : buf.length < 12
    · rw [if_pos hb]
      obtain ⟨s', buf', h1, h2⟩ := ih s (buf ++ [x]) (by simp; omega)
      exact ⟨s', buf', h1, by rw [h2, List.append_assoc]; rfl⟩
    · rw [if_neg hb]
      obtain ⟨s', buf', h1, h2⟩ := ih (dup s buf) [x] (by simp)
      refine ⟨s', buf', h1, ?_⟩
      have hl : buf.length = 12 := by omega
      rw [h2, absorbAll.eq_def dup s, if_neg (by simp; omega), List.take_left' hl,
        List.drop_left' hl]
      rfl

theorem squeezes (m : ℕ) : ∀ (s : Vector F M) (j : ℕ),
    St.run (List.replicate m .squeeze)
      (.squeezing ((fun s => dup s [])^[j / 12] s) (j % 12 + 1)) =
    ((List.range m).map (fun i => stream dup out s (j + 1 + i)),
      .squeezing ((fun s => dup s [])^[(j + m) / 12] s) ((j + m) % 12 + 1)) := by
  induction m with
  | zero => intro s j; rfl
  | succ m ih =>
    intro s j
    rw [List.replicate_succ, St.run]
    have hstep : St.squeeze (.squeezing ((fun s : Vector F M => dup s [])^[j / 12] s) (j % 12 + 1)) =
        (stream dup out s (j + 1),
          .squeezing ((fun s => dup s [])^[(j + 1) / 12] s) ((j + 1) % 12 + 1)) := by
      simp only [St.squeeze, stream]
      by_cases h : j % 12 + 1 < 12
      · rw [if_pos h, show (j + 1) / 12 = j / 12 by omega, show (j + 1) % 12 = j % 12 + 1 by omega]
      · rw [if_neg h, show (j + 1) / 12 = j / 12 + 1 by omega, show (j + 1) % 12 = 0 by omega,
          Function.iterate_succ_apply']
    rw [hstep]
    simp only [ih]
    rw [List.range_succ_eq_map, List.map_cons, List.map_map, show j + 1 + m = j + (m + 1) by omega]
    congr 2
    apply List.map_congr_left
    intro i _
    simp only [Function.comp]
    congr 1
    omega

/-- the calls of one phase -/
def phaseCalls (p : List F × ℕ) : List (Call F) :=
  p.1.map .absorb ++ List.replicate (p.2 + 1) .squeeze

theorem phase_absorbing (s : Vector F M) (buf xs : List F) (hb : buf.length ≤ 12) (n : ℕ) :
    St.run (phaseCalls (xs, n)) (.absorbing s buf) =
      ((List.range (n + 1)).map (stream dup out (absorbAll dup s (buf ++ xs))),
        .squeezing ((fun s => dup s [])^[n / 12] (absorbAll dup s (buf ++ xs))) (n % 12 + 1)) := by
  obtain ⟨s', buf', h1, h2⟩ := absorbs_then xs s buf hb
  rw [phaseCalls, St.run_append, h1]
  simp only [List.nil_append]
  rw [List.replicate_succ, St.run]
  simp only [St.squeeze, h2]
  have := squeezes n (absorbAll dup s (buf ++ xs)) 0
  simp only [Nat.zero_div, Function.iterate_zero, id, Nat.zero_mod, zero_add] at this
  rw [this]
  rw [List.range_succ_eq_map, List.map_cons, List.map_map]
  simp only [stream, Nat.zero_div, Function.iterate_zero, id, Nat.zero_mod]
  congr 2
  apply List.map_congr_left
  intro i _
  simp [Function.comp, Nat.add_comm, stream]

theorem phases_run (ps : List (List F × ℕ)) (hne : ∀ p ∈ ps, p.1 ≠ []) :
    ∀ (s : Vector F M) (k : ℕ),
    (St.run (ps.flatMap phaseCalls) (.squeezing s k)).1 = phases dup out s ps := by
  induction ps with
  | nil => intro s k; rfl
  | cons p ps ih =>
    intro s k
    obtain ⟨xs, n⟩ := p
    obtain ⟨x, xs, rfl⟩ := List.exists_cons_of_ne_nil (hne _ List.mem_cons_self)
    rw [List.flatMap_cons, St.run_append]
    have : St.run (phaseCalls (x :: xs, n)) (.squeezing s k) =
        St.run (phaseCalls (xs, n)) (.absorbing s [x]) := rfl
    rw [this, phase_absorbing _ _ _ (by simp)]
    simp only [ih fun p hp => hne p (List.mem_cons_of_mem _ hp)]
    rfl

theorem phases_run_new (p : List F × ℕ) (ps : List (List F × ℕ)) (hne : ∀ p ∈ ps, p.1 ≠ [])
    (s : Vector F M) :
    (St.run ((p :: ps).flatMap phaseCalls) (.absorbing s [])).1 = phases dup out s (p :: ps) := by
  obtain ⟨xs, n⟩ := p
  rw [List.flatMap_cons, St.run_append, phase_absorbing _ _ _ (by simp)]
  simp only [phases_run ps hne, List.nil_append]
  rfl

/-! ## The ignored element -/

theorem dup_head (s : Vector F M) (v v' : F) (b : List F) : dup s (v :: b) = dup s (v' :: b) := by
  unfold dup
  apply permute_congr
  intro i hi
  simp only [Fin.getElem_fin, Vector.getElem_ofFn]
  obtain ⟨j, hj⟩ := Nat.exists_eq_succ_of_ne_zero hi
  simp only [hj, List.getD, List.getElem?_cons_succ, Nat.succ_eq_add_one]

theorem head_run (cs : List (Call F)) : ∀ (s : Vector F M) (v v' : F) (b : List F),
    (St.run cs (.absorbing s (v :: b))).1 = (St.run cs (.absorbing s (v' :: b))).1 := by
  induction cs with
  | nil => intros; rfl
  | cons c cs ih =>
    intro s v v' b
    cases c with
    | absorb w =>
      simp only [St.run, St.absorb, List.length_cons, List.cons_append]
      by_cases h : b.length + 1 < 12
      · rw [if_pos h, if_pos h]; exact ih _ _ _ _
      · rw [if_neg h, if_neg h, dup_head s v v' b]
    | squeeze => simp only [St.run, St.squeeze, dup_head s v v' b]

/-! ## Facts for the property file -/

theorem St.run_length (cs : List (Call F)) : ∀ st : St F,
    (st.run cs).1.length = cs.countP fun c => c matches .squeeze := by
  induction cs with
  | nil => intro st; rfl
  | cons c cs ih =>
    intro st
    cases c with
    | absorb v => simp only [St.run, ih, List.countP_cons]; simp
    | squeeze => simp only [St.run, List.length_cons, ih, List.countP_cons]; simp

theorem St.run_absorbs (xs : List F) : ∀ st : St F, (st.run (xs.map .absorb)).1 = [] := by
  induction xs with
  | nil => intro st; rfl
  | cons x xs ih => intro st; exact ih _

theorem St.squeeze_squeezing (st : St F) : ∃ s k, st.squeeze.2 = .squeezing s k := by
  cases st with
  | absorbing s buf => exact ⟨_, _, rfl⟩
  | squeezing s k =>
    simp only [St.squeeze]
    split <;> exact ⟨_, _, rfl⟩

def St.Ok : St F → Prop
  | .absorbing _ buf => buf.length ≤ 12
  | .squeezing _ _ => True

theorem St.absorb_absorbing (st : St F) (h : st.Ok) (v : F) :
    ∃ s buf, buf.length ≤ 12 ∧ st.absorb v = .absorbing s buf := by
  cases st with
  | absorbing s buf =>
    simp only [St.absorb]
    split
    · exact ⟨_, _, by simp; omega, rfl⟩
    · exact ⟨_, [v], by simp, rfl⟩
  | squeezing s k => exact ⟨_, [v], by simp, rfl⟩

theorem St.Ok_run (cs : List (Call F)) : ∀ st : St F, st.Ok → (st.run cs).2.Ok := by
  induction cs with
  | nil => intro st h; exact h
  | cons c cs ih =>
    intro st h
    cases c with
    | absorb v =>
      apply ih
      obtain ⟨s, buf, h1, h2⟩ := St.absorb_absorbing st h v
      rw [h2]; exact h1
    | squeeze =>
      obtain ⟨s, k, hs⟩ := St.squeeze_squeezing st
      refine ih st.squeeze.2 ?_
      rw [hs]; trivial

theorem absorbAll_line (s : Vector F M) (xs : List F) :
    ∃ t : F, ∀ i : Fin M, (absorbAll dup s xs)[i] = ((i : ℕ) + 1 : F) * t + 1 := by
  induction h : xs.length using Nat.strong_induction_on generalizing s xs with
  | _ n ih =>
    rw [absorbAll]
    split
    · exact permute_line _
    · exact ih _ (by simp; omega) _ _ rfl

theorem dup_append_one (s : Vector F M) (xs : List F) : dup s (xs ++ [1]) = dup s xs := by
  have : (Vector.ofFn fun i : Fin M => if i.1 < rate then s[i] + (xs ++ [1]).getD i 1 else s[i]) =
      Vector.ofFn fun i : Fin M => if i.1 < rate then s[i] + xs.getD i 1 else s[i] := by
    apply vec_ext
    intro i
    simp only [Fin.getElem_fin, Vector.getElem_ofFn]
    have : (xs ++ [1]).getD i 1 = xs.getD i 1 := by
      simp only [List.getD, List.getElem?_append]
      split
      · rfl
      · rename_i h
        rw [List.getElem?_eq_none (l := xs) (by omega)]
        cases h' : i.1 - xs.length with
        | zero => simp
        | succ n => simp
    rw [this]
  unfold dup
  rw [this]

theorem absorbAll_append_one (s : Vector F M) (xs : List F) (h : xs = [] ∨ xs.length % 12 ≠ 0) :
    absorbAll dup s xs = absorbAll dup s (xs ++ [1]) := by
  induction hn : xs.length using Nat.strong_induction_on generalizing s xs with
  | _ n ih =>
    by_cases hle : xs.length ≤ 12
    · have hlt : xs.length < 12 := by
        rcases h with rfl | h
        · simp
        · omega
      rw [absorbAll.eq_def dup s xs, absorbAll.eq_def dup s (xs ++ [1]), if_pos hle, if_pos (by simp; omega), dup_append_one]
    · rw [absorbAll.eq_def dup s xs, absorbAll.eq_def dup s (xs ++ [1]), if_neg hle,
        if_neg (by simp; omega), List.take_append_of_le_length (by omega),
        List.drop_append_of_le_length (by omega)]
      refine ih _ ?_ _ _ (Or.inr ?_) rfl
      · simp; omega
      · rcases h with rfl | h
        · simp at hle
        · simp; omega

end Rescue
end Halo
