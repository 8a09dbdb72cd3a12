import Verif.Model.Gadget.Rescue
import Verif.Lemmas.Rescue
import Verif.Lemmas.Gadget.Num
import Verif.Lemmas.Gadget.Sha256
/-!
# The Rescue gadget agrees with the Rescue sponge
-/
namespace Halo
namespace Circuit
open Sha256 (foldProg index)
variable {F : Type} [Field F] [LawfulField F] {w : Var → F} {one : Var}

/-- A logic in which numbers are known -/
structure NumLogic (F : Type) [Field F] [LawfulField F] (one : Var) extends Logic F where
  N : Num F → F → Prop
  A : AllocatedNum F → F → Prop
  C : Combination F → F → Prop
  constN : ∀ x, N (.const x) x
  allocN : ∀ {a x}, A a x → N (.ofAllocated a) x
  ofNum : ∀ {n x}, N n x → C (.ofNum n) x
  ofAllocated : ∀ {n x}, A n x → C (.ofAllocated n) x
  addNum : ∀ {c n x y}, C c x → N n y → C (c.addNum n) (x + y)
  addScaled : ∀ {c n x y} (k : F), C c x → N n y → C (c.addScaled (.full k) n) (x + k * y)
  alpha : ∀ {c x}, C c x → holds (c.rescueAlpha one) fun n => N n (x ^ 5)
  invalpha : ∀ {c x}, C c x → holds (c.rescueInvalpha one) fun n => N n (x ^ FieldApi.rescueInvAlpha F)
  evaluate : ∀ {c x}, C c x → holds (c.evaluate one) fun n => N n x
  allocOne : holds (do
    let n ← AllocatedNum.alloc (.ok (1 : F))
    Prog.enforce (n.lc.subVar one)
    return n) fun n => A n 1
  copy : ∀ {c : Combination F} {x}, C c x → holds (do
    let out ← AllocatedNum.alloc (orMissing c.value)
    Prog.enforce (out.lc.subLC (c.lc one))
    return out) fun n => A n x

def NumLogic.sound (h1 : w one = 1) : NumLogic F one where
  toLogic := Logic.sound w
  N n x := n.wire w = x
  A n x := w n.var = x
  C c x := c.wire w = x ∧ c.Wf
  constN _ := rfl
  allocN h := by rw [Num.wire_ofAllocated, h]
  ofNum h := ⟨by rw [Combination.wire_ofNum, h], Combination.wf_ofNum _⟩
  ofAllocated h := ⟨by rw [Combination.wire_ofAllocated, h], Combination.wf_ofAllocated _⟩
  addNum h h' := ⟨by rw [Combination.wire_addNum, h.1, h'], Combination.wf_addNum h.2 _⟩
  addScaled k h h' := ⟨by rw [Combination.wire_addScaled, h.1, h', Coeff.value_full],
    Combination.wf_addScaled h.2 _ _⟩
  alpha h := by rw [← h.1]; exact Combination.rescueAlpha_sound h1 h.2
  invalpha h := by rw [← h.1]; exact Combination.rescueInvalpha_sound h1 h.2
  evaluate h := by rw [← h.1]; exact Combination.evaluate_sound h1 h.2
  allocOne := by
    change Sound w _ _
    simp only [AllocatedNum.alloc, Prog.pure_eq, sound_bind, sound_doAlloc, sound_pure,
      sound_enforce, LC.eval_subVar, AllocatedNum.lc, LC.eval_ofVar, sub_eq_zero, h1]
    exact fun _ _ h => h
  copy h := by
    change Sound w _ _
    simp only [AllocatedNum.alloc, Prog.pure_eq, sound_bind, sound_doAlloc, sound_pure,
      sound_enforce, LC.eval_subLC, AllocatedNum.lc, LC.eval_ofVar, sub_eq_zero,
      Combination.eval_lc h1, h.1]
    exact fun _ _ h => h

def NumLogic.complete (h1 : w one = 1) : NumLogic F one where
  toLogic := Logic.complete w
  N n x := n.Honest w ∧ n.wire w = x
  A n x := n.Honest w ∧ w n.var = x
  C c x := c.Honest w ∧ c.wire w = x
  constN _ := ⟨rfl, rfl⟩
  allocN h := ⟨Num.honest_ofAllocated h.1, by rw [Num.wire_ofAllocated, h.2]⟩
  ofNum h := ⟨Combination.honest_ofNum h.1, by rw [Combination.wire_ofNum, h.2]⟩
  ofAllocated h := ⟨Combination.honest_ofAllocated h.1, by rw [Combination.wire_ofAllocated, h.2]⟩
  addNum h h' := ⟨Combination.honest_addNum h.1 h'.1, by rw [Combination.wire_addNum, h.2, h'.2]⟩
  addScaled k h h' := ⟨Combination.honest_addScaled _ h.1 h'.1,
    by rw [Combination.wire_addScaled, h.2, h'.2, Coeff.value_full]⟩
  alpha h := by rw [← h.2]; exact Combination.rescueAlpha_complete h1 h.1
  invalpha h := by rw [← h.2]; exact Combination.rescueInvalpha_complete h1 h.1
  evaluate h := by rw [← h.2]; exact Combination.evaluate_complete h1 h.1
  allocOne := Complete.bind (AllocatedNum.alloc_complete 1) fun n hn => by
    simp only [Prog.pure_eq, complete_bind, complete_pure,
      complete_enforce, LC.eval_subVar, AllocatedNum.lc, LC.eval_ofVar, sub_eq_zero, h1]
    exact ⟨hn.2, hn⟩
  copy {c x} h := by
    have hv := h.1
    rw [Combination.Honest, h.2] at hv
    rw [hv]
    exact Complete.bind (AllocatedNum.alloc_complete x) fun n hn => by
      simp only [Prog.pure_eq, complete_bind, complete_pure,
        complete_enforce, LC.eval_subLC, AllocatedNum.lc, LC.eval_ofVar, sub_eq_zero,
        Combination.eval_lc h1, h.2]
      exact ⟨hn.2, hn⟩

omit [Field F] [LawfulField F] in
theorem Logic.mapProg_rel (L : Logic F) {α β γ δ : Type} {R : α → γ → Prop} {S : β → δ → Prop}
    {f : α → Prog F β} {g : γ → δ} (hf : ∀ a c, R a c → L.holds (f a) fun b => S b (g c))
    {xs : List α} {vs : List γ} (h : List.Forall₂ R xs vs) :
    L.holds (Circuit.mapProg f xs) fun ys => List.Forall₂ S ys (vs.map g) := by
  induction h with
  | nil => exact L.ret .nil
  | cons h _ ih =>
    exact L.bind (hf _ _ h) fun _ hy => L.bind ih fun _ hys => L.ret (.cons hy hys)

theorem forall₂_vec {α β : Type} {R : α → β → Prop} {n : ℕ} {l : List α} {v : Vector β n} :
    List.Forall₂ R l v.toList ↔ l.length = n ∧ ∀ i (h : i < n) (h' : i < l.length), R l[i] v[i] := by
  rw [List.forall₂_iff_get]
  simp only [Vector.length_toList, List.get_eq_getElem, Vector.getElem_toList]
  exact ⟨fun ⟨h1, h2⟩ => ⟨h1, fun i h h' => h2 i h' h⟩, fun ⟨h1, h2⟩ => ⟨h1, fun i h' h => h2 i h h'⟩⟩

namespace RescueGadget
variable (L : NumLogic F one)
open Rescue (M rate addVec mds sbox)

theorem holds_sboxes (r : ℕ) {cs : List (Combination F)} {s : Vector F M}
    (h : List.Forall₂ L.C cs s.toList) :
    L.holds (sboxes one r cs) fun ns => List.Forall₂ L.N ns (sbox r s).toList := by
  rw [sbox, Vector.toList_map]
  refine L.mapProg_rel (fun c x hc => ?_) h
  split
  · exact L.invalpha hc
  · exact L.alpha hc

theorem rel_rowSum (row : List F) {ns : List (Num F)} {xs : List F} (h : List.Forall₂ L.N ns xs) :
    ∀ {c : Combination F} {x : F}, L.C c x →
      L.C ((row.zip ns).foldl (fun sum t => sum.addScaled (.full t.1) t.2) c)
        ((row.zip xs).foldl (fun sum t => sum + t.1 * t.2) x) := by
  induction h generalizing row with
  | nil => intro c x hc; simpa using hc
  | cons h _ ih =>
    intro c x hc
    cases row with
    | nil => simpa using hc
    | cons k row =>
      rw [List.zip_cons_cons, List.zip_cons_cons, List.foldl_cons, List.foldl_cons]
      exact ih row (L.addScaled k hc h)

theorem rel_mixed {ns ks : List (Num F)} {s k : Vector F M} (h : List.Forall₂ L.N ns s.toList)
    (hk : List.Forall₂ L.N ks k.toList) :
    List.Forall₂ L.C (mixed ns ks) (addVec (mds s) k).toList := by
  rw [forall₂_vec] at hk ⊢
  refine ⟨by simp [mixed, mdsMatrix, hk.1], fun i hi hi' => ?_⟩
  have hki := hk.2 i hi (by omega)
  simp only [mixed, List.getElem_map, List.getElem_zip, mdsMatrix, List.getElem_range]
  have hv : (addVec (mds s) k)[i] = (mds s)[i] + k[i] := by simp [addVec]
  rw [hv]
  refine L.addNum ?_ hki
  have hm : (mds s)[i] = (((List.range M).map fun j => Rescue.mdsEntry (F := F) i j).zip
      s.toList).foldl (fun sum t => sum + t.1 * t.2) 0 := by
    have hz : ((List.range M).map fun j => Rescue.mdsEntry (F := F) i j).zip s.toList =
        (List.finRange M).map fun j => (Rescue.mdsEntry i j.1, s[j]) := by
      apply List.ext_getElem (by simp)
      intro n h1 h2
      simp
    rw [hz, List.foldl_map]
    simp [mds]
  rw [hm]
  exact rel_rowSum L _ h (L.ofNum (L.constN 0))

/-- The gadget's key schedule stands for the key schedule of the sponge. -/
def KeyRel (ks : List (List (Num F))) : Prop :=
  ks.length = 2 * Rescue.rounds + 1 ∧
    ∀ i (h : i < ks.length), List.Forall₂ L.N ks[i] (Rescue.key (F := F) i).toList

theorem holds_key {ks : List (List (Num F))} (h : KeyRel L ks) {i : ℕ} (hi : i < 2 * Rescue.rounds + 1) :
    L.holds (index ks i) fun k => List.Forall₂ L.N k (Rescue.key (F := F) i).toList := by
  have hl : i < ks.length := by rw [h.1]; exact hi
  exact L.orPanic (a := ks[i]) (by simp [hl]) (h.2 i hl)

theorem rel_add {cs : List (Combination F)} {ns : List (Num F)} {s k : Vector F M}
    (h : List.Forall₂ L.C cs s.toList) (hk : List.Forall₂ L.N ns k.toList) :
    List.Forall₂ L.C (List.zipWith Combination.addNum cs ns) (addVec s k).toList := by
  rw [forall₂_vec] at *
  refine ⟨by simp [h.1, hk.1], fun i hi hi' => ?_⟩
  have hv : (addVec s k)[i] = s[i] + k[i] := by simp [addVec]
  rw [hv, List.getElem_zipWith]
  exact L.addNum (h.2 i hi (by rw [h.1]; exact hi)) (hk.2 i hi (by rw [hk.1]; exact hi))

theorem holds_rescueF {ks : List (List (Num F))} (hk : KeyRel L ks) {cs : List (Combination F)}
    {s : Vector F M} (h : List.Forall₂ L.C cs s.toList) :
    L.holds (rescueF one ks cs) fun r =>
      List.Forall₂ L.C r (Rescue.permute Rescue.key s).toList := by
  refine L.bind (holds_key L hk (by omega)) fun k0 hk0 => ?_
  have := L.foldProg (f := fun state r => do
      let mid ← sboxes one r state
      let key ← index ks (r + 1)
      return mixed mid key) (xs := List.range (2 * Rescue.rounds))
    (s := List.zipWith Combination.addNum cs k0)
    (fun n r => List.Forall₂ L.C r ((List.range n).foldl
      (fun s r => addVec (mds (sbox r s)) (Rescue.key (r + 1))) (addVec s (Rescue.key 0))).toList) 0
    (rel_add L h hk0) fun i x st hi hst => by
      simp only [List.getElem?_eq_some_iff, List.getElem_range, List.length_range] at hi
      obtain ⟨hlt, rfl⟩ := hi
      rw [zero_add] at hst ⊢
      refine L.bind (holds_sboxes L i hst) fun mid hmid => ?_
      refine L.bind (holds_key L hk (i := i + 1) (by omega)) fun key hkey => L.ret ?_
      rw [List.range_succ, List.foldl_append]
      exact rel_mixed L hmid hkey
  rw [zero_add, List.length_range] at this
  exact this

theorem rel_replicate {α β : Type} {R : α → β → Prop} {a : α} {b : β} (h : R a b) (n : ℕ) :
    List.Forall₂ R (List.replicate n a) (Vector.replicate n b).toList := by
  rw [Vector.toList_replicate]
  exact forall₂_replicate h n

theorem holds_evaluate {cs : List (Combination F)} {s : Vector F M}
    (h : List.Forall₂ L.C cs s.toList) :
    L.holds (mapProg (fun c => Combination.evaluate one c) cs) fun ns =>
      List.Forall₂ L.N ns s.toList := by
  have := L.mapProg_rel (S := L.N) (g := id) (f := fun c => Combination.evaluate one c)
    (fun c x hc => L.evaluate hc) h
  rwa [List.map_id] at this

theorem holds_generateKeySchedule :
    L.holds (generateKeySchedule one (List.replicate M (.const 0))) (KeyRel L) := by
  have hones : List.Forall₂ L.N (List.replicate M (.const 1)) (Rescue.ones (F := F)).toList :=
    rel_replicate (L.constN 1) M
  have h0 : List.Forall₂ L.C (List.zipWith (fun e k => (Combination.ofNum e).addNum k)
      (List.replicate M (.const 0)) (List.replicate M (.const 1)))
      (Rescue.key (F := F) 0).toList := by
    rw [forall₂_vec]
    refine ⟨by simp, fun i hi hi' => ?_⟩
    have hc := L.addNum (L.ofNum (L.constN 0)) (L.constN 1)
    simp only [List.getElem_zipWith, List.getElem_replicate]
    convert hc using 1
    simp [Rescue.key, Rescue.keySchedule, addVec, Rescue.ones]
  refine L.bind (holds_evaluate L h0) fun key0 hkey0 => ?_
  have := L.foldProg (f := fun (s : List (Combination F) × List (List (Num F))) r => do
      let mid ← sboxes one r s.1
      let state := mixed mid (List.replicate M (.const 1))
      let key ← mapProg (fun c => Combination.evaluate one c) state
      return (state, s.2 ++ [key])) (xs := List.range (2 * Rescue.rounds))
    (s := (List.zipWith (fun e k => (Combination.ofNum e).addNum k)
      (List.replicate M (.const 0)) (List.replicate M (.const 1)), [key0]))
    (fun n r => List.Forall₂ L.C r.1 (Rescue.key (F := F) n).toList ∧ r.2.length = n + 1 ∧
      ∀ i (h : i < r.2.length), List.Forall₂ L.N r.2[i] (Rescue.key (F := F) i).toList) 0
    ⟨h0, rfl, fun i hi => by
      simp only [List.length_singleton, Nat.lt_one_iff] at hi
      subst hi
      exact hkey0⟩ fun i x st hi hst => by
      simp only [List.getElem?_eq_some_iff, List.getElem_range, List.length_range] at hi
      obtain ⟨hlt, rfl⟩ := hi
      rw [zero_add] at hst ⊢
      obtain ⟨hs, hl, hks⟩ := hst
      refine L.bind (holds_sboxes L i hs) fun mid hmid => ?_
      have hnext : List.Forall₂ L.C (mixed mid (List.replicate M (.const 1)))
          (Rescue.key (F := F) (i + 1)).toList := rel_mixed L hmid hones
      refine L.bind (holds_evaluate L hnext) fun key hkey => L.ret ⟨hnext, by simp [hl], ?_⟩
      intro j hj
      rw [List.getElem_append]
      split
      · exact hks j _
      · rename_i hj'
        simp only [List.length_append, List.length_singleton] at hj
        have : j = i + 1 := by omega
        subst this
        simpa using hkey
  rw [zero_add, List.length_range] at this
  exact L.bind this fun r hr => L.ret ⟨hr.2.1, hr.2.2⟩

/-! ### The sponge -/

theorem holds_pad {nums : List (Num F)} {buf : List F} (h : List.Forall₂ L.N nums buf)
    (hb : buf.length ≤ 12) :
    L.holds (pad one (nums.map some ++ List.replicate (12 - nums.length) none)) fun r =>
      List.Forall₂ L.N r ((List.range 12).map fun i => buf.getD i 1) := by
  have hrel : ∀ n : AllocatedNum F, L.A n 1 → List.Forall₂ L.N
      ((nums.map some ++ List.replicate (12 - nums.length) none).map fun e => match e with
        | some e => e
        | none => Num.ofAllocated n) ((List.range 12).map fun i => buf.getD i 1) := by
    intro n hn
    have hl := h.length_eq
    have hr : ((List.range 12).map fun i => buf.getD i 1) =
        buf ++ List.replicate (12 - buf.length) 1 := by
      apply List.ext_getElem (by simp; omega)
      intro i h1 h2
      rw [List.getElem_append]
      split
      · rename_i hi; simp [List.getD, hi]
      · rename_i hi; simp [List.getD, Nat.le_of_not_lt hi]
    rw [hr, List.map_append, List.map_replicate, List.map_map, hl]
    refine forall₂_append ?_ (forall₂_replicate (L.allocN hn) _)
    exact (List.forall₂_map_left_iff).2 h
  have := L.bind (Q := fun r => List.Forall₂ L.N r ((List.range 12).map fun i => buf.getD i 1))
    (f := fun n => (Pure.pure ((nums.map some ++ List.replicate (12 - nums.length) none).map fun e => match e with
        | some e => e
        | none => Num.ofAllocated n) : Prog F _)) (L.allocOne) fun n hn => L.ret (hrel n hn)
  simp only [Prog.bind_eq, Prog.bind_assoc, Prog.pure_eq, Prog.pure_bind] at this
  exact this

theorem rel_addFirst {cs : List (Combination F)} {ns : List (Num F)} {s : Vector F M} {buf : List F}
    (h : List.Forall₂ L.C cs s.toList)
    (hn : List.Forall₂ L.N ns ((List.range 12).map fun i => buf.getD i 1)) :
    List.Forall₂ L.C (addFirst cs ns)
      (Vector.ofFn fun i : Fin M => if i.1 < rate then s[i] + buf.getD i 1 else s[i]).toList := by
  have gen : ∀ (cs : List (Combination F)) (ns : List (Num F)), (addFirst cs ns).length = cs.length ∧
      ∀ i (h : i < cs.length) (h' : i < (addFirst cs ns).length), (addFirst cs ns)[i] =
        if hi : i < ns.length then cs[i].addNum ns[i] else cs[i] := by
    intro cs
    induction cs with
    | nil => intro ns; simp [addFirst]
    | cons c cs ih =>
      intro ns
      cases ns with
      | nil => simp [addFirst]
      | cons n ns =>
        refine ⟨by simp [addFirst, (ih ns).1], fun i hi hi' => ?_⟩
        cases i with
        | zero => simp [addFirst]
        | succ i =>
          have := (ih ns).2 i (by simpa using hi) (by simpa [addFirst] using hi')
          simp only [addFirst, List.getElem_cons_succ, this, List.length_cons, Nat.add_lt_add_iff_right]
  rw [forall₂_vec] at h ⊢
  have hl := hn.length_eq
  rw [List.length_map, List.length_range] at hl
  refine ⟨by rw [(gen cs ns).1, h.1], fun i hi hi' => ?_⟩
  rw [(gen cs ns).2 i (by rw [h.1]; exact hi) hi', Vector.getElem_ofFn]
  have hc := h.2 i hi (by rw [h.1]; exact hi)
  by_cases h12 : i < 12
  · rw [dif_pos (by omega), if_pos h12]
    refine L.addNum hc ?_
    have := hn.get (i := i) (by omega) (by simpa using h12)
    simpa using this
  · rw [dif_neg (by omega), if_neg h12]
    exact hc

theorem holds_duplex {ks : List (List (Num F))} (hk : KeyRel L ks) {cs : List (Combination F)}
    {s : Vector F M} (h : List.Forall₂ L.C cs s.toList) {nums : List (Num F)} {buf : List F}
    (hb : List.Forall₂ L.N nums buf) (hl : buf.length ≤ 12) :
    L.holds (duplex one ks cs (nums.map some ++ List.replicate (12 - nums.length) none)) fun r =>
      List.Forall₂ L.C r (Rescue.dup s buf).toList :=
  L.bind (holds_pad L hb hl) fun _ hp => holds_rescueF L hk (rel_addFirst L h hp)

/-- The gadget stands for the specification sponge. -/
inductive Rel : RescueGadget F → Rescue.St F → Prop
  | absorbing {cs : List (Combination F)} {s : Vector F M} {ks : List (List (Num F))}
      {nums : List (Num F)} {buf : List F} (hk : KeyRel L ks) (h : List.Forall₂ L.C cs s.toList)
      (hb : List.Forall₂ L.N nums buf) (hl : buf.length ≤ 12) :
    Rel ⟨.absorbing (nums.map some ++ List.replicate (12 - nums.length) none), cs, ks⟩
      (.absorbing s buf)
  | squeezing {cs : List (Combination F)} {s : Vector F M} {ks : List (List (Num F))} {k : ℕ}
      (hk : KeyRel L ks) (h : List.Forall₂ L.C cs s.toList) (hl : k ≤ 12) :
    Rel ⟨.squeezing (List.replicate k true ++ List.replicate (12 - k) false), cs, ks⟩
      (.squeezing s k)

theorem holds_new : L.holds (new one) fun g => Rel L g (.absorbing (Vector.replicate M 0) []) :=
  L.bind (holds_generateKeySchedule L) fun ks hks => L.ret
    (Rel.absorbing (nums := []) hks (rel_replicate (L.ofNum (L.constN 0)) M) .nil (by simp))

omit [Field F] [LawfulField F] in
theorem fillFirst_eq (v : Num F) (nums : List (Num F)) (m : ℕ) :
    fillFirst v (nums.map some ++ List.replicate m none) =
      if 0 < m then some ((nums ++ [v]).map some ++ List.replicate (m - 1) none) else none := by
  induction nums with
  | nil => cases m <;> simp [fillFirst, List.replicate_succ]
  | cons n nums ih => rw [List.map_cons, List.cons_append, fillFirst, ih]; split <;> simp

theorem rel_absorb_one {cs : List (Combination F)} {s : Vector F M} {ks : List (List (Num F))}
    (hk : KeyRel L ks) (h : List.Forall₂ L.C cs s.toList) {n : Num F} {v : F} (hv : L.N n v) :
    Rel L ⟨.absorb n, cs, ks⟩ (.absorbing s [v]) := by
  have := Rel.absorbing (nums := [n]) hk h (.cons hv .nil) (by simp)
  exact this

theorem holds_absorb {g : RescueGadget F} {st : Rescue.St F} (h : Rel L g st) {n : Num F} {v : F}
    (hv : L.N n v) : L.holds (absorb one n g) fun g' => Rel L g' (st.absorb v) := by
  cases h with
  | @absorbing cs s ks nums buf hk h hb hl =>
    have hlen := hb.length_eq
    simp only [absorb, fillFirst_eq, Rescue.St.absorb]
    by_cases hlt : buf.length < 12
    · rw [if_pos (by omega), if_pos hlt]
      refine L.ret ?_
      have := Rel.absorbing (nums := nums ++ [n]) hk h (forall₂_append hb (.cons hv .nil))
        (by simp; omega)
      rwa [List.length_append, List.length_singleton, Nat.sub_add_eq] at this
    · rw [if_neg (by omega), if_neg hlt]
      exact L.bind (holds_duplex L hk h hb hl) fun r hr => L.ret (rel_absorb_one L hk hr hv)
  | squeezing hk h hl => exact L.ret (rel_absorb_one L hk h hv)

theorem firstFalse_eq (k m : ℕ) : firstFalse (List.replicate k true ++ List.replicate m false) =
    if 0 < m then some k else none := by
  induction k with
  | zero => cases m <;> simp [firstFalse, List.replicate_succ]
  | succ k ih => rw [List.replicate_succ, List.cons_append, firstFalse, ih]; split <;> simp

theorem holds_squeezing {cs : List (Combination F)} {s : Vector F M} {ks : List (List (Num F))}
    {k : ℕ} (hk : KeyRel L ks) (h : List.Forall₂ L.C cs s.toList) (hl : k < 12) (fuel : ℕ) :
    L.holds (squeezeLoop one (fuel + 1)
      ⟨.squeezing (List.replicate k true ++ List.replicate (12 - k) false), cs, ks⟩) fun r =>
        L.A r.1 (Rescue.out s k) ∧ Rel L r.2 (.squeezing s (k + 1)) := by
  have h' := forall₂_vec.1 h
  have hkl : k < cs.length := by rw [h'.1]; exact Nat.lt_succ_of_lt hl
  have hout : Rescue.out s k = s[k] := by
    simp [Rescue.out, List.getD, show k < M from Nat.lt_succ_of_lt hl]
  rw [squeezeLoop]
  simp only [firstFalse_eq, show 0 < 12 - k by omega, if_true]
  refine L.bind (P := fun c => c = cs[k]) (L.orPanic (a := cs[k]) (by simp [hkl]) rfl) ?_
  rintro c rfl
  have hc := h'.2 k (Nat.lt_succ_of_lt hl) hkl
  have hrel : ∀ n : AllocatedNum F, L.A n s[k] → Rel L
      ⟨.squeezing ((List.replicate k true ++ List.replicate (12 - k) false).set k true),
        cs.set k (.ofAllocated n), ks⟩ (.squeezing s (k + 1)) := by
    intro n hn
    have e1 : (List.replicate k true ++ List.replicate (12 - k) false).set k true =
        List.replicate (k + 1) true ++ List.replicate (12 - (k + 1)) false := by
      rw [List.set_append_right _ _ (by simp), List.length_replicate, Nat.sub_self,
        show 12 - k = (12 - (k + 1)) + 1 by omega, List.replicate_succ, List.set_cons_zero,
        List.replicate_succ', List.append_assoc]
      rfl
    rw [e1]
    refine .squeezing hk ?_ (by omega)
    rw [forall₂_vec]
    refine ⟨by simp [h'.1], fun i hi hi' => ?_⟩
    rw [List.getElem_set]
    split
    · rename_i e; subst e; exact L.ofAllocated hn
    · exact h'.2 i hi _
  have := L.bind (f := fun n => (Pure.pure (n, ({
      sponge := .squeezing ((List.replicate k true ++ List.replicate (12 - k) false).set k true)
      state := cs.set k (.ofAllocated n)
      keySchedule := ks } : RescueGadget F)) : Prog F _)) (L.copy hc) (Q := fun r =>
        L.A r.1 (Rescue.out s k) ∧ Rel L r.2 (.squeezing s (k + 1)))
    fun n hn => L.ret ⟨by rw [hout]; exact hn, hrel n hn⟩
  simp only [Prog.bind_eq, Prog.bind_assoc, Prog.pure_eq, Prog.pure_bind] at this
  exact this

theorem holds_absorbing {cs : List (Combination F)} {s : Vector F M} {ks : List (List (Num F))}
    {nums : List (Num F)} {buf : List F} (hk : KeyRel L ks) (h : List.Forall₂ L.C cs s.toList)
    (hb : List.Forall₂ L.N nums buf) (hl : buf.length ≤ 12) (fuel : ℕ) :
    L.holds (squeezeLoop one (fuel + 2)
      ⟨.absorbing (nums.map some ++ List.replicate (12 - nums.length) none), cs, ks⟩) fun r =>
        L.A r.1 (Rescue.out (Rescue.dup s buf) 0) ∧ Rel L r.2 (.squeezing (Rescue.dup s buf) 1) := by
  rw [squeezeLoop]
  exact L.bind (holds_duplex L hk h hb hl) fun r hr =>
    holds_squeezing L hk hr (k := 0) (by omega) fuel

theorem holds_squeeze {g : RescueGadget F} {st : Rescue.St F} (h : Rel L g st) :
    L.holds (squeeze one g) fun r => L.A r.1 st.squeeze.1 ∧ Rel L r.2 st.squeeze.2 := by
  cases h with
  | absorbing hk h hb hl => exact holds_absorbing L hk h hb hl 1
  | @squeezing cs s ks k hk h hl =>
    simp only [Rescue.St.squeeze]
    by_cases hlt : k < 12
    · rw [if_pos hlt]
      exact holds_squeezing L hk h hlt 2
    · rw [if_neg hlt]
      have : k = 12 := by omega
      subst this
      rw [squeeze, squeezeLoop]
      simp only [firstFalse_eq, Nat.sub_self, lt_irrefl, if_false]
      exact holds_absorbing L (nums := []) (buf := []) hk h .nil (by simp) 0

/-- Calls with known arguments -/
inductive CallRel : Call F → Rescue.Call F → Prop
  | absorb {n : Num F} {v : F} (h : L.N n v) : CallRel (.absorb n) (.absorb v)
  | squeeze : CallRel .squeeze .squeeze

theorem holds_run {cs : List (Call F)} {ds : List (Rescue.Call F)}
    (h : List.Forall₂ (CallRel L) cs ds) : ∀ {g : RescueGadget F} {st : Rescue.St F}, Rel L g st →
    L.holds (run one cs g) fun r => List.Forall₂ L.A r.1 (st.run ds).1 ∧ Rel L r.2 (st.run ds).2 := by
  induction h with
  | nil => exact fun h => L.ret ⟨.nil, h⟩
  | cons h _ ih =>
    intro g st hg
    cases h with
    | absorb hv => exact L.bind (holds_absorb L hg hv) fun g' hg' => ih hg'
    | squeeze =>
      exact L.bind (holds_squeeze L hg) fun r hr => L.bind (ih hr.2) fun rs hrs =>
        L.ret ⟨.cons hr.1 hrs.1, hrs.2⟩

theorem holds_history {cs : List (Call F)} {ds : List (Rescue.Call F)}
    (h : List.Forall₂ (CallRel L) cs ds) :
    L.holds (new one >>= run one cs) fun r => ∃ es r', Rescue.run ds Rescue.new = some (es, r') ∧
      List.Forall₂ L.A r.1 es := by
  obtain ⟨r', h1, -⟩ := Rescue.run_rel ds (Rescue.rel_new (F := F))
  exact L.bind (holds_new L) fun g hg => L.mono (holds_run L h hg) fun r hr => ⟨_, r', h1, hr.1⟩

end RescueGadget
end Circuit
end Halo
