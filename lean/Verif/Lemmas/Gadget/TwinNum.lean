import Verif.Lemmas.Gadget.Twin
import Verif.Model.Gadget.Rescue
/-!
# The number gadgets ask for the same constraints, whatever values they know
-/
set_option linter.unusedSectionVars false
namespace Halo
namespace Circuit
variable {F : Type} {α β : Type} {V : Var → Prop}

/-- The same bit, up to its value, or the same constant -/
inductive Boolean.Twin (V : Var → Prop) : Boolean → Boolean → Prop
  | is {b b'} (h : AllocatedBit.Twin V b b') : Boolean.Twin V (.is b) (.is b')
  | not {b b'} (h : AllocatedBit.Twin V b b') : Boolean.Twin V (.not b) (.not b')
  | constant (c : Bool) : Boolean.Twin V (.constant c) (.constant c)

/-- The same number, up to its value -/
inductive AllocatedNum.Twin (V : Var → Prop) : AllocatedNum F → AllocatedNum F → Prop
  | mk (v v' : Option F) (x : Var) (hx : V x) : AllocatedNum.Twin V ⟨v, x⟩ ⟨v', x⟩

/-- The same number, up to its value, or the same constant -/
inductive Num.Twin (V : Var → Prop) : Num F → Num F → Prop
  | constant (c : Coeff F) : Num.Twin V (.constant c) (.constant c)
  | allocated (c : Coeff F) {n n'} (h : AllocatedNum.Twin V n n') : Num.Twin V (.allocated c n) (.allocated c n')

/-- Combinations of the same numbers; the value of a constant is known. -/
structure Combination.Twin (V : Var → Prop) (a a' : Combination F) : Prop where
  terms : List.Forall₂ (Num.Twin V) a.terms a'.terms
  value : a'.terms.all Num.isConstant = true → ∃ v, a.value = some v ∧ a'.value = some v

section
variable {b b' : AllocatedBit}

theorem AllocatedBit.Twin.var (h : AllocatedBit.Twin V b b') : b'.var = b.var := by cases h; rfl
theorem AllocatedBit.Twin.mem (h : AllocatedBit.Twin V b b') : V b.var := by cases h; assumption

end

theorem AllocatedNum.in_lc [Field F] {n : AllocatedNum F} (h : V n.var) : n.lc.In V := LC.in_ofVar h

/-- All variables of a combination are in `V`. -/
macro "lc_in" : tactic => `(tactic| repeat' (with_reducible first
  | assumption
  | refine LC.in_zero
  | refine LC.in_add ?_ ?_ | refine LC.in_sub ?_ ?_ | refine LC.in_addVar ?_ ?_ | refine LC.in_subVar ?_ ?_
  | refine LC.in_ofVar ?_ | refine AllocatedNum.in_lc ?_ | refine LC.in_addLC ?_ ?_ | refine LC.in_subLC ?_ ?_))

section
variable [Field F] {one : Var} {n n' : Num F} {a a' : AllocatedNum F} {c c' d d' : Combination F}
  {R : α → β → Prop}

theorem AllocatedNum.Twin.var (h : AllocatedNum.Twin V a a') : a'.var = a.var := by cases h; rfl
theorem AllocatedNum.Twin.mem (h : AllocatedNum.Twin V a a') : V a.var := by cases h; assumption
theorem AllocatedNum.Twin.lc (h : AllocatedNum.Twin V a a') : a'.lc = a.lc := by cases h; rfl
theorem AllocatedNum.Twin.in (h : AllocatedNum.Twin V a a') : a.lc.In V := by
  cases h; exact LC.in_ofVar (by assumption)

theorem AllocatedNum.Twin.ofBit {b b' : AllocatedBit} (h : AllocatedBit.Twin V b b') :
    AllocatedNum.Twin (F := F) V (.ofBit b) (.ofBit b') := by cases h; exact ⟨_, _, _, by assumption⟩

theorem Num.Twin.lc (h : Num.Twin V n n') : n'.lc one = n.lc one := by
  cases h with
  | constant => rfl
  | allocated _ h => cases h; rfl

theorem Num.Twin.in (h : Num.Twin V n n') (h1 : V one) : (n.lc one).In V := by
  cases h with
  | constant => exact LC.in_add LC.in_zero h1
  | allocated _ h => cases h; exact LC.in_add LC.in_zero (by assumption)

theorem Num.Twin.ofAllocated (h : AllocatedNum.Twin V a a') : Num.Twin V (.ofAllocated a) (.ofAllocated a') :=
  .allocated _ h

theorem Num.Twin.neg (h : Num.Twin V n n') : Num.Twin V n.neg n'.neg := by
  cases h with
  | constant => exact .constant _
  | allocated _ h => exact .allocated _ h

theorem Num.Twin.scale (h : Num.Twin V n n') (k : F) : Num.Twin V (n.scale k) (n'.scale k) := by
  cases h with
  | constant => exact .constant _
  | allocated _ h => exact .allocated _ h

theorem Num.Twin.scaled (h : Num.Twin V n n') (k : Coeff F) : Num.Twin V (n.scaled k) (n'.scaled k) := by
  cases h with
  | constant => exact .constant _
  | allocated _ h => exact .allocated _ h

theorem Num.Twin.const (v : F) : Num.Twin V (.const v) (.const v) := .constant _

theorem Num.Twin.value (h : Num.Twin V n n') (hc : n'.isConstant = true) :
    ∃ v, n.value = some v ∧ n'.value = some v := by
  cases h with
  | constant => exact ⟨_, rfl, rfl⟩
  | allocated _ h => simp [Num.isConstant] at hc

theorem Boolean.Twin.lc {b b' : Boolean} {k : Coeff F} (h : Boolean.Twin V b b') : b'.lc one k = b.lc one k := by
  cases h with
  | constant => rfl
  | is h => cases h; rfl
  | not h => cases h; rfl

theorem Boolean.Twin.in {b b' : Boolean} {k : Coeff F} (h : Boolean.Twin V b b') (h1 : V one) :
    (b.lc one k).In V := by
  cases h with
  | constant c => cases c <;> simp only [Boolean.lc, if_true, Bool.false_eq_true, if_false] <;> lc_in
  | is h => cases h; simp only [Boolean.lc]; lc_in
  | not h => cases h; simp only [Boolean.lc]; lc_in

theorem Boolean.Twin.negate {b b' : Boolean} (h : Boolean.Twin V b b') :
    Boolean.Twin V b.negate b'.negate := by
  cases h with
  | constant => exact .constant _
  | is h => exact .not h
  | not h => exact .is h

namespace Combination

theorem Twin.ofNum (h : Num.Twin V n n') : Twin V (.ofNum n) (.ofNum n') :=
  ⟨.cons h .nil, fun hc => h.value (by simpa [Combination.ofNum] using hc)⟩

theorem Twin.ofAllocated (h : AllocatedNum.Twin V a a') : Twin V (.ofAllocated a) (.ofAllocated a') :=
  ⟨.cons (.ofAllocated h) .nil, fun hc => by
    simp [Combination.ofAllocated, Num.ofAllocated, Num.isConstant] at hc⟩

theorem Twin.zero : Twin V (.zero : Combination F) .zero := ⟨.nil, fun _ => ⟨0, rfl, rfl⟩⟩

theorem Twin.add (h : Twin V c c') (g : Twin V d d') : Twin V (c.add d) (c'.add d') :=
  ⟨List.rel_append h.1 g.1, fun hc => by
    simp only [Combination.add, List.all_append, Bool.and_eq_true] at hc
    obtain ⟨v, e1, e2⟩ := h.2 hc.1
    obtain ⟨w, e3, e4⟩ := g.2 hc.2
    exact ⟨v + w, by simp [Combination.add, both, e1, e3], by simp [Combination.add, both, e2, e4]⟩⟩

theorem Twin.addNum (h : Twin V c c') (g : Num.Twin V n n') : Twin V (c.addNum n) (c'.addNum n') :=
  h.add (.ofNum g)

theorem Twin.addAllocated (h : Twin V c c') (g : AllocatedNum.Twin V a a') :
    Twin V (c.addAllocated a) (c'.addAllocated a') := h.add (.ofAllocated g)

theorem Twin.subAllocated (h : Twin V c c') (g : AllocatedNum.Twin V a a') :
    Twin V (c.subAllocated a) (c'.subAllocated a') :=
  ⟨List.rel_append h.1 (.cons (Num.Twin.ofAllocated g).neg .nil), fun hc => by
    simp [Combination.subAllocated, Num.ofAllocated, Num.neg, Num.isConstant] at hc⟩

theorem Twin.addScaled (h : Twin V c c') (k : Coeff F) (g : Num.Twin V n n') :
    Twin V (c.addScaled k n) (c'.addScaled k n') :=
  ⟨List.rel_append h.1 (.cons (g.scaled k) .nil), fun hc => by
    simp only [Combination.addScaled, List.all_append, List.all_cons, List.all_nil, Bool.and_true,
      Bool.and_eq_true] at hc
    obtain ⟨v, e1, e2⟩ := h.2 hc.1
    obtain ⟨w, e3, e4⟩ := g.value (by cases g <;> simp_all [Num.scaled, Num.isConstant])
    exact ⟨_, by simp only [Combination.addScaled, both, e1, e3, Option.bind_some]; rfl,
      by simp only [Combination.addScaled, both, e2, e4, Option.bind_some]⟩⟩

theorem Twin.scale (h : Twin V c c') (k : F) : Twin V (c.scale k) (c'.scale k) :=
  ⟨by
    simp only [Combination.scale, List.forall₂_map_left_iff, List.forall₂_map_right_iff]
    exact h.1.imp fun _ _ h => h.scale k, fun hc => by
    obtain ⟨v, e1, e2⟩ := h.2 (by
      simp only [Combination.scale, List.all_map] at hc
      simp only [List.all_eq_true] at hc ⊢
      intro x hx
      have := hc x hx
      cases x <;> simp_all [Num.scale, Num.isConstant])
    exact ⟨v * k, by simp [Combination.scale, e1], by simp [Combination.scale, e2]⟩⟩

theorem Twin.lc (h : Twin V c c') : c'.lc one = c.lc one := by
  unfold Combination.lc
  obtain ⟨_, ts⟩ := c
  obtain ⟨_, ts'⟩ := c'
  have := h.1
  simp only at this ⊢
  generalize LC.zero = acc
  clear h
  induction this generalizing acc with
  | nil => rfl
  | cons h _ ih => rw [List.foldl_cons, List.foldl_cons, h.lc, ih]

theorem Twin.in (h : Twin V c c') (h1 : V one) : (c.lc one).In V := by
  unfold Combination.lc
  obtain ⟨_, ts⟩ := c
  obtain ⟨_, ts'⟩ := c'
  have := h.1
  simp only at this ⊢
  have h0 : (LC.zero : LC F).In V := LC.in_zero
  revert h0
  generalize LC.zero = acc
  clear h
  induction this generalizing acc with
  | nil => exact id
  | cons h _ ih => exact fun h0 => ih _ (LC.in_addLC h0 (h.in h1))

theorem Twin.anyAllocated (h : Twin V c c') : c'.anyAllocated = c.anyAllocated := by
  unfold Combination.anyAllocated
  obtain ⟨_, ts⟩ := c
  obtain ⟨_, ts'⟩ := c'
  have := h.1
  simp only at this ⊢
  clear h
  induction this with
  | nil => rfl
  | cons h _ ih => rw [List.any_cons, List.any_cons, ih]; cases h <;> rfl

theorem Twin.constant (h : Twin V c c') (hc : c.anyAllocated = false) :
    ∃ v, c.value = some v ∧ c'.value = some v := by
  refine h.2 ?_
  rw [← h.anyAllocated, Combination.anyAllocated, List.any_eq_false] at hc
  rw [List.all_eq_true]
  intro x hx
  simpa using hc x hx

end Combination

/-! ### Gadgets -/

theorem twin_numAlloc {v v' : Except SynthesisError F} {f : AllocatedNum F → Prog F α}
    {f' : AllocatedNum F → Prog F β}
    (h : ∀ x, V x → Twin V (f ⟨v.toOption, x⟩) (f' ⟨v'.toOption, x⟩) R) :
    Twin V (AllocatedNum.alloc v >>= f) (AllocatedNum.alloc v' >>= f') R :=
  fun x _ hx => h x hx

theorem twin_bitAlloc {v v' : Except SynthesisError Bool} {f : AllocatedBit → Prog F α}
    {f' : AllocatedBit → Prog F β} (h : ∀ x o, V x → Twin V (f ⟨o, x⟩) (f' ⟨none, x⟩) R) :
    Twin V (AllocatedBit.alloc v >>= f) (AllocatedBit.alloc v' >>= f') R := by
  intro a b c o ha hb hc
  refine ⟨rfl, by lc_in, rfl, by lc_in, ?_⟩
  exact h a _ ha

theorem twin_bitAlloc' {v v' : Except SynthesisError Bool} :
    Twin V (AllocatedBit.alloc v : Prog F AllocatedBit) (AllocatedBit.alloc v') fun b b' =>
      AllocatedBit.Twin V b b' ∧ b'.value = none := by
  intro a b c o ha hb hc
  exact ⟨rfl, by lc_in, rfl, by lc_in, ⟨_, _, _, ha⟩, rfl⟩

theorem twin_mul {b b' : AllocatedNum F} (ha : AllocatedNum.Twin V a a') (hb : AllocatedNum.Twin V b b') :
    Twin V (a.mul b) (a'.mul b') (AllocatedNum.Twin V) := by
  intro l r o _ hl hr ho
  refine ⟨by rw [ha.var], by have := ha.mem; lc_in, by rw [hb.var], by have := hb.mem; lc_in, ?_⟩
  exact ⟨_, _, _, ho⟩

theorem twin_combMul (h1 : V one) (hc : Combination.Twin V c c') (hd : Combination.Twin V d d') :
    Twin V (c.mul one d) (c'.mul one d') (AllocatedNum.Twin V) := by
  intro l r o _ hl hr ho
  refine ⟨by rw [hc.lc], by have := hc.in h1; lc_in, by rw [hd.lc], by have := hd.in h1; lc_in, ?_⟩
  exact ⟨_, _, _, ho⟩

theorem twin_invert [FieldApi F] (h1 : V one) (ha : AllocatedNum.Twin V a a') :
    Twin V (a.invert one) (a'.invert one) (AllocatedNum.Twin V) := by
  unfold AllocatedNum.invert
  refine twin_numAlloc fun x hx => ?_
  intro l r o _ hl hr ho
  refine ⟨rfl, by lc_in, by rw [ha.var], by have := ha.mem; lc_in, rfl, by lc_in, ?_⟩
  exact ⟨_, _, _, hx⟩

theorem twin_sqrt [FieldApi F] (ha : AllocatedNum.Twin V a a') :
    Twin V a.sqrt a'.sqrt (AllocatedNum.Twin V) := by
  unfold AllocatedNum.sqrt
  refine twin_numAlloc fun x hx => ?_
  intro l r o _ hl hr ho
  refine ⟨rfl, by lc_in, rfl, by lc_in, by rw [ha.var], by have := ha.mem; lc_in, ?_⟩
  exact ⟨_, _, _, hx⟩

theorem twin_evaluate (h1 : V one) (hc : Combination.Twin V c c') :
    Twin V (c.evaluate one) (c'.evaluate one) (Num.Twin V) := by
  unfold Combination.evaluate
  rw [hc.anyAllocated]
  split
  · refine twin_numAlloc fun x hx => ?_
    have := hc.in h1
    exact twin_enforce (by rw [hc.lc]; rfl) (LC.in_subLC (LC.in_ofVar hx) this)
      (Twin.ret (.ofAllocated ⟨_, _, _, hx⟩))
  · obtain ⟨v, e1, e2⟩ := hc.constant (by simpa using ‹¬ c.anyAllocated = true›)
    rw [e1, e2]
    exact Twin.ret (.const v)

theorem twin_constrainPowFive {v v' : Option F} :
    Twin V (constrainPowFive v) (constrainPowFive v') fun x y => x = y ∧ V x.1 ∧ V x.2 := by
  intro a b c _ ha hb hc
  refine ⟨rfl, by lc_in, ?_⟩
  intro d e f _ hd he hf
  refine ⟨rfl, by lc_in, rfl, by lc_in, ?_⟩
  intro g h i _ hg hh hi
  exact ⟨rfl, by lc_in, rfl, by lc_in, rfl, ha, hi⟩

theorem twin_rescueAlpha (h1 : V one) (hc : Combination.Twin V c c') :
    Twin V (c.rescueAlpha one) (c'.rescueAlpha one) (Num.Twin V) := by
  unfold Combination.rescueAlpha
  rw [hc.anyAllocated]
  split
  · refine Twin.bind (R := AllocatedNum.Twin V) ?_ fun _ _ h => Twin.ret (.ofAllocated h)
    refine twin_constrainPowFive.bind ?_
    rintro ⟨x, y⟩ _ ⟨rfl, hx, hy⟩
    have := hc.in h1
    exact twin_enforce (by rw [hc.lc]) (by lc_in) (Twin.ret ⟨_, _, _, hy⟩)
  · obtain ⟨v, e1, e2⟩ := hc.constant (by simpa using ‹¬ c.anyAllocated = true›)
    rw [e1, e2]
    exact Twin.ret (.const _)

theorem twin_rescueInvalpha [FieldApi F] (h1 : V one) (hc : Combination.Twin V c c') :
    Twin V (c.rescueInvalpha one) (c'.rescueInvalpha one) (Num.Twin V) := by
  unfold Combination.rescueInvalpha
  rw [hc.anyAllocated]
  split
  · refine Twin.bind (R := AllocatedNum.Twin V) ?_ fun _ _ h => Twin.ret (.ofAllocated h)
    refine twin_constrainPowFive.bind ?_
    rintro ⟨x, y⟩ _ ⟨rfl, hx, hy⟩
    have := hc.in h1
    exact twin_enforce (by rw [hc.lc]) (by lc_in) (Twin.ret ⟨_, _, _, hx⟩)
  · obtain ⟨v, e1, e2⟩ := hc.constant (by simpa using ‹¬ c.anyAllocated = true›)
    rw [e1, e2]
    exact Twin.ret (.const _)

theorem packBits_twin {bs bs' : List AllocatedBit} (h : List.Forall₂ (AllocatedBit.Twin V) bs bs') :
    (packBits bs' : LC F) = packBits bs ∧ (packBits bs : LC F).In V := by
  unfold packBits
  have h0 : (LC.zero : LC F).In V := LC.in_zero
  revert h0
  generalize (LC.zero : LC F) = acc
  generalize (1 : F) = k
  induction h generalizing acc k with
  | nil => exact fun h => ⟨rfl, h⟩
  | cons h _ ih =>
    intro h0
    simp only [List.foldl_cons]
    rw [h.var]
    exact ih _ _ (LC.in_add h0 h.mem)

theorem toBytes_length [FieldApi F] (v : F) : (bytesBits (FieldApi.toBytes v).toList).length = 256 := by
  simp [bytesBits]

theorem twin_unpackFe [FieldApi F] (h1 : V one) (hn : Num.Twin V n n') :
    Twin V (unpackFe one n) (unpackFe one n') fun bs bs' =>
      List.Forall₂ (AllocatedBit.Twin V) bs bs' ∧ bs'.length = 256 ∧ ∀ b ∈ bs', b.value = none := by
  have hlen : ∀ n : Num F, (match n.value with
      | some value => (bytesBits (FieldApi.toBytes value).toList).map some
      | none => List.replicate 256 none).length = 256 := fun n => by
    split
    · rw [List.length_map, toBytes_length]
    · rw [List.length_replicate]
  unfold unpackFe
  have key : ∀ vs vs' : List (Option Bool), vs.length = vs'.length →
      Twin V (mapProg (fun v => (AllocatedBit.alloc (orMissing v) : Prog F _)) vs)
        (mapProg (fun v => AllocatedBit.alloc (orMissing v)) vs') fun bs bs' =>
          List.Forall₂ (fun b b' => AllocatedBit.Twin V b b' ∧ b'.value = none) bs bs' ∧
            bs'.length = vs'.length := fun vs vs' h =>
    twin_mapProg (A := fun _ _ => True) (List.forall₂_iff_zip.2 ⟨h, fun _ => trivial⟩)
      fun _ _ _ => twin_bitAlloc'
  refine (key _ _ ((hlen n).trans (hlen n').symm)).bind fun bs bs' hbs => ?_
  have h2 := hbs.1.imp fun _ _ h => h.1
  obtain ⟨e1, e2⟩ := packBits_twin (F := F) h2
  refine twin_enforce (by rw [e1, hn.lc]) (LC.in_subLC e2 (hn.in h1))
    (Twin.ret ⟨h2, hbs.2.trans (hlen n'), fun b hb => ?_⟩)
  obtain ⟨i, hi, rfl⟩ := List.getElem_of_mem hb
  exact (hbs.1.get (hbs.1.length_eq ▸ hi) hi).2

/-! ### The Rescue gadget -/

namespace RescueGadget

/-- The same entries of the sponge, up to values -/
inductive Sponge.Twin (V : Var → Prop) : Sponge F → Sponge F → Prop
  | absorbing {i i'} (h : List.Forall₂ (Option.Rel (Num.Twin V)) i i') (hl : i'.length = Rescue.rate) :
      Sponge.Twin V (.absorbing i) (.absorbing i')
  | squeezing (o : List Bool) (hl : o.length = Rescue.rate) : Sponge.Twin V (.squeezing o) (.squeezing o)

/-- A key schedule, up to values -/
def KeysTwin (V : Var → Prop) (k k' : List (List (Num F))) : Prop :=
  List.Forall₂ (List.Forall₂ (Num.Twin V)) k k' ∧ k'.length = 2 * Rescue.rounds + 1 ∧
    ∀ l ∈ k', l.length = Rescue.M

/-- A state, up to values -/
def StateTwin (V : Var → Prop) (s s' : List (Combination F)) : Prop :=
  List.Forall₂ (Combination.Twin V) s s' ∧ s'.length = Rescue.M

end RescueGadget

/-- The same state, up to values -/
structure RescueGadget.Twin (V : Var → Prop) (g g' : RescueGadget F) : Prop where
  sponge : RescueGadget.Sponge.Twin V g.sponge g'.sponge
  state : RescueGadget.StateTwin V g.state g'.state
  keys : RescueGadget.KeysTwin V g.keySchedule g'.keySchedule

namespace RescueGadget
variable [FieldApi F]

theorem twin_sboxes (h1 : V one) (r : ℕ) {s s' : List (Combination F)}
    (hs : StateTwin V s s') : Circuit.Twin V (sboxes one r s) (sboxes one r s') fun m m' =>
      List.Forall₂ (Num.Twin V) m m' := by
  unfold sboxes
  refine Twin.mono (fun _ _ h => h.1) (twin_mapProg hs.1 fun c c' hc => ?_)
  split
  · exact twin_rescueInvalpha h1 hc
  · exact twin_rescueAlpha h1 hc

omit [FieldApi F] in
theorem rowSum_twin {row : List F} {m m' : List (Num F)} (hm : List.Forall₂ (Num.Twin V) m m') :
    Combination.Twin V (rowSum row m) (rowSum row m') := by
  unfold rowSum
  have h0 := Combination.Twin.ofNum (V := V) (Num.Twin.const (0 : F))
  revert h0
  generalize Combination.ofNum (Num.const (0 : F)) = acc
  have : ∀ acc', Combination.Twin V acc acc' → Combination.Twin V
      ((row.zip m).foldl (fun sum t => sum.addScaled (.full t.1) t.2) acc)
      ((row.zip m').foldl (fun sum t => sum.addScaled (.full t.1) t.2) acc') := by
    induction hm generalizing row acc with
    | nil => intro acc' h; simpa using h
    | cons h _ ih =>
      intro acc' h0
      cases row with
      | nil => simpa using h0
      | cons r row => exact ih _ _ (h0.addScaled _ h)
  exact fun h => this _ h

theorem mixed_twin {m m' k k' : List (Num F)} (hm : List.Forall₂ (Num.Twin V) m m')
    (hk : List.Forall₂ (Num.Twin V) k k') (hl : k'.length = Rescue.M) :
    StateTwin V (mixed m k) (mixed m' k') := by
  refine ⟨?_, by simp [mixed, mdsMatrix, hl]⟩
  unfold mixed
  generalize (mdsMatrix : List (List F)) = rows
  clear hl
  induction hk generalizing rows with
  | nil => simp
  | cons h _ ih =>
    cases rows with
    | nil => simp
    | cons r rows => exact .cons ((rowSum_twin hm).addNum h) (ih rows)

omit [Field F] [FieldApi F] in
theorem forall₂_refl {A : α → α → Prop} : ∀ {l : List α}, (∀ x ∈ l, A x x) → List.Forall₂ A l l
  | [], _ => .nil
  | x :: l, h => .cons (h x (by simp)) (forall₂_refl fun y hy => h y (by simp [hy]))

omit [Field F] [FieldApi F] in
theorem forall₂_mem {A : α → β → Prop} {l : List α} {l' : List β} (h : List.Forall₂ A l l') :
    List.Forall₂ (fun a b => A a b ∧ b ∈ l') l l' := by
  induction h with
  | nil => exact .nil
  | cons h _ ih => exact .cons ⟨h, by simp⟩ (ih.imp fun _ _ h => ⟨h.1, by simp [h.2]⟩)

theorem twin_rescueF (h1 : V one) {k k' : List (List (Num F))} (hk : KeysTwin V k k')
    {s s' : List (Combination F)} (hs : StateTwin V s s') :
    Circuit.Twin V (rescueF one k s) (rescueF one k' s') (StateTwin V) := by
  unfold rescueF
  refine Twin.bind (R := fun a b => List.Forall₂ (Num.Twin V) a b ∧ b.length = Rescue.M) ?_ ?_
  · refine Twin.mono ?_ (twin_index (A := fun a b => List.Forall₂ (Num.Twin V) a b ∧ b ∈ k') ?_ (i := 0)
      (by rw [hk.2.1]; omega))
    · exact fun a b h => ⟨h.1, hk.2.2 _ h.2⟩
    · exact forall₂_mem hk.1
  · intro a b hab
    refine twin_foldProg (A := fun i j => i = j ∧ i < 2 * Rescue.rounds)
      (forall₂_refl fun i hi => ⟨rfl, by simpa using hi⟩) ?_ ?_
    · rintro i _ t t' ⟨rfl, hi⟩ ht
      refine (twin_sboxes h1 i ht).bind fun m m' hm => ?_
      refine Twin.bind (R := fun a b => List.Forall₂ (Num.Twin V) a b ∧ b.length = Rescue.M) ?_
        fun a b hab => Twin.ret (mixed_twin hm hab.1 hab.2)
      refine Twin.mono ?_ (twin_index (A := fun a b => List.Forall₂ (Num.Twin V) a b ∧ b ∈ k') ?_
        (by rw [hk.2.1]; omega))
      · exact fun a b h => ⟨h.1, hk.2.2 _ h.2⟩
      · exact forall₂_mem hk.1
    · refine ⟨?_, by simp [hs.2, hab.2]⟩
      obtain ⟨hs, -⟩ := hs
      obtain ⟨hab, -⟩ := hab
      induction hs generalizing a b with
      | nil => simp
      | cons h _ ih =>
        cases hab with
        | nil => simp
        | cons g hab => exact .cons (h.addNum g) (ih _ _ hab)

theorem twin_keySchedule (h1 : V one) {m m' : List (Num F)} (hm : List.Forall₂ (Num.Twin V) m m')
    (hl : m'.length = Rescue.M) :
    Circuit.Twin V (generateKeySchedule one m) (generateKeySchedule one m') (KeysTwin V) := by
  unfold generateKeySchedule
  have hc : List.Forall₂ (Num.Twin (F := F) V) (List.replicate Rescue.M (.const 1))
      (List.replicate Rescue.M (.const 1)) :=
    forall₂_refl fun x hx => by rw [List.eq_of_mem_replicate hx]; exact .const 1
  have hcl : (List.replicate Rescue.M (Num.const (1 : F))).length = Rescue.M := List.length_replicate
  revert hc hcl
  generalize List.replicate Rescue.M (Num.const (1 : F)) = cs
  intro hc hcl
  have ev : ∀ {s s' : List (Combination F)}, StateTwin V s s' →
      Circuit.Twin V (mapProg (fun c => Combination.evaluate one c) s)
        (mapProg (fun c => Combination.evaluate one c) s') fun a b =>
          List.Forall₂ (Num.Twin V) a b ∧ b.length = Rescue.M := fun {s s'} hs => by
    have := twin_mapProg (V := V) hs.1 fun c c' hc => twin_evaluate h1 hc
    rwa [hs.2] at this
  have h0 : StateTwin V (List.zipWith (fun e k => (Combination.ofNum e).addNum k) m cs)
      (List.zipWith (fun e k => (Combination.ofNum e).addNum k) m' cs) := by
    refine ⟨?_, by simp [hl, hcl]⟩
    clear hcl hl
    induction hm generalizing cs with
    | nil => simp
    | cons h _ ih =>
      cases hc with
      | nil => simp
      | cons g hc => exact .cons ((Combination.Twin.ofNum h).addNum g) (ih _ hc)
  refine (ev h0).bind fun k0 k0' hk0 => ?_
  let I : ℕ → List (Combination F) × List (List (Num F)) → List (Combination F) × List (List (Num F)) → Prop :=
    fun n s s' => StateTwin V s.1 s'.1 ∧ List.Forall₂ (List.Forall₂ (Num.Twin V)) s.2 s'.2 ∧
      s'.2.length = n ∧ ∀ l ∈ s'.2, l.length = Rescue.M
  refine Twin.bind (R := I (1 + (List.range (2 * Rescue.rounds)).length))
    (twin_foldProg_index (A := fun i j => i = j) (forall₂_refl fun _ _ => rfl) ?_ ?_) ?_
  · rintro n i _ ⟨s, ks⟩ ⟨s', ks'⟩ rfl ⟨hs, hk, hn, hm⟩
    refine (twin_sboxes h1 i hs).bind fun m m' hm' => ?_
    have hs' := mixed_twin hm' hc hcl
    refine (ev hs').bind fun k k' hk' => Twin.ret ⟨hs', List.rel_append hk (.cons hk'.1 .nil), ?_, ?_⟩
    · simpa using hn
    · intro l hl
      rcases List.mem_append.1 hl with hl | hl
      · exact hm l hl
      · rw [List.mem_singleton.1 hl]; exact hk'.2
  · exact ⟨h0, .cons hk0.1 .nil, rfl, by simpa using hk0.2⟩
  · rintro ⟨s, ks⟩ ⟨s', ks'⟩ ⟨hs, hk, hn, hm⟩
    exact Twin.ret ⟨hk, by simp only at hn; rw [hn, List.length_range]; omega, hm⟩

omit [FieldApi F] in
theorem twin_pad (h1 : V one) {i i' : List (Option (Num F))}
    (h : List.Forall₂ (Option.Rel (Num.Twin V)) i i') :
    Circuit.Twin V (pad one i) (pad one i') (List.Forall₂ (Num.Twin V)) := by
  unfold pad
  refine twin_numAlloc fun x hx => twin_enforce rfl (LC.in_subVar (LC.in_ofVar hx) h1) (Twin.ret ?_)
  simp only [List.forall₂_map_left_iff, List.forall₂_map_right_iff]
  refine h.imp fun a b hab => ?_
  cases hab with
  | none => exact .ofAllocated ⟨_, _, _, hx⟩
  | some h => exact h

theorem addFirst_twin {s s' : List (Combination F)} (hs : List.Forall₂ (Combination.Twin V) s s')
    {i i' : List (Num F)} (hi : List.Forall₂ (Num.Twin V) i i') :
    List.Forall₂ (Combination.Twin V) (addFirst s i) (addFirst s' i') ∧
      (addFirst s' i').length = s'.length := by
  induction hs generalizing i i' with
  | nil => cases hi <;> exact ⟨.nil, rfl⟩
  | cons h hs ih =>
    cases hi with
    | nil => exact ⟨.cons h hs, rfl⟩
    | cons g hi => exact ⟨.cons (h.addNum g) (ih hi).1, by simp [addFirst, (ih hi).2]⟩

theorem twin_duplex (h1 : V one) {k k' : List (List (Num F))} (hk : KeysTwin V k k')
    {s s' : List (Combination F)} (hs : StateTwin V s s') {i i' : List (Option (Num F))}
    (h : List.Forall₂ (Option.Rel (Num.Twin V)) i i') :
    Circuit.Twin V (duplex one k s i) (duplex one k' s' i') (StateTwin V) := by
  unfold duplex
  refine (twin_pad h1 h).bind fun p p' hp => ?_
  have := addFirst_twin hs.1 hp
  exact twin_rescueF h1 hk ⟨this.1, this.2.trans hs.2⟩

omit [Field F] [FieldApi F] in
theorem blank_twin : List.Forall₂ (Option.Rel (Num.Twin (F := F) V)) (List.replicate Rescue.rate none)
    (List.replicate Rescue.rate none) :=
  forall₂_refl fun x hx => by rw [List.eq_of_mem_replicate hx]; exact .none

attribute [local irreducible] Circuit.Twin

theorem twin_new (h1 : V one) : Circuit.Twin V (new (F := F) one) (new one) (RescueGadget.Twin V) := by
  unfold new
  have h0 : List.Forall₂ (Num.Twin (F := F) V) (List.replicate Rescue.M (.const 0))
      (List.replicate Rescue.M (.const 0)) :=
    forall₂_refl fun x hx => by rw [List.eq_of_mem_replicate hx]; exact .const 0
  have h2 : List.Forall₂ (Combination.Twin (F := F) V) (List.replicate Rescue.M (.ofNum (.const 0)))
      (List.replicate Rescue.M (.ofNum (.const 0))) :=
    forall₂_refl fun x hx => by rw [List.eq_of_mem_replicate hx]; exact .ofNum (.const 0)
  have h3 := twin_keySchedule h1 h0 List.length_replicate
  exact Twin.bind h3 fun k k' hk => Twin.ret
    ⟨.absorbing blank_twin List.length_replicate, ⟨h2, List.length_replicate⟩, hk⟩

omit [Field F] [FieldApi F] in
theorem forall₂_set {A : α → β → Prop} {l : List α} {l' : List β} (h : List.Forall₂ A l l') {a : α} {b : β}
    (hab : A a b) (i : ℕ) : List.Forall₂ A (l.set i a) (l'.set i b) := by
  induction h generalizing i with
  | nil => exact .nil
  | cons h hs ih =>
    cases i with
    | zero => exact .cons hab hs
    | succ i => exact .cons h (ih i)

omit [Field F] [FieldApi F] in
theorem absorb_twin (h : Num.Twin V n n') : Sponge.Twin V (.absorb n) (.absorb n') :=
  .absorbing (forall₂_set blank_twin (.some h) 0) (by rw [List.length_set, List.length_replicate])

omit [Field F] [FieldApi F] in
theorem fillFirst_twin {i i' : List (Option (Num F))} (h : List.Forall₂ (Option.Rel (Num.Twin V)) i i')
    (hn : Num.Twin V n n') :
    Option.Rel (fun j j' => List.Forall₂ (Option.Rel (Num.Twin V)) j j' ∧ j'.length = i'.length)
      (fillFirst n i) (fillFirst n' i') := by
  induction h with
  | nil => exact .none
  | cons h hs ih =>
    cases h with
    | none => exact .some ⟨.cons (.some hn) hs, rfl⟩
    | some h =>
      simp only [fillFirst]
      revert ih
      generalize fillFirst n _ = a
      generalize fillFirst n' _ = b
      intro ih
      cases ih with
      | none => exact .none
      | some ih => exact .some ⟨.cons (.some h) ih.1, by simp [ih.2]⟩

theorem twin_absorb (h1 : V one) (hn : Num.Twin V n n') {g g' : RescueGadget F}
    (h : RescueGadget.Twin V g g') :
    Circuit.Twin V (g.absorb one n) (g'.absorb one n') (RescueGadget.Twin V) := by
  obtain ⟨sp, st, ks⟩ := g
  obtain ⟨sp', st', ks'⟩ := g'
  obtain ⟨hsp, hst, hks⟩ := h
  simp only at hsp hst hks
  unfold absorb
  cases hsp with
  | absorbing hi hl =>
    have := fillFirst_twin hi hn
    revert this
    simp only
    generalize fillFirst n _ = a
    generalize fillFirst n' _ = b
    intro this
    cases this with
    | none =>
      exact (twin_duplex h1 hks hst hi).bind fun s s' hs => Twin.ret ⟨absorb_twin hn, hs, hks⟩
    | some h => exact Twin.ret ⟨.absorbing h.1 (h.2.trans hl), hst, hks⟩
  | squeezing o hl => exact Twin.ret ⟨absorb_twin hn, hst, hks⟩

omit [Field F] [FieldApi F] in
theorem firstFalse_lt : ∀ {o : List Bool} {i : ℕ}, firstFalse o = some i → i < o.length
  | false :: o, i, h => by simp only [firstFalse, Option.some.injEq] at h; subst h; simp
  | true :: o, i, h => by
    simp only [firstFalse, Option.map_eq_some_iff] at h
    obtain ⟨j, hj, rfl⟩ := h
    have := firstFalse_lt hj
    simpa using this

theorem twin_squeezed (h1 : V one) {o : List Bool} {i : ℕ} (hi : firstFalse o = some i)
    (ho : o.length = Rescue.rate) {s s' : List (Combination F)} (hs : StateTwin V s s')
    {k k' : List (List (Num F))} (hk : KeysTwin V k k') (fuel : ℕ) :
    Circuit.Twin V (squeezeLoop one (fuel + 1) ⟨.squeezing o, s, k⟩)
      (squeezeLoop one (fuel + 1) ⟨.squeezing o, s', k'⟩)
      fun a b => AllocatedNum.Twin V a.1 b.1 ∧ RescueGadget.Twin V a.2 b.2 := by
  simp only [squeezeLoop, hi]
  have hlt : i < Rescue.M := by have := firstFalse_lt hi; rw [ho] at this; exact this.trans (by decide)
  refine (twin_index hs.1 (by rw [hs.2]; exact hlt)).bind fun e e' he => ?_
  refine twin_numAlloc fun x hx => ?_
  have := he.in h1
  exact twin_enforce (by rw [he.lc]; rfl) (LC.in_subLC (LC.in_ofVar hx) this)
    (Twin.ret ⟨⟨_, _, _, hx⟩, .squeezing _ (by simpa using ho),
      ⟨forall₂_set hs.1 (.ofAllocated ⟨_, _, _, hx⟩) i, by simpa using hs.2⟩, hk⟩)

theorem twin_squeeze (h1 : V one) {g g' : RescueGadget F} (h : RescueGadget.Twin V g g') :
    Circuit.Twin V (g.squeeze one) (g'.squeeze one)
      fun a b => AllocatedNum.Twin V a.1 b.1 ∧ RescueGadget.Twin V a.2 b.2 := by
  have two : ∀ {i i' : List (Option (Num F))} (fuel : ℕ)
      (_ : List.Forall₂ (Option.Rel (Num.Twin V)) i i') {s s' : List (Combination F)} (_ : StateTwin V s s')
      {k k' : List (List (Num F))} (_ : KeysTwin V k k'),
      Circuit.Twin V (squeezeLoop one (fuel + 2) ⟨.absorbing i, s, k⟩)
        (squeezeLoop one (fuel + 2) ⟨.absorbing i', s', k'⟩)
        fun a b => AllocatedNum.Twin V a.1 b.1 ∧ RescueGadget.Twin V a.2 b.2 := by
    intro i i' fuel hi s s' hs k k' hk
    rw [squeezeLoop, squeezeLoop]
    exact (twin_duplex h1 hk hs hi).bind fun s s' hs => twin_squeezed h1 rfl List.length_replicate hs hk fuel
  obtain ⟨sp, st, ks⟩ := g
  obtain ⟨sp', st', ks'⟩ := g'
  obtain ⟨hsp, hst, hks⟩ := h
  simp only at hsp hst hks
  unfold squeeze
  cases hsp with
  | absorbing hi hl => exact two 1 hi hst hks
  | squeezing o hl =>
    cases ho : firstFalse o with
    | some i => exact twin_squeezed h1 ho hl hst hks 2
    | none =>
      simp only [squeezeLoop.eq_def one 3, ho]
      exact two 0 blank_twin hst hks

end RescueGadget
end
end Circuit
end Halo
