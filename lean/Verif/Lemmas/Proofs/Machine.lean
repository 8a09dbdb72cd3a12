import Verif.Spec.Machine
import Verif.Lemmas.Proofs.Commit
import Mathlib.Data.Option.Basic
/-!
# Lemmas: proving and verifying do not depend on the machine
-/
namespace Halo

section results
variable {ε α β γ δ : Type} {R : α → β → Prop} {Q : γ → δ → Prop}

theorem SameResult.bind {x : Except ε α} {y : Except ε β} (h : SameResult R x y) {f : α → Except ε γ} {g : β → Except ε δ}
    (hf : ∀ a b, R a b → SameResult Q (f a) (g b)) : SameResult Q (x >>= f) (y >>= g) := by
  cases h with
  | ok h => exact hf _ _ h
  | error e => exact .error e

/-- The same first step -/
theorem SameResult.step (x : Except ε α) {f : α → Except ε γ} {g : α → Except ε δ} (hf : ∀ a, SameResult Q (f a) (g a)) :
    SameResult Q (x >>= f) (x >>= g) := by
  cases x with
  | ok a => exact hf a
  | error e => exact .error e

theorem SameResult.check {p : Prop} [Decidable p] {e : ε} {f : α → Except ε γ} {g : α → Except ε δ} {y : Except ε γ} {y' : Except ε δ}
    (hf : SameResult Q y y') :
    SameResult Q (if p then Except.error e >>= f else y) (if p then Except.error e >>= g else y') := by
  split
  · exact .error e
  · exact hf

theorem SameResult.mono {R' : α → β → Prop} {x : Except ε α} {y : Except ε β} (h : SameResult R x y)
    (hR : ∀ a b, R a b → R' a b) : SameResult R' x y := by
  cases h with
  | ok h => exact .ok (hR _ _ h)
  | error e => exact .error e

theorem rel_bind {x : Option α} {y : Option β} (h : Option.Rel R x y) {f : α → Option γ} {g : β → Option δ}
    (hf : ∀ a b, R a b → Option.Rel Q (f a) (g b)) : Option.Rel Q (x >>= f) (y >>= g) := by
  cases h with
  | some h => exact hf _ _ h
  | none => exact .none

theorem rel_step (x : Option α) {f : α → Option γ} {g : α → Option δ} (hf : ∀ a, Option.Rel Q (f a) (g a)) :
    Option.Rel Q (x >>= f) (x >>= g) := by
  cases x with
  | some a => exact hf a
  | none => exact .none

theorem rel_mapM {f : γ → Option α} {g : γ → Option β} (h : ∀ c, Option.Rel R (f c) (g c)) (l : List γ) :
    Option.Rel (List.Forall₂ R) (l.mapM f) (l.mapM g) := by
  induction l with
  | nil => exact .some .nil
  | cons c l ih =>
    rw [List.mapM_cons, List.mapM_cons]
    exact rel_bind (h c) fun a b hab => rel_bind ih fun as bs habs => .some (.cons hab habs)

end results

section
open Proofs
variable {F : Type} [Field F] [DecidableEq F] [LawfulField F]

namespace SamePoint

omit [LawfulField F] in
theorem refl {b : F} {p : Proj F} {A : Pt b} (h : Denotes b p A) : SamePoint b p p := ⟨A, h, h⟩

theorem getXy {b : F} {p q : Proj F} (h : SamePoint b p q) : p.getXy = q.getXy := by
  obtain ⟨A, h1, h2⟩ := h
  rw [getXy_spec h1, getXy_spec h2]

theorem add (E : CurveConsts) (S : Type) [Field S] [LawfulField S] [HaloCurve E F S] {p q p' q' : Proj F} (h : SamePoint (E.b : F) p p') (h' : SamePoint (E.b : F) q q') :
    SamePoint (E.b : F) (p.add E q) (p'.add E q') := by
  let := Proj.curveOps E F S
  let := HaloCurve.module (E := E) (F := F) (S := S)
  have L := HaloCurve.lawfulOps (E := E) (F := F) (S := S)
  obtain ⟨A, h1, h2⟩ := h
  obtain ⟨B, h3, h4⟩ := h'
  exact ⟨_, L.add h1 h3, L.add h2 h4⟩

theorem mul {E : CurveConsts} {S : Type} [Field S] [LawfulField S] [HaloCurve E F S] {p p' : Proj F} (h : SamePoint (E.b : F) p p') (s : S) : SamePoint (E.b : F) (p.mul E s) (p'.mul E s) := by
  let := Proj.curveOps E F S
  let := HaloCurve.module (E := E) (F := F) (S := S)
  have L := HaloCurve.lawfulOps (E := E) (F := F) (S := S)
  obtain ⟨A, h1, h2⟩ := h
  exact ⟨_, L.mul s h1, L.mul s h2⟩

theorem ctEq (E : CurveConsts) (S : Type) [Field S] [LawfulField S] [HaloCurve E F S] {p q p' q' : Proj F} (h : SamePoint (E.b : F) p p') (h' : SamePoint (E.b : F) q q') : p.ctEq q = p'.ctEq q' := by
  let := Proj.curveOps E F S
  let := HaloCurve.module (E := E) (F := F) (S := S)
  have L := HaloCurve.lawfulOps (E := E) (F := F) (S := S)
  obtain ⟨A, h1, h2⟩ := h
  obtain ⟨B, h3, h4⟩ := h'
  exact Bool.eq_iff_iff.2 ((L.ctEq h1 h3).trans (L.ctEq h2 h4).symm)

end SamePoint

end

namespace Proofs
open Circuit Util
variable {E : CurveConsts} {F : Type} [Field F] [DecidableEq F] [LawfulField F]
  {S : Type} [Field S] [DecidableEq S] [LawfulField S] {T : Type}

theorem sameResult_ofOption {α β : Type} {R : α → β → Prop} {x : Option α} {y : Option β} (h : Option.Rel R x y) :
    SameResult R (ofOption x) (ofOption y) := by
  cases h with
  | some h => exact .ok h
  | none => exact .error _


section
variable [HaloCurve E F S] (M M' : Machine)

omit [DecidableEq S] in
/-- Multiexponentiations of the same points on different machines -/
theorem multiexp_same {coeffs : List S} {bases bases' : List (Proj F)} (h : List.Forall₂ (SamePoint (E.b : F)) bases bases')
    (hs : bases.length < 2 ^ 32) :
    letI := Proj.curveOps E F S
    Option.Rel (SamePoint (E.b : F)) (multiexp M.cpus M.lnCeil coeffs bases) (multiexp M'.cpus M'.lnCeil coeffs bases') := by
  let := Proj.curveOps E F S
  let := HaloCurve.module (E := E) (F := F) (S := S)
  have L := HaloCurve.lawfulOps (E := E) (F := F) (S := S)
  by_cases hl : coeffs.length = bases.length
  · have : ∃ gs : List (Pt (E.b : F)), List.Forall₂ (Denotes (E.b : F)) bases gs ∧ List.Forall₂ (Denotes (E.b : F)) bases' gs := by
      clear hl hs
      induction h with
      | nil => exact ⟨[], .nil, .nil⟩
      | cons h _ ih =>
        obtain ⟨A, h1, h2⟩ := h
        obtain ⟨gs, h3, h4⟩ := ih
        exact ⟨A :: gs, .cons h1 h3, .cons h2 h4⟩
    obtain ⟨gs, h1, h2⟩ := this
    obtain ⟨p, h3, h4⟩ := multiexp_rep L.toLawfulCurve M.cpus_pos M.range hl hs h1
    obtain ⟨p', h5, h6⟩ := multiexp_rep L.toLawfulCurve M'.cpus_pos M'.range (hl.trans h.length_eq) (h.length_eq ▸ hs) h2
    rw [h3, h5]
    exact .some ⟨_, h4, h6⟩
  · have h1 : multiexp M.cpus M.lnCeil coeffs bases = none := by unfold multiexp; rw [if_pos hl]; rfl
    have h2 : multiexp M'.cpus M'.lnCeil coeffs bases' = none := by
      unfold multiexp; rw [if_pos (fun he => hl (he.trans h.length_eq.symm))]; rfl
    rw [h1, h2]
    exact .none

omit [LawfulField F] in
theorem gens_same {params : Params (Proj F)} {g : ℕ → Pt (E.b : F)} (hp : ValidParams (Denotes (E.b : F)) g params) :
    List.Forall₂ (SamePoint (E.b : F)) params.generators params.generators := by
  rw [List.forall₂_iff_get]
  exact ⟨rfl, fun i h1 h2 => SamePoint.refl (hp.gens i h1)⟩

omit [Field F] [DecidableEq F] [LawfulField F] in
theorem gens_length {G : Type} {rep : Proj F → G → Prop} {params : Params (Proj F)} {g : ℕ → G} (hp : ValidParams rep g params) :
    params.generators.length < 2 ^ 32 := by
  rw [hp.length]
  exact Nat.pow_lt_pow_right (by norm_num) (by have := hp.k_le; omega)

omit [DecidableEq S] in
theorem commit_same {params : Params (Proj F)} {g : ℕ → Pt (E.b : F)} (hp : ValidParams (Denotes (E.b : F)) g params)
    (v : List S) (r : Bool) :
    letI := Proj.curveOps E F S
    Option.Rel (SamePoint (E.b : F)) (params.commit M.cpus M.lnCeil v r) (params.commit M'.cpus M'.lnCeil v r) := by
  let := Proj.curveOps E F S
  have hl := gens_length hp
  unfold Params.commit
  split
  · exact .none
  · split
    · exact multiexp_same M M' (List.forall₂_drop _ (gens_same hp)) (by simp; omega)
    · exact multiexp_same M M' (List.forall₂_take _ (gens_same hp)) (by simp; omega)

omit [DecidableEq S] in
theorem computeG_same {params : Params (Proj F)} {g : ℕ → Pt (E.b : F)} (hp : ValidParams (Denotes (E.b : F)) g params)
    (sq : List S) (allinv : S) :
    letI := Proj.curveOps E F S
    Option.Rel (SamePoint (E.b : F)) (computeG M.cpus M.lnCeil params.generators sq allinv)
      (computeG M'.cpus M'.lnCeil params.generators sq allinv) := by
  let := Proj.curveOps E F S
  unfold computeG
  exact rel_step _ fun s => multiexp_same M M' (gens_same hp) (gens_length hp)

omit [DecidableEq S] in
theorem multiplyPolynomials_machine (a b : List S) : multiplyPolynomials M.cpus a b = multiplyPolynomials M'.cpus a b := by
  by_cases h : a = [] ∨ b = [] ∨ 2 ^ 31 < a.length + b.length - 1
  · rw [multiplyPolynomials_none a b h, multiplyPolynomials_none a b h]
  · push Not at h
    rw [multiplyPolynomials_spec M.cpus_pos a b h.1 h.2.1 h.2.2, multiplyPolynomials_spec M'.cpus_pos a b h.1 h.2.1 h.2.2]

omit [DecidableEq S] [HaloCurve E F S] in
variable (S) in
theorem appendPoint_same (tr : Transcript T F) {p q : Proj F} (h : SamePoint (E.b : F) p q) (t : T) :
    letI := Proj.curveOps E F S
    appendPoint tr p t = appendPoint tr q t := by
  let := Proj.curveOps E F S
  have : CurveOps.getXy p = CurveOps.getXy q := h.getXy
  unfold appendPoint
  rw [this]

/-- Entries of rounds -/
def SameEntry (b : F) (e e' : Proj F × Proj F × S × S) : Prop := SamePoint b e.1 e'.1 ∧ SamePoint b e.2.1 e'.2.1 ∧ e.2.2 = e'.2.2

omit [DecidableEq S] [HaloCurve E F S] in
theorem appendRound_same (tr : Transcript T F) {es es' : List (Proj F × Proj F × S × S)}
    (h : List.Forall₂ (SameEntry (E.b : F)) es es') (t : T) :
    letI := Proj.curveOps E F S
    appendRound tr es t = appendRound tr es' t := by
  let := Proj.curveOps E F S
  unfold appendRound
  induction h generalizing t with
  | nil => rfl
  | @cons e e' es es' h _ ih =>
    obtain ⟨L, R, l, r⟩ := e
    obtain ⟨L', R', l', r'⟩ := e'
    obtain ⟨h1, h2, h3⟩ := h
    obtain ⟨rfl, rfl⟩ := Prod.mk.inj h3
    simp only [List.foldl_cons]
    rw [appendPoint_same (E := E) S tr h1, appendPoint_same (E := E) S tr h2]
    exact ih _

omit [DecidableEq S] in
theorem proveEntry_same {gens gens' : List (Proj F)} (h : List.Forall₂ (SamePoint (E.b : F)) gens gens') (hs : gens.length < 2 ^ 32)
    (l : ℕ) (ab : List S × List S) :
    letI := Proj.curveOps E F S
    Option.Rel (SameEntry (S := S) (E.b : F)) (proveEntry M.cpus M.lnCeil l gens ab) (proveEntry M'.cpus M'.lnCeil l gens' ab) := by
  let := Proj.curveOps E F S
  unfold proveEntry
  refine rel_bind (multiexp_same M M' (List.forall₂_drop _ h) (by simp; omega)) fun L L' hL => ?_
  refine rel_bind (multiexp_same M M' (List.forall₂_take _ h) (by simp; omega)) fun R R' hR => ?_
  exact rel_step _ fun lo => rel_step _ fun hi => .some ⟨hL, hR, rfl⟩

omit [DecidableEq S] in
theorem collapse_same {gens gens' : List (Proj F)} (h : List.Forall₂ (SamePoint (E.b : F)) gens gens') {l : ℕ}
    (hl : gens.length = 2 * l) (hl0 : 0 < l) (u ui : S) :
    letI := Proj.curveOps E F S
    ∃ r r', generatorCollapse M.cpus gens u ui = some r ∧ generatorCollapse M'.cpus gens' u ui = some r' ∧
      List.Forall₂ (SamePoint (E.b : F)) (r.take l) (r'.take l) ∧ (r.take l).length = l := by
  let := Proj.curveOps E F S
  have hl' : gens'.length = 2 * l := h.length_eq ▸ hl
  have len : ∀ f : Proj F → Proj F → Proj F, ∀ g : List (Proj F), g.length = 2 * l → (List.zipWith f (g.take l) (g.drop l)).length = l := by
    intro f g hg; simp; omega
  refine ⟨_, _, generatorCollapse_eq M.cpus_pos hl hl0 u ui, generatorCollapse_eq M'.cpus_pos hl' hl0 u ui, ?_, ?_⟩
  · rw [List.take_left' (len _ _ hl), List.take_left' (len _ _ hl')]
    have h1 := List.forall₂_take l h
    have h2 := List.forall₂_drop l h
    revert h1 h2
    generalize gens.take l = a
    generalize gens'.take l = a'
    generalize gens.drop l = c
    generalize gens'.drop l = c'
    intro h1
    induction h1 generalizing c c' with
    | nil => intro _; exact .nil
    | cons h1 _ ih =>
      intro h2
      cases h2 with
      | nil => exact .nil
      | cons h2 h3 => exact .cons (SamePoint.add E S (h1.mul ui) (h2.mul u)) (ih _ _ h3)
  · rw [List.take_left' (len _ _ hl), len _ _ hl]

end
end Proofs
end Halo
