import Verif.Model.Proofs.Proof
import Verif.Lemmas.Multiexp
import Verif.Lemmas.Collapse
import Verif.Lemmas.CurveBytes
import Mathlib.Tactic.Module
/-!
# Inner products, commitments and the transcript
-/
namespace Halo
namespace Proofs
open Util

/-- The operations of `Proofs` on a curve implement those of a module, and the comparison accepts what is
equal. -/
structure ReflOps (C F S G : Type) [CurveOps C F S] [Field F] [Field S] [AddCommGroup G] [Module S G]
    (rep : C → G → Prop) : Prop extends LawfulCurve C S G rep where
  one : ∃ a, rep CurveOps.one a ∧ a ≠ 0
  ctEq_of_eq : ∀ {p q : C} {a : G}, rep p a → rep q a → CurveOps.ctEq p q = true
  getXy : ∀ {p q : C} {a b : G}, rep p a → rep q b →
    ((CurveOps.getXy p).getD (0, 0) = (CurveOps.getXy q).getD (0, 0) ↔ a = b)

/-- The comparison is that of the code. -/
structure LawfulOps (C F S G : Type) [CurveOps C F S] [Field F] [Field S] [AddCommGroup G] [Module S G]
    (rep : C → G → Prop) : Prop extends ReflOps C F S G rep where
  ctEq : ∀ {p q : C} {a b : G}, rep p a → rep q b → (CurveOps.ctEq p q = true ↔ a = 0 ∨ a = b)

section
variable {S G : Type} [Field S] [AddCommGroup G] [Module S G]

/-- inner product of lists -/
def ip (a : List S) (g : List G) : G := (List.zipWith (fun s x => s • x) a g).sum

@[simp] theorem ip_nil_left (g : List G) : ip ([] : List S) g = 0 := by simp [ip]
@[simp] theorem ip_nil_right (a : List S) : ip a ([] : List G) = 0 := by simp [ip]
@[simp] theorem ip_cons (s : S) (a : List S) (x : G) (g : List G) :
    ip (s :: a) (x :: g) = s • x + ip a g := by simp [ip]

theorem ip_append {a a' : List S} {g g' : List G} (h : a.length = g.length) :
    ip (a ++ a') (g ++ g') = ip a g + ip a' g' := by
  rw [ip, List.zipWith_append h, List.sum_append]; rfl

theorem ip_zero (m : ℕ) (g : List G) : ip (List.replicate m (0 : S)) g = 0 := by
  induction m generalizing g with
  | zero => simp
  | succ m ih => cases g <;> simp [List.replicate_succ, ih]

theorem ip_map_mul (z : S) (a : List S) (g : List G) : ip (a.map (· * z)) g = z • ip a g := by
  induction a generalizing g with
  | nil => simp
  | cons s a ih => cases g with
    | nil => simp
    | cons x g => simp [ih, mul_comm s z, mul_smul]

theorem ip_append_zero (a : List S) (m : ℕ) (g : List G) :
    ip (a ++ List.replicate m 0) g = ip a g := by
  induction a generalizing g with
  | nil => simp [ip_zero]
  | cons s a ih => cases g <;> simp [ih]

theorem ip_take (a : List S) (g : List G) {m : ℕ} (h : a.length ≤ m) :
    ip a (g.take m) = ip a g := by
  induction a generalizing g m with
  | nil => simp
  | cons s a ih =>
    cases m with
    | zero => simp at h
    | succ m => cases g <;> simp [ih _ (by simpa using h)]

theorem ip_addTo (a b : List S) (g : List G) (h : b.length ≤ a.length) :
    ip (addTo a b) g = ip a g + ip b g := by
  induction a generalizing b g with
  | nil => cases b with
    | nil => simp [addTo]
    | cons => simp at h
  | cons s a ih => cases b with
    | nil => simp [addTo]
    | cons r b => cases g with
      | nil => simp
      | cons x g =>
        simp only [addTo, ip_cons, ih b g (by simpa using h)]
        module

omit [Field S] in
theorem addTo_length [Add S] (a b : List S) : (addTo a b).length = a.length := by
  induction a generalizing b with
  | nil => cases b <;> rfl
  | cons s a ih => cases b <;> simp [addTo, ih]

theorem ip_fold {u ui : S} (hu : u * ui = 1) : ∀ {aL aH : List S} {gL gH : List G},
    aL.length = gL.length → aH.length = gH.length → aL.length = aH.length →
    ip (List.zipWith (fun lo hi => lo * u + hi * ui) aL aH)
      (List.zipWith (fun lo hi => ui • lo + u • hi) gL gH) =
    ip aL gL + ip aH gH + u ^ 2 • ip aL gH + ui ^ 2 • ip aH gL
  | [], [], [], [], _, _, _ => by simp
  | a :: aL, b :: aH, c :: gL, d :: gH, h1, h2, h3 => by
    simp only [List.zipWith_cons_cons, ip_cons]
    rw [ip_fold hu (by simpa using h1) (by simpa using h2) (by simpa using h3)]
    have e : (a * u + b * ui) • (ui • c + u • d) =
        a • c + b • d + u ^ 2 • a • d + ui ^ 2 • b • c := by
      simp only [smul_add, smul_smul]
      rw [show (a * u + b * ui) * ui = a + ui ^ 2 * b by linear_combination a * hu,
        show (a * u + b * ui) * u = b + u ^ 2 * a by linear_combination b * hu]
      module
    rw [e]
    module
  | [], _ :: _, _, _, _, _, h => by simp at h
  | _ :: _, [], _, _, _, _, h => by simp at h
  | _ :: _, _, [], _, h, _, _ => by simp at h
  | _, _ :: _, _, [], _, h, _ => by simp at h
  | [], _, _ :: _, _, h, _, _ => by simp at h
  | _, [], _, _ :: _, _, h, _ => by simp at h

theorem foldl_ip (l : List (S × S)) (c : S) :
    l.foldl (fun acc p => acc + p.1 * p.2) c = c + (l.map fun p => p.1 * p.2).sum := by
  induction l generalizing c with
  | nil => simp
  | cons p l ih => simp [ih, add_assoc]

theorem computeInnerProduct_eq {a b : List S} (h : a.length = b.length) :
    computeInnerProduct a b = some (ip a b) := by
  rw [computeInnerProduct, if_neg (not_not.2 h), foldl_ip, zero_add, ip,
    ← List.map_uncurry_zip_eq_zipWith]
  rfl

theorem ip_eq_sum (a : List S) (g : List G) (h : a.length ≤ g.length) :
    ip a g = ∑ i ∈ Finset.range a.length, a.getD i 0 • g.getD i 0 := by
  induction a generalizing g with
  | nil => simp
  | cons s a ih => cases g with
    | nil => simp at h
    | cons x g =>
      rw [ip_cons, List.length_cons, Finset.sum_range_succ', ih g (by simpa using h)]
      simp [add_comm]

theorem collapse_congr (us : List S) {g g' : ℕ → G} (h : ∀ i, i < 2 ^ us.length → g i = g' i) :
    collapse us g = collapse us g' := by
  rw [collapse_eq, collapse_eq]
  exact Finset.sum_congr rfl fun i hi => by rw [h i (Finset.mem_range.1 hi)]

/-- one step of folding, for lists -/
theorem collapse_fold (u : S) (us : List S) (g : List G) (h : g.length = 2 * 2 ^ us.length) :
    collapse (u :: us) (fun i => g.getD i 0) = collapse us fun i =>
      (List.zipWith (fun lo hi => u⁻¹ • lo + u • hi) (g.take (2 ^ us.length))
        (g.drop (2 ^ us.length))).getD i 0 := by
  rw [collapse]
  apply collapse_congr
  intro i hi
  have h1 : i < g.length := by omega
  have h2 : i + 2 ^ us.length < g.length := by omega
  have h3 : i < 2 ^ us.length ∧ i < g.length - 2 ^ us.length := by omega
  simp [List.getD, List.getElem?_zipWith, hi, h1, h2, add_comm]

end

end Proofs
end Halo
