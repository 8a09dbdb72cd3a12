import Verif.Model.Recursion.Dev
import Verif.Spec.Count
import Verif.Lemmas.Satisfied
/-!
# Counting constraints without namespaces
-/
namespace Halo
namespace Recursion
open Circuit
variable {F : Type} [Field F]

/-- Namespaces do not matter for the totals. -/
theorem tally_anonymous {α : Type} (p : Named F α) : ∀ {t : Tally F} {a : α} {t' : Tally F} (u : Tally F),
    u.system = t.system → u.allocations = t.allocations → u.multiplications = t.multiplications →
    tally p t = .ok (a, t') → ∃ u', tally (anonymous p.erase) u = .ok (a, u') ∧ u'.totals = t'.totals := by
  induction p with
  | pure a =>
    rintro t _ _ u h1 h2 h3 ⟨⟩
    exact ⟨u, rfl, by rw [Tally.totals, Tally.totals, h1, h2, h3]⟩
  | throw e => intro t a t' u _ _ _ h; simp only [tally] at h; split at h <;> cases h
  | panic => intro t a t' u _ _ _ h; cases h
  | alloc name v k ih =>
    intro t a t' u h1 h2 h3 h
    simp only [tally, Named.erase, anonymous, h1, h2] at h ⊢
    exact ih _ _ _ (by exact rfl) (by exact rfl) (by exact h3) h
  | allocInput name v k ih =>
    intro t a t' u h1 h2 h3 h
    simp only [tally, Named.erase, anonymous, h1, h2] at h ⊢
    exact ih _ _ _ (by exact rfl) (by exact rfl) (by exact h3) h
  | enforceZero lc k ih =>
    intro t a t' u h1 h2 h3 h
    simp only [tally, Named.erase, anonymous, h1] at h ⊢
    exact ih _ (by exact rfl) (by exact h2) (by exact h3) h
  | multiply name v k ih =>
    intro t a t' u h1 h2 h3 h
    simp only [tally, Named.erase, anonymous, h1, h3] at h ⊢
    exact ih _ _ _ _ _ (by exact rfl) (by exact h2) (by exact rfl) h
  | push name k ih =>
    intro t a t' u h1 h2 h3 h
    simp only [tally] at h
    exact ih u (by exact h1) (by exact h2) (by exact h3) h
  | pop k ih =>
    intro t a t' u h1 h2 h3 h
    simp only [tally] at h
    split at h
    · cases h
    · split at h
      · cases h
      · exact ih u (by exact h1) (by exact h2) (by exact h3) h

theorem anonymous_tally {α : Type} (p : Prog F α) : ∀ {t : Tally F} {a : α} {s : System F}, t.entered = [] →
    collect false p t.system = .ok (a, s) → ∃ t', tally (anonymous p) t = .ok (a, t') ∧ t'.system = s ∧ t'.entered = [] := by
  induction p with
  | pure a => rintro t _ _ h0 ⟨⟩; exact ⟨t, rfl, rfl, h0⟩
  | throw e => intro t a s _ h; cases h
  | panic => intro t a s _ h; cases h
  | alloc v k ih =>
    intro t a s h0 h
    rw [collect_alloc_false] at h
    simp only [anonymous, tally]
    exact ih _ _ (by exact h0) h
  | allocInput v k ih =>
    intro t a s h0 h
    rw [collect_allocInput_false] at h
    simp only [anonymous, tally]
    exact ih _ _ (by exact h0) h
  | enforceZero lc k ih =>
    intro t a s h0 h
    simp only [anonymous, tally]
    exact ih (by exact h0) h
  | multiply v k ih =>
    intro t a s h0 h
    rw [collect_multiply_false] at h
    simp only [anonymous, tally]
    exact ih _ _ _ _ (by exact h0) h

theorem anonymous_entered {α : Type} (p : Prog F α) : ∀ {t : Tally F} {a : α} {t' : Tally F}, t.entered = [] →
    tally (anonymous p) t = .ok (a, t') → t'.entered = [] := by
  induction p with
  | pure a => rintro t _ _ h0 ⟨⟩; exact h0
  | throw e => intro t a t' h0 h; simp only [anonymous, tally] at h; split at h <;> cases h
  | panic => intro t a t' h0 h; cases h
  | alloc v k ih => intro t a t' h0 h; simp only [anonymous, tally] at h; exact ih _ _ (by exact h0) h
  | allocInput v k ih => intro t a t' h0 h; simp only [anonymous, tally] at h; exact ih _ _ (by exact h0) h
  | enforceZero lc k ih => intro t a t' h0 h; simp only [anonymous, tally] at h; exact ih (by exact h0) h
  | multiply v k ih => intro t a t' h0 h; simp only [anonymous, tally] at h; exact ih _ _ _ _ (by exact h0) h

omit [Field F] in
theorem erase_anonymous {α : Type} (p : Prog F α) : (anonymous p).erase = p := by
  induction p with
  | pure | throw | panic => rfl
  | alloc v k ih | allocInput v k ih => simp only [anonymous, Named.erase, ih]
  | enforceZero lc k ih => simp only [anonymous, Named.erase, ih]
  | multiply v k ih => simp only [anonymous, Named.erase, ih]

omit [Field F] in
theorem balanced_anonymous {α : Type} (p : Prog F α) : (anonymous p).Balanced 0 := by
  induction p with
  | pure => rfl
  | throw | panic => trivial
  | alloc v k ih | allocInput v k ih => exact fun x o => ih x o
  | enforceZero lc k ih => exact ih
  | multiply v k ih => exact fun a b c o => ih a b c o

end Recursion
end Halo
