import Verif.Model.Gadget.Sha256
import Verif.Lemmas.Gadget
/-!
# What soundness and completeness have in common

Proofs about loops and larger gadgets are done once for both.
-/
namespace Halo
namespace Circuit
variable {F : Type} [Field F] {α β γ σ : Type}

/-- A way to reason about programs by postconditions -/
structure Logic (F : Type) where
  holds : ∀ {α : Type}, Prog F α → (α → Prop) → Prop
  pure : ∀ {α : Type} {a : α} {Q : α → Prop}, Q a → holds (.pure a) Q
  bind : ∀ {α β : Type} {p : Prog F α} {f : α → Prog F β} {P : α → Prop} {Q : β → Prop},
    holds p P → (∀ a, P a → holds (f a) Q) → holds (p >>= f) Q
  mono : ∀ {α : Type} {p : Prog F α} {P Q : α → Prop}, holds p P → (∀ a, P a → Q a) → holds p Q

/-- soundness -/
def Logic.sound (w : Var → F) : Logic F :=
  ⟨fun p Q => Sound w p Q, fun h => h, fun h1 h2 => h1.bind h2, fun h1 h2 => h1.mono h2⟩

/-- completeness -/
def Logic.complete (w : Var → F) : Logic F :=
  ⟨fun p Q => Complete w p Q, fun h => h, fun h1 h2 => h1.bind h2, fun h1 h2 => h1.mono h2⟩

namespace Logic
variable (L : Logic F)
omit [Field F]

theorem ret {a : α} {Q : α → Prop} (h : Q a) : L.holds (Pure.pure a) Q := L.pure h

theorem orPanic {o : Option α} {a : α} {Q : α → Prop} (h : o = some a) (hq : Q a) :
    L.holds (Circuit.orPanic o) Q := by
  rw [h]; exact L.pure hq

theorem mapProg {f : α → Prog F β} {P : α → β → Prop} :
    ∀ {xs : List α}, (∀ x ∈ xs, L.holds (f x) (P x)) →
      L.holds (Circuit.mapProg f xs) fun ys => List.Forall₂ P xs ys
  | [], _ => L.ret .nil
  | x :: _, h => L.bind (h x (by simp)) fun _ hy =>
      L.bind (mapProg fun x hx => h x (by simp [hx])) fun _ hys => L.ret (.cons hy hys)

theorem foldProg {f : σ → α → Prog F σ} (I : ℕ → σ → Prop) :
    ∀ {xs : List α} {s : σ} (n : ℕ), I n s →
      (∀ i x s, xs[i]? = some x → I (n + i) s → L.holds (f s x) (I (n + i + 1))) →
      L.holds (Sha256.foldProg f xs s) (I (n + xs.length))
  | [], s, n, h, _ => L.ret h
  | x :: xs, s, n, h, hf => L.bind (hf 0 x s rfl h) fun s' hs' => by
      have := foldProg (xs := xs) (s := s') I (n + 1) hs' fun i x s hx hI => by
        have := hf (i + 1) x s (by simpa using hx)
        rw [show n + (i + 1) = n + 1 + i by omega] at this
        exact this hI
      rwa [show n + 1 + xs.length = n + (x :: xs).length by simp; omega] at this

end Logic

@[simp] theorem sound_ret {w : Var → F} (a : α) (Q : α → Prop) :
    Sound w (Pure.pure a) Q ↔ Q a := Iff.rfl
@[simp] theorem complete_ret {w : Var → F} (a : α) (Q : α → Prop) :
    Complete w (Pure.pure a) Q ↔ Q a := Iff.rfl

theorem forall₂_replicate {R : α → β → Prop} {a : α} {b : β} (h : R a b) (n : ℕ) :
    List.Forall₂ R (List.replicate n a) (List.replicate n b) := by
  induction n with
  | zero => exact .nil
  | succ n ih => exact .cons h ih

/-- Every program has the trivial postcondition. -/
theorem Sound.anyway {w : Var → F} (p : Prog F α) {Q : α → Prop} (h : ∀ a, Q a) : Sound w p Q := by
  induction p with
  | pure a => exact h a
  | throw e => exact True.intro
  | panic => exact True.intro
  | alloc v k ih => exact fun x o => ih x o
  | allocInput v k ih => exact fun x o => ih x o
  | enforceZero lc k ih => exact fun _ => ih
  | multiply v k ih => exact fun a b c o _ => ih a b c o

/-- Two postconditions -/
theorem Sound.and {w : Var → F} {p : Prog F α} {P Q : α → Prop} :
    Sound w p P → Sound w p Q → Sound w p fun a => P a ∧ Q a := by
  induction p with
  | pure a => exact fun h1 h2 => ⟨h1, h2⟩
  | throw e => exact fun _ _ => trivial
  | panic => exact fun _ _ => trivial
  | alloc v k ih => exact fun h1 h2 x o => ih x o (h1 x o) (h2 x o)
  | allocInput v k ih => exact fun h1 h2 x o => ih x o (h1 x o) (h2 x o)
  | enforceZero lc k ih => exact fun h1 h2 h => ih (h1 h) (h2 h)
  | multiply v k ih => exact fun h1 h2 a b c o h => ih a b c o (h1 a b c o h) (h2 a b c o h)

end Circuit
end Halo
