import Verif.Lemmas.Cost.Gadgets
/-!
# Upper bounds for the size of a circuit
-/
namespace Halo
namespace Circuit
open Sha256 (foldProg index)
variable {F α β : Type}

/-- Whenever the program returns, it has asked for at most this, and its result satisfies `R`. -/
def AtMost (p : Prog F α) (a m l : ℕ) (R : α → Prop) : Prop :=
  ∀ a0 m0 l0, Counted p a0 m0 l0 fun x a' m' l' => a' ≤ a0 + a ∧ m' ≤ m0 + m ∧ l' ≤ l0 + l ∧ R x

theorem Costs.atMost {p : Prog F α} {a m l : ℕ} {R : α → Prop} (h : Costs p a m l R) : AtMost p a m l R := fun a0 m0 l0 =>
  (h a0 m0 l0).mono fun _ _ _ _ ⟨h1, h2, h3, h4⟩ => ⟨h1.le, h2.le, h3.le, h4⟩

theorem AtMost.then {p : Prog F α} {f : α → Prog F β} {a m l a' m' l' : ℕ} {R : α → Prop} {R' : β → Prop}
    (hp : AtMost p a m l R) (hf : ∀ x, R x → AtMost (f x) a' m' l' R') :
    AtMost (p >>= f) (a + a') (m + m') (l + l') R' := by
  intro a0 m0 l0
  refine Counted.bind ((hp a0 m0 l0).mono ?_)
  rintro x a1 m1 l1 ⟨h1, h2, h3, hx⟩
  refine (hf x hx _ _ _).mono ?_
  rintro y _ _ _ ⟨k1, k2, k3, hy⟩
  exact ⟨by omega, by omega, by omega, hy⟩

theorem AtMost.weaken {p : Prog F α} {a m l : ℕ} {R R' : α → Prop} (hp : AtMost p a m l R) (h : ∀ x, R x → R' x) :
    AtMost p a m l R' := fun a0 m0 l0 => (hp a0 m0 l0).mono fun _ _ _ _ ⟨h1, h2, h3, h4⟩ => ⟨h1, h2, h3, h _ h4⟩

theorem AtMost.le {p : Prog F α} {a m l a' m' l' : ℕ} {R : α → Prop} (hp : AtMost p a m l R) (ha : a ≤ a') (hm : m ≤ m')
    (hl : l ≤ l') : AtMost p a' m' l' R := fun a0 m0 l0 =>
  (hp a0 m0 l0).mono fun _ _ _ _ ⟨h1, h2, h3, h4⟩ => ⟨by omega, by omega, by omega, h4⟩

/-- The same as `AtMost.then` with a known sum -/
theorem AtMost.bind {p : Prog F α} {f : α → Prog F β} {a m l A M L : ℕ} {R : α → Prop} {R' : β → Prop}
    (hp : AtMost p a m l R) (ha : a ≤ A) (hm : m ≤ M) (hl : l ≤ L)
    (hf : ∀ x, R x → AtMost (f x) (A - a) (M - m) (L - l) R') : AtMost (p >>= f) A M L R' :=
  (hp.then hf).le (by omega) (by omega) (by omega)

theorem AtMost.free {p : Prog F α} {f : α → Prog F β} {a m l : ℕ} {R : α → Prop} {R' : β → Prop}
    (hp : AtMost p 0 0 0 R) (hf : ∀ x, R x → AtMost (f x) a m l R') : AtMost (p >>= f) a m l R' :=
  hp.bind (Nat.zero_le _) (Nat.zero_le _) (Nat.zero_le _) hf

theorem atMost_pure {x : α} {R : α → Prop} (h : R x) {a m l : ℕ} : AtMost (pure x : Prog F α) a m l R :=
  (costs_pure h).atMost.le (Nat.zero_le _) (Nat.zero_le _) (Nat.zero_le _)

theorem atMost_panic {a m l : ℕ} {R : α → Prop} : AtMost (.panic : Prog F α) a m l R := fun _ _ _ => trivial

theorem atMost_mapProg {f : α → Prog F β} {a m l : ℕ} {R : β → Prop} :
    ∀ {xs : List α}, (∀ x ∈ xs, AtMost (f x) a m l R) →
      AtMost (mapProg f xs) (xs.length * a) (xs.length * m) (xs.length * l) fun ys =>
        ys.length = xs.length ∧ ∀ y ∈ ys, R y
  | [], _ => atMost_pure ⟨rfl, nofun⟩
  | x :: xs, h => by
    unfold mapProg
    refine (AtMost.then (h x (by simp)) fun y hy => AtMost.then (a' := 0) (m' := 0) (l' := 0)
      (atMost_mapProg (xs := xs) fun z hz => h z (by simp [hz])) fun ys hys =>
        atMost_pure (R := fun ys : List β => ys.length = (x :: xs).length ∧ ∀ y ∈ ys, R y) ?_).le ?_ ?_ ?_
    · refine ⟨by simp [hys.1], fun z hz => ?_⟩
      rcases List.mem_cons.1 hz with rfl | hz
      · exact hy
      · exact hys.2 z hz
    all_goals simp only [List.length_cons]; apply le_of_eq; ring

/-- A loop with an invariant -/
theorem atMost_foldProg {σ : Type} {f : σ → α → Prog F σ} {a m l : ℕ} {R : σ → Prop} :
    ∀ {xs : List α} {s : σ}, (∀ s, ∀ x ∈ xs, R s → AtMost (f s x) a m l R) → R s →
      AtMost (foldProg f xs s) (xs.length * a) (xs.length * m) (xs.length * l) R
  | [], s, _, hs => atMost_pure hs
  | x :: xs, s, h, hs => by
    unfold foldProg
    refine (AtMost.then (h s x (by simp) hs) fun s hs => atMost_foldProg (xs := xs)
      (fun s z hz => h s z (by simp [hz])) hs).le ?_ ?_ ?_
    all_goals simp only [List.length_cons]; apply le_of_eq; ring

theorem Counted.and {p : Prog F α} {Q Q' : α → ℕ → ℕ → ℕ → Prop} : ∀ {a m l}, Counted p a m l Q → Counted p a m l Q' →
    Counted p a m l fun x a m l => Q x a m l ∧ Q' x a m l := by
  induction p with
  | pure x => exact fun h h' => ⟨h, h'⟩
  | throw e => exact fun _ _ => trivial
  | panic => exact fun _ _ => trivial
  | alloc v k ih => exact fun h h' x o => ih _ _ (h x o) (h' x o)
  | allocInput v k ih => exact fun h h' x o => ih _ _ (h x o) (h' x o)
  | enforceZero lc k ih => exact fun h h' => ih h h'
  | multiply v k ih => exact fun h h' x y z o => ih _ _ _ _ (h x y z o) (h' x y z o)

theorem AtMost.asks {p : Prog F α} {a m l : ℕ} {R : α → Prop} (h : AtMost p a m l R) :
    Asks p fun a' m' l' => a' ≤ a ∧ m' ≤ m ∧ l' ≤ l := by
  intro a0 m0 l0
  refine ((h a0 m0 l0).and (asks_true p a0 m0 l0)).mono ?_
  rintro _ _ _ _ ⟨⟨h1, h2, h3, -⟩, a', m', l', rfl, rfl, rfl, -⟩
  exact ⟨a', m', l', rfl, rfl, rfl, by omega, by omega, by omega⟩

end Circuit
end Halo
