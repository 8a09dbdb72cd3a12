import Verif.Model.Recursion.Dev
import Verif.Spec.Count
import Verif.Spec.CircuitSize
import Verif.Lemmas.Recursion.Dev
/-!
# A logic for the size of a circuit

`Costs p a m l R`: whenever the program `p` returns, whatever variables and values it is given, it has allocated `a`
variables, asked for `m` multiplications and `l` linear constraints, and its result satisfies `R`.
-/
namespace Halo
namespace Circuit
open Sha256 (foldProg index)
variable {F : Type} {α β : Type}

def Costs (p : Prog F α) (a m l : ℕ) (R : α → Prop) : Prop :=
  ∀ a0 m0 l0, Counted p a0 m0 l0 fun x a' m' l' => a' = a0 + a ∧ m' = m0 + m ∧ l' = l0 + l ∧ R x

theorem Counted.mono {p : Prog F α} {Q Q' : α → ℕ → ℕ → ℕ → Prop} (h : ∀ x a m l, Q x a m l → Q' x a m l) :
    ∀ {a m l}, Counted p a m l Q → Counted p a m l Q' := by
  induction p with
  | pure x => exact fun hp => h _ _ _ _ hp
  | throw e => exact fun _ => trivial
  | panic => exact fun _ => trivial
  | alloc v k ih => exact fun hp x o => ih _ _ (hp x o)
  | allocInput v k ih => exact fun hp x o => ih _ _ (hp x o)
  | enforceZero lc k ih => exact fun hp => ih hp
  | multiply v k ih => exact fun hp x y z o => ih _ _ _ _ (hp x y z o)

theorem Counted.bind {p : Prog F α} {f : α → Prog F β} {Q : β → ℕ → ℕ → ℕ → Prop} :
    ∀ {a m l}, Counted p a m l (fun x a m l => Counted (f x) a m l Q) → Counted (p.bind f) a m l Q := by
  induction p with
  | pure x => exact fun hp => hp
  | throw e => exact fun _ => trivial
  | panic => exact fun _ => trivial
  | alloc v k ih => exact fun hp x o => ih _ _ (hp x o)
  | allocInput v k ih => exact fun hp x o => ih _ _ (hp x o)
  | enforceZero lc k ih => exact fun hp => ih hp
  | multiply v k ih => exact fun hp x y z o => ih _ _ _ _ (hp x y z o)

theorem Costs.then {p : Prog F α} {f : α → Prog F β} {a m l a' m' l' : ℕ} {R : α → Prop} {R' : β → Prop}
    (hp : Costs p a m l R) (hf : ∀ x, R x → Costs (f x) a' m' l' R') :
    Costs (p >>= f) (a + a') (m + m') (l + l') R' := by
  intro a0 m0 l0
  refine Counted.bind ((hp a0 m0 l0).mono ?_)
  rintro x _ _ _ ⟨rfl, rfl, rfl, hx⟩
  refine (hf x hx _ _ _).mono ?_
  rintro y _ _ _ ⟨rfl, rfl, rfl, hy⟩
  exact ⟨by omega, by omega, by omega, hy⟩

/-- The same with a known sum -/
theorem Costs.bind {p : Prog F α} {f : α → Prog F β} {a m l A M L : ℕ} {R : α → Prop} {R' : β → Prop}
    (hp : Costs p a m l R) (ha : a ≤ A) (hm : m ≤ M) (hl : l ≤ L)
    (hf : ∀ x, R x → Costs (f x) (A - a) (M - m) (L - l) R') : Costs (p >>= f) A M L R' := by
  have h := hp.then hf
  rwa [Nat.add_sub_cancel' ha, Nat.add_sub_cancel' hm, Nat.add_sub_cancel' hl] at h

/-- After a step that costs nothing -/
theorem Costs.free {p : Prog F α} {f : α → Prog F β} {a m l : ℕ} {R : α → Prop} {R' : β → Prop}
    (hp : Costs p 0 0 0 R) (hf : ∀ x, R x → Costs (f x) a m l R') : Costs (p >>= f) a m l R' :=
  hp.bind (Nat.zero_le _) (Nat.zero_le _) (Nat.zero_le _) hf

theorem Costs.weaken {p : Prog F α} {a m l : ℕ} {R R' : α → Prop} (hp : Costs p a m l R) (h : ∀ x, R x → R' x) :
    Costs p a m l R' := fun a0 m0 l0 => (hp a0 m0 l0).mono fun _ _ _ _ ⟨h1, h2, h3, h4⟩ => ⟨h1, h2, h3, h _ h4⟩

theorem Costs.eq {p : Prog F α} {a m l a' m' l' : ℕ} {R : α → Prop} (hp : Costs p a m l R) (ha : a = a') (hm : m = m')
    (hl : l = l') : Costs p a' m' l' R := by
  subst ha hm hl
  exact hp

theorem costs_pure {x : α} {R : α → Prop} (h : R x) : Costs (pure x : Prog F α) 0 0 0 R := fun _ _ _ => ⟨rfl, rfl, rfl, h⟩

theorem costs_panic {a m l : ℕ} {R : α → Prop} : Costs (.panic : Prog F α) a m l R := fun _ _ _ => trivial

theorem costs_throw {e : SynthesisError} {a m l : ℕ} {R : α → Prop} : Costs (.throw e : Prog F α) a m l R :=
  fun _ _ _ => trivial

theorem costs_enforce {lc : LC F} : Costs (.enforce lc) 0 0 1 fun _ => True := fun _ _ _ => ⟨rfl, rfl, rfl, trivial⟩

theorem costs_orPanic {x : Option α} {R : α → Prop} (h : ∀ a ∈ x, R a) : Costs (orPanic x : Prog F α) 0 0 0 R := by
  cases x with
  | none => exact costs_panic
  | some a => exact costs_pure (h a rfl)

theorem costs_index {l : List α} {i : ℕ} {R : α → Prop} (h : ∀ a ∈ l, R a) : Costs (index l i : Prog F α) 0 0 0 R :=
  costs_orPanic fun a ha => h a (List.mem_of_getElem? ha)

theorem costs_mapProg {f : α → Prog F β} {a m l : ℕ} {R : β → Prop} :
    ∀ {xs : List α}, (∀ x ∈ xs, Costs (f x) a m l R) →
      Costs (mapProg f xs) (xs.length * a) (xs.length * m) (xs.length * l) fun ys =>
        ys.length = xs.length ∧ ∀ y ∈ ys, R y
  | [], _ => (costs_pure ⟨rfl, nofun⟩).eq (by simp) (by simp) (by simp)
  | x :: xs, h => by
    unfold mapProg
    refine (Costs.then (h x (by simp)) fun y hy => Costs.then
      (costs_mapProg (xs := xs) fun z hz => h z (by simp [hz])) fun ys hys =>
        costs_pure (R := fun ys : List β => ys.length = (x :: xs).length ∧ ∀ y ∈ ys, R y) ?_).eq ?_ ?_ ?_
    · refine ⟨by simp [hys.1], fun z hz => ?_⟩
      rcases List.mem_cons.1 hz with rfl | hz
      · exact hy
      · exact hys.2 z hz
    all_goals simp only [List.length_cons]; ring

/-- A loop with an invariant -/
theorem costs_foldProg {σ : Type} {f : σ → α → Prog F σ} {a m l : ℕ} {R : σ → Prop} :
    ∀ {xs : List α} {s : σ}, (∀ s, ∀ x ∈ xs, R s → Costs (f s x) a m l R) → R s →
      Costs (foldProg f xs s) (xs.length * a) (xs.length * m) (xs.length * l) R
  | [], s, _, hs => (costs_pure hs).eq (by simp) (by simp) (by simp)
  | x :: xs, s, h, hs => by
    unfold foldProg
    refine (Costs.then (h s x (by simp) hs) fun s hs => costs_foldProg (xs := xs)
      (fun s z hz => h s z (by simp [hz])) hs).eq ?_ ?_ ?_
    all_goals simp only [List.length_cons]; ring

/-- What is counted is what `constraint_count` reports. -/
theorem Counted.tally [Field F] {p : Prog F α} : ∀ {t t' : Tally F} {x : α} {Q : α → ℕ → ℕ → ℕ → Prop},
    tally (Recursion.anonymous p) t = .ok (x, t') →
    Counted p t.allocations t.multiplications t.system.lcs.length Q →
    Q x t'.allocations t'.multiplications t'.system.lcs.length := by
  have hfresh : ∀ (s : System F) v, (s.fresh v).2.lcs = s.lcs := by
    intro s v; unfold System.fresh; split <;> rfl
  induction p with
  | pure x => rintro t _ _ Q ⟨⟩ h; exact h
  | throw e => intro t t' x Q h _; simp only [Recursion.anonymous, Circuit.tally] at h; split at h <;> cases h
  | panic => intro t t' x Q h _; cases h
  | alloc v k ih =>
    intro t t' x Q h hc
    simp only [Recursion.anonymous, Circuit.tally] at h
    refine ih _ _ h ?_
    simp only [hfresh]
    exact hc _ _
  | allocInput v k ih =>
    intro t t' x Q h hc
    simp only [Recursion.anonymous, Circuit.tally] at h
    refine ih _ _ h ?_
    simp only [System.expose, System.constrain, List.length_append, hfresh]
    exact hc _ _
  | enforceZero lc k ih =>
    intro t t' x Q h hc
    simp only [Recursion.anonymous, Circuit.tally] at h
    refine ih h ?_
    simp only [System.constrain, List.length_append]
    exact hc
  | multiply v k ih =>
    intro t t' x Q h hc
    simp only [Recursion.anonymous, Circuit.tally] at h
    exact ih _ _ _ _ h (hc _ _ _ _)

theorem Costs.tally [Field F] {p : Prog F α} {a m l : ℕ} {R : α → Prop} (h : Costs p a m l R) {t t' : Tally F} {x : α}
    (ht : tally (Recursion.anonymous p) t = .ok (x, t')) : t'.allocations = t.allocations + a ∧
      t'.multiplications = t.multiplications + m ∧ t'.system.lcs.length = t.system.lcs.length + l ∧ R x :=
  Counted.tally ht (h _ _ _)

/-- The circuit asks for these and some more, which satisfy `Q`. -/
def Above (p : Prog F α) (A M L : ℕ) (Q : ℕ → ℕ → ℕ → Prop) : Prop :=
  Asks p fun a m l => ∃ a' m' l', a = A + a' ∧ m = M + m' ∧ l = L + l' ∧ Q a' m' l'

theorem Above.after {p : Prog F α} {f : α → Prog F β} {a m l A M L : ℕ} {R : α → Prop} {Q : ℕ → ℕ → ℕ → Prop}
    (hp : Costs p a m l R) (ha : a ≤ A) (hm : m ≤ M) (hl : l ≤ L)
    (hf : ∀ x, R x → Above (f x) (A - a) (M - m) (L - l) Q) : Above (p >>= f) A M L Q := by
  intro a0 m0 l0
  refine Counted.bind ((hp a0 m0 l0).mono ?_)
  rintro x _ _ _ ⟨rfl, rfl, rfl, hx⟩
  refine (hf x hx _ _ _).mono ?_
  rintro y _ _ _ ⟨_, _, _, rfl, rfl, rfl, a', m', l', rfl, rfl, rfl, hq⟩
  exact ⟨A + a', M + m', L + l', by omega, by omega, by omega, a', m', l', rfl, rfl, rfl, hq⟩

theorem Above.free {p : Prog F α} {f : α → Prog F β} {A M L : ℕ} {R : α → Prop} {Q : ℕ → ℕ → ℕ → Prop}
    (hp : Costs p 0 0 0 R) (hf : ∀ x, R x → Above (f x) A M L Q) : Above (p >>= f) A M L Q :=
  Above.after hp (Nat.zero_le _) (Nat.zero_le _) (Nat.zero_le _) hf

theorem Asks.above {p : Prog F α} {A M L : ℕ} {Q : ℕ → ℕ → ℕ → Prop} (h : Asks p Q) (ha : A = 0) (hm : M = 0) (hl : L = 0) :
    Above p A M L Q := by
  subst ha hm hl
  intro a0 m0 l0
  refine (h a0 m0 l0).mono ?_
  rintro x _ _ _ ⟨a, m, l, rfl, rfl, rfl, hq⟩
  exact ⟨a, m, l, rfl, rfl, rfl, a, m, l, by omega, by omega, by omega, hq⟩

theorem Costs.asks {p : Prog F α} {a m l : ℕ} {R : α → Prop} (h : Costs p a m l R) :
    Asks p fun a' m' l' => a' = a ∧ m' = m ∧ l' = l := fun a0 m0 l0 =>
  (h a0 m0 l0).mono fun _ _ _ _ ⟨h1, h2, h3, _⟩ => ⟨a, m, l, h1, h2, h3, rfl, rfl, rfl⟩

/-- Every circuit asks for something. -/
theorem asks_true (p : Prog F α) : Asks p fun _ _ _ => True := by
  suffices h : ∀ a0 m0 l0 a m l, a0 ≤ a → m0 ≤ m → l0 ≤ l →
      Counted p a m l fun _ a' m' l' => a0 ≤ a' ∧ m0 ≤ m' ∧ l0 ≤ l' by
    intro a0 m0 l0
    refine (h a0 m0 l0 a0 m0 l0 le_rfl le_rfl le_rfl).mono ?_
    rintro _ a m l ⟨h1, h2, h3⟩
    exact ⟨a - a0, m - m0, l - l0, by omega, by omega, by omega, trivial⟩
  intro a0 m0 l0
  induction p with
  | pure x => exact fun a m l h1 h2 h3 => ⟨h1, h2, h3⟩
  | throw e => exact fun _ _ _ _ _ _ => trivial
  | panic => exact fun _ _ _ _ _ _ => trivial
  | alloc v k ih => exact fun a m l h1 h2 h3 x o => ih _ _ _ _ _ (by omega) h2 h3
  | allocInput v k ih => exact fun a m l h1 h2 h3 x o => ih _ _ _ _ _ (by omega) h2 (by omega)
  | enforceZero lc k ih => exact fun a m l h1 h2 h3 => ih _ _ _ h1 h2 (by omega)
  | multiply v k ih => exact fun a m l h1 h2 h3 x y z o => ih _ _ _ _ _ _ _ h1 (by omega) h3

theorem Asks.tally [Field F] {p : Prog F α} {Q : ℕ → ℕ → ℕ → Prop} (h : Asks p Q) {t t' : Tally F} {x : α}
    (ht : tally (Recursion.anonymous p) t = .ok (x, t')) : ∃ a m l, t'.allocations = t.allocations + a ∧
      t'.multiplications = t.multiplications + m ∧ t'.system.lcs.length = t.system.lcs.length + l ∧ Q a m l :=
  Counted.tally ht (h _ _ _)

/-- Straight-line programs -/
macro "cost_leaf" : tactic =>
  `(tactic| (intro a0 m0 l0; (repeat intro _); exact ⟨rfl, rfl, rfl, trivial⟩))

end Circuit
end Halo
