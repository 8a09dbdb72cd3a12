import Verif.Lemmas.Proofs.Honest
import Verif.Model.Recursion.Proof
/-!
# Lemmas: the bound on the search for challenges has no influence on what is returned
-/
namespace Halo

/-- What the first computation returns the second one returns, too. -/
def Extends {ε α : Type} (x y : Except ε α) : Prop := ∀ a, x = .ok a → y = .ok a

namespace Extends
variable {ε α β : Type}

theorem refl (x : Except ε α) : Extends x x := fun _ h => h

theorem bind {x y : Except ε α} (h : Extends x y) {f g : α → Except ε β} (hf : ∀ a, Extends (f a) (g a)) :
    Extends (x >>= f) (y >>= g) := by
  cases x with
  | error e => exact fun b hb => nomatch hb
  | ok a =>
    rw [h a rfl]
    exact hf a

theorem step (x : Except ε α) {f g : α → Except ε β} (hf : ∀ a, Extends (f a) (g a)) : Extends (x >>= f) (x >>= g) :=
  (Extends.refl x).bind hf

theorem check {p : Prop} [Decidable p] {e : ε} {f g : α → Except ε β} {y y' : Except ε β} (h : Extends y y') :
    Extends (if p then Except.error e >>= f else y) (if p then Except.error e >>= g else y') := by
  split
  · exact fun b hb => nomatch hb
  · exact h

end Extends

namespace Proofs
open Circuit Util
variable {C F S T : Type} [Field F] [FieldApi F] [Field S] [DecidableEq S] [LawfulField S] [CurveOps C F S]
  (tr : Transcript T F) {fuel fuel' : ℕ} (cpus : ℕ) (lnCeil : ℕ → ℕ)

theorem proveRounds_fuel (hf : fuel ≤ fuel') (k : ℕ) : ∀ (ab : List (List S × List S)) (gens : List C) (t : T) {r},
    proveRounds tr fuel cpus lnCeil k ab gens t = some r → proveRounds tr fuel' cpus lnCeil k ab gens t = some r := by
  induction k with
  | zero => exact fun _ _ _ _ h => h
  | succ k ih =>
    intro ab gens t r h
    unfold proveRounds at h ⊢
    simp only [Option.bind_eq_bind, Option.bind_eq_some_iff] at h ⊢
    obtain ⟨es, h1, ⟨ch, t'⟩, h2, gens', h3, ⟨a, b, c, d, e⟩, h4, h5⟩ := h
    exact ⟨es, h1, ⟨ch, t'⟩, squareChallenge_mono hf h2, gens', h3, ⟨a, b, c, d, e⟩, ih _ _ _ h4, h5⟩

theorem newProof_fuel (hf : fuel ≤ fuel') (instances : List (PolynomialOpening C S × List S)) (gens : List C) (k : ℕ) (t : T) {r}
    (h : MultiPolynomialOpening.newProof tr fuel cpus lnCeil instances gens k t = some r) :
    MultiPolynomialOpening.newProof tr fuel' cpus lnCeil instances gens k t = some r := by
  unfold MultiPolynomialOpening.newProof at h ⊢
  simp only [Option.bind_eq_bind, Option.bind_eq_some_iff] at h ⊢
  obtain ⟨ab, h1, ⟨a, b, c, d, e⟩, h2, h3⟩ := h
  exact ⟨ab, by simpa only [Option.bind_eq_bind] using h1, ⟨a, b, c, d, e⟩, proveRounds_fuel tr cpus lnCeil hf k _ _ _ h2, h3⟩

theorem new_fuel (hf : fuel ≤ fuel') {params : Params C} {α : Type} (circuit : Var → Prog S α) (old : Leftovers C S) :
    Extends (Proof.new tr fuel cpus lnCeil params circuit old) (Proof.new tr fuel' cpus lnCeil params circuit old) := by
  unfold Proof.new
  refine .step _ fun ⟨_, drv⟩ => .check (.check ?_)
  refine .step _ fun _ => .step _ fun ⟨_, _, _, _⟩ => .step _ fun _ => .step _ fun _ => .step _ fun _ => .step _ fun ⟨_, _⟩ => ?_
  refine .step _ fun _ => .step _ fun _ => .step _ fun _ => .step _ fun _ => .check (.step _ fun _ => .step _ fun _ => .check ?_)
  refine .step _ fun ⟨_, _⟩ => .step _ fun _ => .step _ fun _ => .step _ fun ⟨_, _⟩ => .step _ fun _ => .step _ fun _ => ?_
  refine .step _ fun _ => .step _ fun _ => .check ?_
  refine .step _ fun _ => .step _ fun _ => .step _ fun _ => .step _ fun _ => .step _ fun _ => .step _ fun _ => .step _ fun _ => ?_
  refine .step _ fun _ => .step _ fun _ => .check (.step _ fun ⟨_, _⟩ => .check (.check ?_))
  refine .bind (fun r h => ?_) fun _ => .refl _
  rw [ofOption_eq_ok] at h ⊢
  exact newProof_fuel tr cpus lnCeil hf _ _ _ _ h

end Proofs

namespace Recursion
open Proofs
variable {B S : Type} [Field B] [DecidableEq B] [LawfulField B] [Field S] [DecidableEq S] [LawfulField S]

theorem createProof_fuel (E1 E2 : CurveConsts) (cpus : ℕ) (lnCeil : ℕ → ℕ) {fuel fuel' : ℕ} (hf : fuel ≤ fuel')
    (params1 : Params (Proj B)) (params2 : Params (Proj S)) (old : Option (RecursiveProof S B)) (inner1 : RecursiveCircuit S)
    (inner2 : RecursiveCircuit B) (payload : List (BitVec 8)) :
    Extends (RecursiveProof.createProof E1 E2 cpus lnCeil fuel params1 params2 old inner1 inner2 payload)
      (RecursiveProof.createProof E1 E2 cpus lnCeil fuel' params1 params2 old inner1 inner2 payload) := by
  unfold RecursiveProof.createProof
  refine .step _ fun v => .bind ?_ fun _ => .refl _
  exact @new_fuel _ _ _ _ _ _ _ _ _ (Proj.curveOps E1 B S) _ _ _ cpus lnCeil hf _ _ _ _

end Recursion
end Halo
