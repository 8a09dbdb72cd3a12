import Verif.Model.CurveApi
import Mathlib.Algebra.Module.Basic
/-!
# What the generic code assumes of a curve

`LawfulCurve C S G rep`: the point type `C` with its operations represents the `S`-module `G`.
It is proved for the two curves of the code (`Verif.Lemmas.CurveApi`), with `rep = Denotes` and
`G` the group of rational points, and trivially for `C = G`.
-/
namespace Halo

/-- The operations of the trait `Curve` implement those of the module `G`. -/
structure LawfulCurve (C S G : Type) [CurveApi C S] [Field S] [AddCommGroup G] [Module S G]
    (rep : C → G → Prop) : Prop where
  zero : rep (CurveApi.zero (S := S)) 0
  add : ∀ {p q : C} {a b : G}, rep p a → rep q b → rep (CurveApi.add p q) (a + b)
  neg : ∀ {p : C} {a : G}, rep p a → rep (CurveApi.neg p) (-a)
  sub : ∀ {p q : C} {a b : G}, rep p a → rep q b → rep (CurveApi.sub p q) (a - b)
  double : ∀ {p : C} {a : G}, rep p a → rep (CurveApi.double p) (a + a)
  mul : ∀ {p : C} {a : G} (s : S), rep p a → rep (CurveApi.mul p s) (s • a)
  total : ∀ a : G, ∃ p, rep p a
  functional : ∀ {p : C} {a b : G}, rep p a → rep p b → a = b

end Halo
