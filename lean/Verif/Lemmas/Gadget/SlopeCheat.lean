import Verif.Lemmas.Gadget.EccForge
import Verif.Lemmas.Gadget.EndoCheat
/-!
# What a lying prover gets away with in `double_and_add_incomplete`

If the two points are equal, the slope of the first addition is free.
-/
namespace Halo
namespace Circuit
variable {F : Type} [Field F] {w : Var → F} {one : Var}

namespace CurvePoint
variable [LawfulField F]

/-- `doubleAndAddIncomplete` (`src/gadgets/ecc.rs:1327-1487`) by a prover that claims other slopes for the
two additions -/
def doubleAndAddWith (t u : F) (one : Var) (p q : CurvePoint F) : Prog F (CurvePoint F) := do
  let xpVal := p.x.value
  let ypVal := p.y.value
  let xpLc := p.x.lc one
  let ypLc := p.y.lc one
  let xqVal := q.x.value
  let yqVal := q.y.value
  let xqLc := q.x.lc one
  let yqLc := q.y.lc one
  let lambda1Val : Except SynthesisError F := .ok t
  let xrVal : Except SynthesisError F := do
    let xp ← orMissing xpVal
    let xq ← orMissing xqVal
    let lambda1 ← lambda1Val
    .ok (lambda1 * lambda1 - xp - xq)
  let lambda2Val : Except SynthesisError F := .ok u
  let xsVal : Except SynthesisError F := do
    let xp ← orMissing xpVal
    let xr ← xrVal
    let lambda2 ← lambda2Val
    .ok (lambda2 * lambda2 - xr - xp)
  let ysVal : Except SynthesisError F := do
    let xp ← orMissing xpVal
    let yp ← orMissing ypVal
    let xs ← xsVal
    let lambda2 ← lambda2Val
    .ok (lambda2 * (xp - xs) - yp)
  let xs ← AllocatedNum.alloc xsVal
  let ys ← AllocatedNum.alloc ysVal
  let (a, lambda1, c, _) ← .doMultiply (do
    let xp ← orMissing xpVal
    let yp ← orMissing ypVal
    let xq ← orMissing xqVal
    let yq ← orMissing yqVal
    .ok (xq - xp, ← lambda1Val, yq - yp))
  .enforce ((xqLc.subLC xpLc).subVar a)
  .enforce ((yqLc.subLC ypLc).subVar c)
  let (d, e, f, _) ← .doMultiply (do
    let xp ← orMissing xpVal
    let xq ← orMissing xqVal
    .ok (← lambda1Val, ← lambda1Val, xp + xq + (← xrVal)))
  .enforce ((LC.ofVar lambda1).subVar d)
  .enforce ((LC.ofVar lambda1).subVar e)
  let (lambda2, k, l, _) ← .doMultiply (do
    let xp ← orMissing xpVal
    .ok (← lambda2Val, ← lambda2Val, (← xrVal) + xp + (← xsVal)))
  .enforce ((LC.ofVar lambda2).subVar k)
  .enforce (((xs.lc.addVar f).subLC xqLc).subVar l)
  let (g, h, i, _) ← .doMultiply (do
    let xp ← orMissing xpVal
    let yp ← orMissing ypVal
    .ok (xp - (← xrVal), (← lambda1Val) + (← lambda2Val), yp + yp))
  .enforce ((((xpLc.subVar f).addLC xpLc).addLC xqLc).subVar g)
  .enforce (((LC.ofVar lambda1).addVar lambda2).subVar h)
  .enforce ((ypLc.addLC ypLc).subVar i)
  let (g, h, i, _) ← .doMultiply (do
    let xp ← orMissing xpVal
    let yp ← orMissing ypVal
    .ok (xp - (← xsVal), ← lambda2Val, yp + (← ysVal)))
  .enforce ((xpLc.subLC xs.lc).subVar g)
  .enforce ((LC.ofVar lambda2).subVar h)
  .enforce ((ypLc.addLC ys.lc).subVar i)
  return ⟨.ofAllocated xs, .ofAllocated ys, p.isIdentity⟩

theorem twin_doubleAndAddWith {V : Var → Prop} {P P' Q Q' : CurvePoint F} (t u : F) (h1 : V one)
    (hP : Like V P P') (hQ : Like V Q Q') :
    Circuit.Twin V (doubleAndAddWith t u one P Q) (doubleAndAddIncomplete one P' Q') (Like V) := by
  have i1 := hP.x.in h1
  have i2 := hP.y.in h1
  have i3 := hQ.x.in h1
  have i4 := hQ.y.in h1
  unfold doubleAndAddWith doubleAndAddIncomplete
  twin_steps [hP.x.lc, hP.y.lc, hQ.x.lc, hQ.y.lc]
  exact Twin.ret ⟨.ofAllocated ⟨_, _, _, by assumption⟩, .ofAllocated ⟨_, _, _, by assumption⟩, hP.flag⟩

omit [LawfulField F] in
theorem Like.wire {V : Var → Prop} {P P' : CurvePoint F} (h : Like V P P') : P'.x.wire w = P.x.wire w := by
  obtain ⟨h, -, -⟩ := h
  generalize P.x = n at *
  generalize P'.x = n' at *
  cases h with
  | constant => rfl
  | allocated _ h => cases h; rfl

omit [LawfulField F] in
theorem doubleAndAddWith_complete (h1 : w one = 1) {P : CurvePoint F} {b : F} {A : Pt b} (hP : P.Honest w A)
    {t u : F} (ht : (3 * (coordinates A).1 - t * t) * (t + u) = 2 * (coordinates A).2) :
    Complete w (doubleAndAddWith t u one P P) fun R => R.x.wire w = u * u - t * t + (coordinates A).1 := by
  obtain ⟨hx, hy, hf, hx', hy'⟩ := hP.values
  simp only [doubleAndAddWith, hx, hy]
  generalize (coordinates A).1 = x at *
  generalize (coordinates A).2 = y at *
  complete_steps [Num.eval_lc h1, hx', hy', Num.wire_ofAllocated]
  split_steps
  all_goals first | assumption | grind

omit [LawfulField F] in
/-- What a prover can do that supplies other values for the same constraints -/
theorem accepted_of_twin {α β : Type} {cheat : Var → Prog F α} {circuit : Var → Prog F β} {R : α → β → Prop}
    {Q : (Var → F) → α → Prop} {Q' : (Var → F) → β → Prop} (hc : Provable cheat Q)
    (ht : ∀ V one, V one → Circuit.Twin V (cheat one) (circuit one) R) (hR : ∀ w a b, R a b → Q w a → Q' w b) :
    ∃ b sys w, circuitSystem false circuit = .ok (b, sys) ∧ sys.Satisfied w [] ∧ Q' w b := by
  obtain ⟨a, s, has, hst, hq⟩ := hc
  obtain ⟨b, s', h1, -, -, h4⟩ := twin_system (F := F) (circuit := cheat) (circuit' := circuit) (R := R) (vs := []) ht
  obtain ⟨hr, hlike, hin⟩ := h4 _ _ _ has
  refine ⟨b, s', s.w, h1, ?_, hR _ _ _ hr hq⟩
  have : s.publicInputs = [] := by
    rw [System.publicInputs, hin]
    rfl
  exact hlike.satisfied (this ▸ hst)

end CurvePoint
end Circuit
end Halo
