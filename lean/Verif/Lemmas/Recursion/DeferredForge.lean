import Verif.Lemmas.Recursion.Deferred
import Verif.Lemmas.Gadget.EccForge
/-!
# The circuit accepts deferred records up to signs
-/
namespace Halo
namespace Recursion
open Circuit Proofs
variable {F : Type} [Field F] {one : Var} {Γ : (Var → F) → Prop}

/-! ### Signs of the roots -/

theorem prodB_signs {us vs : List F} (h : List.Forall₂ (fun u v => u = v ∨ u = -v) us vs) :
    ∃ σ : F, (σ = 1 ∨ σ = -1) ∧ ∀ x, Util.prodB us x = σ * Util.prodB vs x := by
  induction h with
  | nil => exact ⟨1, .inl rfl, fun x => by rw [one_mul]⟩
  | @cons u v us vs h1 h2 ih =>
    obtain ⟨σ, hσ, e⟩ := ih
    rcases h1 with rfl | rfl
    · exact ⟨σ, hσ, fun x => by rw [Util.prodB, Util.prodB, e, h2.length_eq]; ring⟩
    · refine ⟨-σ, by rcases hσ with rfl | rfl <;> simp, fun x => ?_⟩
      rw [Util.prodB, Util.prodB, e, h2.length_eq, inv_neg]
      ring

theorem collapse_eq_prodB (us : List F) (x : F) : collapse us (x ^ ·) = Util.prodB us x := by
  have := Util.collapse_pow us 1 x
  simpa using this

theorem AnyRoots.signs [LawfulField F] {packed us vs : List F} (h : AnyRoots packed us) (h' : Roots packed vs) :
    ∃ σ : F, (σ = 1 ∨ σ = -1) ∧ ∀ x : F, collapse vs (x ^ ·) = σ * collapse us (x ^ ·) := by
  have : List.Forall₂ (fun u v => u = v ∨ u = -v) vs us := by
    induction h generalizing vs with
    | nil => cases h'; exact .nil
    | cons h1 _ ih =>
      cases h' with
      | cons h2 h3 =>
        have := sqrt_mul h2
        rw [← h1] at this
        exact .cons (mul_self_eq_mul_self_iff.1 this) (ih h3)
  obtain ⟨σ, hσ, e⟩ := prodB_signs this
  exact ⟨σ, hσ, fun x => by rw [collapse_eq_prodB, collapse_eq_prodB, e]⟩

theorem anyRoots_signs [LawfulField F] {packed us : List F} (h : Roots packed us) (hne : packed ≠ []) {σ : F}
    (hσ : σ = 1 ∨ σ = -1) :
    ∃ vs, AnyRoots packed vs ∧ ∀ x : F, collapse us (x ^ ·) = σ * collapse vs (x ^ ·) := by
  have hany : ∀ {packed us : List F}, Roots packed us → AnyRoots packed us := fun h =>
    List.Forall₂.imp (fun _ _ h => sqrt_mul h) h
  cases h with
  | nil => exact (hne rfl).elim
  | @cons p u ps us h1 h2 =>
    refine ⟨σ * u :: us, .cons ?_ (hany h2), fun x => ?_⟩
    · rw [← sqrt_mul h1]
      rcases hσ with rfl | rfl <;> ring
    · rw [collapse_eq_prodB, collapse_eq_prodB, Util.prodB, Util.prodB]
      rcases hσ with rfl | rfl
      · simp
      · rw [neg_one_mul, neg_one_mul, inv_neg]
        ring

theorem loose_iff [LawfulField F] {k : ℕ} {d : Deferred F} (hk : 2 ≤ k) (hx : d.x ≠ 0) (hy : d.yCur ≠ 0)
    (ho : d.challengesSqPackedOld.length = k) (hn : d.challengesSqPackedNew.length = k) :
    LooseDeferred k d ↔ WellFormedDeferred k d ∧ TrueUpToSigns k d := by
  have ho' : d.challengesSqPackedOld ≠ [] := by rintro h; rw [h, List.length_nil] at ho; omega
  have hn' : d.challengesSqPackedNew ≠ [] := by rintro h; rw [h, List.length_nil] at hn; omega
  have hsq : ∀ {packed us : List F}, AnyRoots packed us → ∀ p ∈ packed, IsSquare (Util.getChallengeScalar p : F) := by
    intro packed us h
    induction h with
    | nil => simp
    | cons h1 _ ih =>
      intro p hp
      rcases List.mem_cons.1 hp with rfl | hp
      · exact ⟨_, h1.symm⟩
      · exact ih p hp
  have hss : ∀ {σ : F}, (σ = 1 ∨ σ = -1) → σ * σ = 1 := by rintro σ (rfl | rfl) <;> ring
  constructor
  · rintro ⟨hr, ⟨us, hus, e⟩, ⟨vs, hvs, e1, e2, e3, e4, e5⟩⟩
    refine ⟨⟨hk, hx, hy, ho', hn', hsq hus, hsq hvs⟩, ?_⟩
    obtain ⟨us', hus'⟩ := (roots_iff _).2 (hsq hus)
    obtain ⟨vs', hvs'⟩ := (roots_iff _).2 (hsq hvs)
    obtain ⟨σ, hσ, hs⟩ := hus.signs hus'
    obtain ⟨τ, hτ, ht⟩ := hvs.signs hvs'
    exact ⟨σ, τ, hσ, hτ, hr, ⟨us', hus', by rw [e]; exact (hs _).symm⟩, vs', hvs', by rw [e1]; exact (ht _).symm,
      by rw [e2]; exact (ht _).symm, by rw [e3]; exact (ht _).symm, by rw [e4]; exact (ht _).symm,
      by rw [e5]; exact (ht _).symm⟩
  · rintro ⟨-, σ, τ, hσ, hτ, ⟨hr, ⟨us, hus, e⟩, ⟨vs, hvs, e1, e2, e3, e4, e5⟩⟩⟩
    obtain ⟨us', hus', hs⟩ := anyRoots_signs hus ho' hσ
    obtain ⟨vs', hvs', ht⟩ := anyRoots_signs hvs hn' hτ
    have cancel : ∀ {σ a b c : F}, σ * σ = 1 → σ * a = b → b = σ * c → a = c := by
      intro σ a b c h h1 h2
      linear_combination σ * (h1 + h2) - (a - c) * h
    dsimp only at e e1 e2 e3 e4 e5
    exact ⟨hr, ⟨us', hus', cancel (hss hσ) e (hs _)⟩, vs', hvs', cancel (hss hτ) e1 (ht _),
      cancel (hss hτ) e2 (ht _), cancel (hss hτ) e3 (ht _), cancel (hss hτ) e4 (ht _), cancel (hss hτ) e5 (ht _)⟩

/-! ### A cheating prover may choose the roots -/

/-- Some value is known, and the wire carries the number. -/
def NumF (w : Var → F) (n : AllocatedNum F) (u : F) : Prop := n.value.isSome ∧ w n.var = u
/-- Some value is known, and the combination stands for the number. -/
def CombF (w : Var → F) (n : Combination F) (u : F) : Prop := n.value.isSome ∧ n.wire w = u

omit [Field F] in
theorem NumIs.toF {w : Var → F} {n : AllocatedNum F} {u : F} (h : NumIs true w n u) : NumF w n u :=
  ⟨by rw [h.1 rfl]; rfl, h.2⟩

theorem mul_forge {n m : AllocatedNum F} {u v : F} (h : ∀ w, Γ w → NumF w n u ∧ NumF w m v) :
    Forge Γ (n.mul m) fun w r => NumF w r (u * v) := by
  refine Forge.known (φ := n.value.isSome ∧ m.value.isSome) (fun w hw => ⟨(h w hw).1.1, (h w hw).2.1⟩) ?_
  rintro ⟨h1, h2⟩
  obtain ⟨a, ha⟩ := Option.isSome_iff_exists.1 h1
  obtain ⟨b, hb⟩ := Option.isSome_iff_exists.1 h2
  simp only [AllocatedNum.mul, ha, hb, orMissing_some, ok_bind, both_some]
  refine Forge.seq (Forge.multiply _ (u, v, u * v) rfl) fun r => ?_
  refine Forge.seq (Forge.enforce fun w hw => ?_) fun _ => ?_
  · rw [LC.eval_subVar, LC.eval_ofVar, (h w hw.1).1.2, hw.2.1, sub_self]
  refine Forge.seq (Forge.enforce fun w hw => ?_) fun _ => Forge.ret fun w hw => ⟨rfl, hw.1.1.2.2.2⟩
  rw [LC.eval_subVar, LC.eval_ofVar, (h w hw.1.1).2.2, hw.1.2.2.1, sub_self]

theorem combMul_forge {n m : Combination F} {u v : F} (h : ∀ w, Γ w → w one = 1 ∧ CombF w n u ∧ CombF w m v) :
    Forge Γ (n.mul one m) fun w r => NumF w r (u * v) := by
  refine Forge.known (φ := n.value.isSome ∧ m.value.isSome) (fun w hw => ⟨(h w hw).2.1.1, (h w hw).2.2.1⟩) ?_
  rintro ⟨h1, h2⟩
  obtain ⟨a, ha⟩ := Option.isSome_iff_exists.1 h1
  obtain ⟨b, hb⟩ := Option.isSome_iff_exists.1 h2
  simp only [Combination.mul, ha, hb, orMissing_some, ok_bind, both_some]
  intro _
  refine ⟨_, (u, v, u * v), rfl, rfl, fun x y z => ?_⟩
  refine ⟨fun w hw => ?_, fun w hw => ?_, fun w hw => ⟨rfl, hw.2.2.2⟩⟩
  · rw [LC.eval_subVar, Combination.eval_lc (h w hw.1).1, (h w hw.1).2.1.2, hw.2.1, sub_self]
  · rw [LC.eval_subVar, Combination.eval_lc (h w hw.1).1, (h w hw.1).2.2.2, hw.2.2.1, sub_self]

theorem ofAllocated_f {w : Var → F} {n : AllocatedNum F} {u : F} (h : NumF w n u) : CombF w (.ofAllocated n) u := by
  obtain ⟨a, ha⟩ := Option.isSome_iff_exists.1 h.1
  refine ⟨?_, by rw [Combination.wire_ofAllocated, h.2]⟩
  simp [Combination.ofAllocated, ha]

theorem addAllocated_f {w : Var → F} {c : Combination F} {n : AllocatedNum F} {u v : F} (hc : CombF w c u)
    (h : NumF w n v) : CombF w (c.addAllocated n) (u + v) := by
  obtain ⟨a, ha⟩ := Option.isSome_iff_exists.1 h.1
  obtain ⟨b, hb⟩ := Option.isSome_iff_exists.1 hc.1
  refine ⟨?_, by rw [Combination.wire_addAllocated, h.2, hc.2]⟩
  simp [Combination.addAllocated, ha, hb, both]

theorem computeBRev_forge : ∀ (us uis : List (AllocatedNum F)) (rs : List F) (n : AllocatedNum F) (x : F)
    (Γ : (Var → F) → Prop), rs ≠ [] → (∀ w, Γ w → w one = 1 ∧ NumF w n x ∧ List.Forall₂ (NumF w) us rs ∧
      List.Forall₂ (NumF w) uis (rs.map (·⁻¹))) →
    Forge Γ (computeBRev one n us uis) fun w r => CombF w r (Util.prodB rs.reverse x) := by
  intro us
  induction us with
  | nil =>
    intro uis rs n x Γ hne h
    refine Forge.honest fun w hw => ?_
    have := (h w hw).2.2.1.length_eq
    exact (hne (List.length_eq_zero_iff.1 this.symm)).elim
  | cons u us ih =>
    intro uis rs n x Γ hne h
    cases rs with
    | nil => exact (hne rfl).elim
    | cons r rs =>
    cases uis with
    | nil =>
      refine Forge.honest fun w hw => ?_
      have := (h w hw).2.2.2.length_eq
      simp at this
    | cons ui uis =>
    have h' : ∀ w, Γ w → w one = 1 ∧ NumF w n x ∧ NumF w u r ∧ List.Forall₂ (NumF w) us rs ∧
        NumF w ui r⁻¹ ∧ List.Forall₂ (NumF w) uis (rs.map (·⁻¹)) := by
      intro w hw
      obtain ⟨a1, a2, a3, a4⟩ := h w hw
      cases a3 with
      | cons b1 b2 =>
      cases a4 with
      | cons c1 c2 => exact ⟨a1, a2, b1, b2, c1, c2⟩
    clear h
    rw [List.reverse_cons, Util.prodB_append]
    cases us with
    | nil =>
      refine Forge.known (φ := rs = []) (fun w hw => List.length_eq_zero_iff.1 (h' w hw).2.2.2.1.length_eq.symm) ?_
      rintro rfl
      rw [computeBRev]
      refine Forge.seq (mul_forge fun w hw => ⟨(h' w hw).2.1, (h' w hw).2.2.1⟩) fun t => Forge.ret fun w hw => ?_
      have := addAllocated_f (ofAllocated_f (h' w hw.1).2.2.2.2.1) hw.2
      simpa [Util.prodB, mul_comm] using this
    | cons u' us =>
      refine Forge.known (φ := rs ≠ []) (fun w hw hr => ?_) fun hr => ?_
      · have := (h' w hw).2.2.2.1.length_eq
        rw [hr] at this
        simp at this
      rw [computeBRev]
      · refine Forge.seq (mul_forge fun w hw => ⟨(h' w hw).2.1, (h' w hw).2.2.1⟩) fun t => ?_
        refine Forge.seq (mul_forge fun w hw => ⟨(h' w hw.1).2.1, (h' w hw.1).2.1⟩) fun x2 => ?_
        refine Forge.seq (ih uis rs x2 (x * x) _ hr fun w hw => ⟨(h' w hw.1.1).1, hw.2, (h' w hw.1.1).2.2.2.1,
          (h' w hw.1.1).2.2.2.2.2⟩) fun rest => ?_
        refine Forge.seq (combMul_forge fun w hw => ⟨(h' w hw.1.1.1).1, hw.2,
          addAllocated_f (ofAllocated_f (h' w hw.1.1.1).2.2.2.2.1) hw.1.1.2⟩) fun p => Forge.ret fun w hw => ?_
        have := ofAllocated_f hw.2
        rwa [mul_comm, ← pow_two, mul_comm x r] at this
      · simp

theorem computeB_forge {us uis : List (AllocatedNum F)} {rs : List F} {n : AllocatedNum F} {x : F}
    (hne : rs ≠ []) (h : ∀ w, Γ w → w one = 1 ∧ NumF w n x ∧ List.Forall₂ (NumF w) us rs ∧
      List.Forall₂ (NumF w) uis (rs.map (·⁻¹))) :
    Forge Γ (computeB one n us uis) fun w r => CombF w r (collapse rs (x ^ ·)) := by
  have hpos := List.length_pos_iff.2 hne
  refine Forge.known (φ := us.length = rs.length ∧ uis.length = rs.length) (fun w hw =>
    ⟨(h w hw).2.2.1.length_eq, by simpa using (h w hw).2.2.2.length_eq⟩) fun hl => ?_
  rw [computeB, if_neg (by omega), collapse_eq_prodB]
  refine (computeBRev_forge us.reverse uis.reverse rs.reverse n x Γ (by simpa) fun w hw => ?_).mono
    fun w r _ hr => by simpa using hr
  obtain ⟨a1, a2, a3, a4⟩ := h w hw
  refine ⟨a1, a2, List.forall₂_reverse_iff.2 a3, ?_⟩
  rw [List.map_reverse]
  exact List.forall₂_reverse_iff.2 a4

theorem enforceIs_forge {a : Combination F} {n : AllocatedNum F} {u : F}
    (h : ∀ w, Γ w → w one = 1 ∧ CombF w a u ∧ w n.var = u) :
    Forge Γ (enforceIs one a n) fun _ _ => True := by
  refine Forge.enforce fun w hw => ?_
  obtain ⟨h1, h2, h3⟩ := h w hw
  rw [LC.eval_subVar, Combination.eval_lc h1, h2.2, h3, sub_self]

variable [LawfulField F]

theorem sqrt_forge {n : AllocatedNum F} {p y : F} (hy : y * y = p) (h : ∀ w, Γ w → NumIs true w n p) :
    Forge Γ n.sqrt fun w r => NumF w r y ∧ ∃ v, r.value = some v ∧ v * v = p := by
  refine Forge.known (φ := n.value = some p) (fun w hw => by rw [(h w hw).1 rfl, (h w hw).2]) fun hv => ?_
  obtain ⟨z, hz, hzz⟩ := LawfulField.sqrt_some p ⟨y, hy.symm⟩
  simp only [AllocatedNum.sqrt, hv, orMissing_some, ok_bind, hz, ok_toOption]
  refine Forge.seq (AllocatedNum.alloc_forge z y) fun r => ?_
  refine Forge.seq (Forge.multiply _ (y, y, p) hy) fun m => ?_
  refine Forge.seq (Forge.enforce fun w hw => ?_) fun _ => ?_
  · rw [LC.eval_subVar, LC.eval_ofVar, hw.2.1, hw.1.2.1, sub_self]
  refine Forge.seq (Forge.enforce fun w hw => ?_) fun _ => ?_
  · rw [LC.eval_subVar, LC.eval_ofVar, hw.1.2.2.1, hw.1.1.2.1, sub_self]
  refine Forge.seq (Forge.enforce fun w hw => ?_) fun _ => Forge.ret fun w hw => ?_
  · rw [LC.eval_subVar, LC.eval_ofVar, hw.1.1.2.2.2, (h w hw.1.1.1.1).2, sub_self]
  · obtain ⟨⟨⟨⟨⟨_, h1, h2⟩, _⟩, _⟩, _⟩, _⟩ := hw
    exact ⟨⟨by rw [h2]; rfl, h1⟩, z, h2, hzz⟩

theorem invert_forge {n : AllocatedNum F} {u : F} (hu : u ≠ 0)
    (h : ∀ w, Γ w → w one = 1 ∧ w n.var = u ∧ ∃ v, n.value = some v ∧ v ≠ 0) :
    Forge Γ (n.invert one) fun w r => NumF w r u⁻¹ := by
  refine Forge.known (φ := ∃ v, n.value = some v ∧ v ≠ 0) (fun w hw => (h w hw).2.2) ?_
  rintro ⟨v, hv, hv0⟩
  simp only [AllocatedNum.invert, hv, orMissing_some, ok_bind, LawfulField.invert_eq _ hv0, ok_toOption]
  refine Forge.seq (AllocatedNum.alloc_forge v⁻¹ u⁻¹) fun r => ?_
  refine Forge.seq (Forge.multiply _ (u⁻¹, u, 1) (inv_mul_cancel₀ hu)) fun m => ?_
  refine Forge.seq (Forge.enforce fun w hw => ?_) fun _ => ?_
  · rw [LC.eval_subVar, LC.eval_ofVar, hw.2.1, hw.1.2.1, sub_self]
  refine Forge.seq (Forge.enforce fun w hw => ?_) fun _ => ?_
  · rw [LC.eval_subVar, LC.eval_ofVar, hw.1.2.2.1, (h w hw.1.1.1).2.1, sub_self]
  refine Forge.seq (Forge.enforce fun w hw => ?_) fun _ => Forge.ret fun w hw => ?_
  · rw [LC.eval_subVar, LC.eval_ofVar, hw.1.1.2.2.2, (h w hw.1.1.1.1).1, sub_self]
  · obtain ⟨⟨⟨⟨⟨_, h1, h2⟩, _⟩, _⟩, _⟩, _⟩ := hw
    exact ⟨by rw [h2]; rfl, h1⟩

theorem rootsOf_forge {ns : List (AllocatedNum F)} {packed us : List F} (hr : AnyRoots packed us)
    (h : ∀ w, Γ w → w one = 1 ∧
      List.Forall₂ (fun n (p : F) => NumIs true w n (Util.getChallengeScalar p)) ns packed) :
    Forge Γ (rootsOf one ns) fun w r => List.Forall₂ (NumF w) r.1 us ∧
      List.Forall₂ (NumF w) r.2 (us.map (·⁻¹)) := by
  have step1 : ∀ (ns : List (AllocatedNum F)) (Γ : (Var → F) → Prop), (∀ w, Γ w →
      List.Forall₂ (fun n (p : F) => NumIs true w n (Util.getChallengeScalar p)) ns packed) →
      Forge Γ (mapProg (fun c => AllocatedNum.sqrt c) ns) fun w rs =>
        List.Forall₂ (fun r u => NumF w r u ∧ ∃ v, r.value = some v ∧ v ≠ 0) rs us := by
    clear h
    induction hr with
    | nil =>
      intro ns Γ h
      refine Forge.known (φ := ns = []) (fun w hw => List.forall₂_nil_right_iff.1 (h w hw)) ?_
      rintro rfl
      exact Forge.ret fun w hw => .nil
    | @cons p u ps us hu _ ih =>
      intro ns Γ h
      cases ns with
      | nil => exact Forge.honest fun w hw => nomatch h w hw
      | cons n ns =>
        have h' : ∀ w, Γ w → NumIs true w n (Util.getChallengeScalar p) ∧
          List.Forall₂ (fun n (p : F) => NumIs true w n (Util.getChallengeScalar p)) ns ps := fun w hw => by
          cases h w hw with
          | cons a b => exact ⟨a, b⟩
        refine Forge.seq (sqrt_forge hu fun w hw => (h' w hw).1) fun r => ?_
        refine Forge.seq (ih ns _ fun w hw => (h' w hw.1).2) fun rs => Forge.ret fun w hw => ?_
        obtain ⟨⟨hw1, hw2, v, hv, hvv⟩, hw3⟩ := hw
        refine .cons ⟨hw2, v, hv, ?_⟩ hw3
        rintro rfl
        rw [mul_zero] at hvv
        exact Circuit.CurvePoint.expandChallenge_ne_zero _ hvv.symm
  have hne := hr.ne
  refine Forge.seq (step1 ns Γ fun w hw => (h w hw).2) fun rs => ?_
  have step2 : ∀ (us : List F), (∀ u ∈ us, u ≠ 0) → ∀ (rs : List (AllocatedNum F)) (Γ : (Var → F) → Prop),
      (∀ w, Γ w → w one = 1 ∧ List.Forall₂ (fun r u => NumF w r u ∧ ∃ v, r.value = some v ∧ v ≠ 0) rs us) →
      Forge Γ (mapProg (fun c => AllocatedNum.invert one c) rs) fun w is =>
        List.Forall₂ (NumF w) is (us.map (·⁻¹)) := by
    clear * -
    intro us
    induction us with
    | nil =>
      intro _ rs Γ h
      refine Forge.known (φ := rs = []) (fun w hw => List.forall₂_nil_right_iff.1 (h w hw).2) ?_
      rintro rfl
      exact Forge.ret fun w hw => .nil
    | cons u us ih =>
      intro hne rs Γ h
      cases rs with
      | nil => exact Forge.honest fun w hw => nomatch (h w hw).2
      | cons r rs =>
        have h' : ∀ w, Γ w → w one = 1 ∧ (NumF w r u ∧ ∃ v, r.value = some v ∧ v ≠ 0) ∧
            List.Forall₂ (fun r u => NumF w r u ∧ ∃ v, r.value = some v ∧ v ≠ 0) rs us := fun w hw => by
          refine ⟨(h w hw).1, ?_⟩
          cases (h w hw).2 with
          | cons a b => exact ⟨a, b⟩
        refine Forge.seq (invert_forge (hne u (by simp)) fun w hw =>
          ⟨(h' w hw).1, (h' w hw).2.1.1.2, (h' w hw).2.1.2⟩) fun i => ?_
        refine Forge.seq (ih (fun v hv => hne v (by simp [hv])) rs _ fun w hw => ⟨(h' w hw.1).1, (h' w hw.1).2.2⟩)
          fun is => Forge.ret fun w hw => .cons hw.1.2 hw.2
  refine Forge.seq (step2 us hne rs _ fun w hw => ⟨(h w hw.1).1, hw.2⟩) fun is => Forge.ret fun w hw => ?_
  exact ⟨hw.1.2.imp fun _ _ h => h.1, hw.2⟩

theorem verifyDeferred_forge {k : ℕ} {bits : List AllocatedBit} {vs : List Bool}
    (h : ∀ w, Γ w → w one = 1 ∧ BitsOk true w bits vs) (hlen : vs.length = deferredSize k) (hk : 2 ≤ k)
    (hx0 : (deferredOf k vs : Deferred F).x ≠ 0) (hy0 : (deferredOf k vs : Deferred F).yCur ≠ 0)
    (hd : LooseDeferred k (deferredOf k vs : Deferred F)) :
    Forge Γ (verifyDeferred one k bits : Prog F Unit) fun _ _ => True := by
  refine Forge.seq (P := fun w n => NumsAre true w n (deferredOf k vs)) (Forge.honest fun w hw => ?_) fun n => ?_
  · exact Holds.mono (hon := true) (unpackDeferred_holds (h w hw).1 (h w hw).2 fun _ => hlen) fun _ h => h.2
  have hlo : (deferredOf k vs : Deferred F).challengesSqPackedOld.length = k := by simp [deferredOf]
  have hln : (deferredOf k vs : Deferred F).challengesSqPackedNew.length = k := by simp [deferredOf]
  revert hx0 hy0 hd hlo hln
  generalize (deferredOf k vs : Deferred F) = d
  intro hx0 hy0 hd hlo hln
  obtain ⟨hrel, ⟨uo, hro, eo⟩, un, hrn, e1, e2, e3, e4, e5⟩ := hd
  have huo : uo ≠ [] := by
    rintro rfl
    have := List.Forall₂.length_eq hro
    rw [List.length_nil] at this
    omega
  have hun : un ≠ [] := by
    rintro rfl
    have := List.Forall₂.length_eq hrn
    rw [List.length_nil] at this
    omega
  refine Forge.seq (P := fun w r => NumIs true w r.2.2 (d.x * d.yCur) ∧ ((r.1.lc one).subLC (r.2.1.lc one)).eval w = 0)
    (Forge.honest fun w hw => ?_) fun r => ?_
  · refine Holds.mono (hon := true) (deferredSides_holds (h w hw.1).1 hw.2 fun _ => ⟨hx0, hy0, hk⟩) fun r hr => ?_
    obtain ⟨-, -, -, a1, l, r, a2, a3, a4⟩ := hr
    refine ⟨a1, ?_⟩
    rw [LC.eval_subLC, Combination.eval_lc (h w hw.1).1, Combination.eval_lc (h w hw.1).1, a2.2, a3.2, sub_eq_zero, a4]
    exact hrel
  refine Forge.seq (Forge.enforce fun w hw => hw.2.2) fun _ => ?_
  refine Forge.anti (Γ := fun w => w one = 1 ∧ NumsAre true w n d ∧ NumIs true w r.2.2 (d.x * d.yCur))
    (fun w hw => ⟨(h w hw.1.1.1).1, hw.1.1.2, hw.1.2.1⟩) ?_
  clear h
  refine Forge.seq (rootsOf_forge hro fun w hw => ⟨hw.1, hw.2.1.challengesSqOld⟩) fun ro => ?_
  refine Forge.seq (computeB_forge huo fun w hw => ⟨hw.1.1, hw.1.2.1.x.toF, hw.2.1, hw.2.2⟩) fun gx => ?_
  refine Forge.seq (enforceIs_forge fun w hw => ⟨hw.1.1.1, hw.2, hw.1.1.2.1.gxOldOpening.2.trans eo⟩) fun _ => ?_
  refine Forge.anti (Γ := fun w => w one = 1 ∧ NumsAre true w n d ∧ NumIs true w r.2.2 (d.x * d.yCur))
    (fun w hw => hw.1.1.1) ?_
  refine Forge.seq (rootsOf_forge hrn fun w hw => ⟨hw.1, hw.2.1.challengesSqNew⟩) fun rn => ?_
  refine Forge.seq (computeB_forge hun fun w hw => ⟨hw.1.1, hw.1.2.1.x.toF, hw.2.1, hw.2.2⟩) fun b1 => ?_
  refine Forge.seq (computeB_forge hun fun w hw => ⟨hw.1.1.1, hw.1.1.2.2.toF, hw.1.2.1, hw.1.2.2⟩) fun b2 => ?_
  refine Forge.seq (computeB_forge hun fun w hw => ⟨hw.1.1.1.1, hw.1.1.1.2.1.yOld.toF, hw.1.1.2.1, hw.1.1.2.2⟩)
    fun b3 => ?_
  refine Forge.seq (computeB_forge hun fun w hw => ⟨hw.1.1.1.1.1, hw.1.1.1.1.2.1.yCur.toF, hw.1.1.1.2.1,
    hw.1.1.1.2.2⟩) fun b4 => ?_
  refine Forge.seq (computeB_forge hun fun w hw => ⟨hw.1.1.1.1.1.1, hw.1.1.1.1.1.2.1.yNew.toF, hw.1.1.1.1.2.1,
    hw.1.1.1.1.2.2⟩) fun b5 => ?_
  refine Forge.anti (Γ := fun w => w one = 1 ∧ NumsAre true w n d ∧ CombF w b1 d.bX ∧ CombF w b2 d.bXy ∧
    CombF w b3 d.bYOld ∧ CombF w b4 d.bYCur ∧ CombF w b5 d.bYNew) (fun w hw => ?_) ?_
  · obtain ⟨⟨⟨⟨⟨⟨a1, -⟩, f1⟩, f2⟩, f3⟩, f4⟩, f5⟩ := hw
    rw [← e1] at f1
    rw [← e2] at f2
    rw [← e3] at f3
    rw [← e4] at f4
    rw [← e5] at f5
    exact ⟨a1.1, a1.2.1, f1, f2, f3, f4, f5⟩
  refine Forge.seq (enforceIs_forge fun w hw => ⟨hw.1, hw.2.2.1, hw.2.1.bX.2⟩) fun _ => ?_
  refine Forge.seq (enforceIs_forge fun w hw => ⟨hw.1.1, hw.1.2.2.2.1, hw.1.2.1.bXy.2⟩) fun _ => ?_
  refine Forge.seq (enforceIs_forge fun w hw => ⟨hw.1.1.1, hw.1.1.2.2.2.2.1, hw.1.1.2.1.bYOld.2⟩) fun _ => ?_
  refine Forge.seq (enforceIs_forge fun w hw => ⟨hw.1.1.1.1, hw.1.1.1.2.2.2.2.2.1, hw.1.1.1.2.1.bYCur.2⟩) fun _ => ?_
  exact enforceIs_forge fun w hw => ⟨hw.1.1.1.1.1, hw.1.1.1.1.2.2.2.2.2.2, hw.1.1.1.1.2.1.bYNew.2⟩

end Recursion
end Halo
