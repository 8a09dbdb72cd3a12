import Verif.Lemmas.CurveBytes
/-!
# Properties of the two curves (C11–C17)

`HaloCurve E F S` (in `Verif.Lemmas.CurveEndo`) holds exactly of the two curves of the code with
their fields, `(ec0, Fq, Fp)` and `(ec1, Fp, Fq)`; both instances are given there for the limb-level
fields.  `Denotes b P A` (in `Verif.Spec.Curve`) says that the projective triple `P` represents the
element `A` of Mathlib's group of points of `y² = x³ + b`.
-/
namespace Halo
open WeierstrassCurve.Affine LawfulField
variable {E : CurveConsts} {F : Type} [Field F] [DecidableEq F] [LawfulField F]
  {S : Type} [Field S] [LawfulField S]

/-- The curves of the code are instances, at limb level. -/
example : HaloCurve ec0 Fq Fp ∧ HaloCurve ec1 Fp Fq := ⟨inferInstance, inferInstance⟩

omit [DecidableEq F] in
/-- The generator `one()` is a valid point different from the identity: hypotheses of the form
`Denotes _ P A` below have non-trivial instances. -/
theorem one_denotes [h : HaloCurve E F S] :
    ∃ A : Pt (E.b : F), Denotes (E.b : F) (Proj.one E) A ∧ A ≠ 0 :=
  ⟨h.is.gen rfl, h.is.denotes_one rfl, Point.some_ne_zero (h.is.gen_nonsing rfl)⟩

omit [DecidableEq F] [LawfulField F] in
/-- Every group element is represented by a triple, a triple represents at most one element. -/
theorem denotes_functional_surjective (b : F) :
    (∀ A : Pt b, ∃ P, Denotes b P A) ∧
    (∀ (P : Proj F) (A B : Pt b), Denotes b P A → Denotes b P B → A = B) :=
  ⟨fun A => exists_denotes A, fun _ _ _ => denotes_unique⟩

/-- **C11.** Addition, subtraction, negation and doubling implement the group law, for all valid
points including the identity, equal points and opposite points. -/
theorem C11_group_law (S : Type) [Field S] [LawfulField S] [HaloCurve E F S]
    {P R : Proj F} {A B : Pt (E.b : F)}
    (hP : Denotes (E.b : F) P A) (hR : Denotes (E.b : F) R B) :
    Denotes (E.b : F) (Proj.add E P R) (A + B) ∧ Denotes (E.b : F) (Proj.sub E P R) (A - B) ∧
    Denotes (E.b : F) (Proj.neg P) (-A) ∧ Denotes (E.b : F) (Proj.double E P) (A + A) ∧
    Denotes (E.b : F) (Proj.zero : Proj F) 0 :=
  have g := HaloCurve.good E F S
  ⟨denotes_add g hP hR, denotes_sub g hP hR, denotes_neg hP, denotes_double g hP,
    denotes_proj_zero⟩

/-- C11 applies to `G + G`, `G + (-G)` and `0 + G`: the three cases for which affine formulas fail -/
example : ∃ A : Pt ((ec0.b : ℕ) : Fq), A ≠ 0 ∧
    Denotes _ (Proj.add ec0 (Proj.one ec0) (Proj.one ec0)) (A + A) ∧
    Denotes _ (Proj.add ec0 (Proj.one ec0) (Proj.neg (Proj.one ec0))) (A + -A) ∧
    Denotes _ (Proj.add ec0 Proj.zero (Proj.one ec0)) (0 + A) := by
  obtain ⟨A, h, h0⟩ := one_denotes (E := ec0) (F := Fq) (S := Fp)
  exact ⟨A, h0, (C11_group_law Fp h h).1, (C11_group_law Fp h (denotes_neg h)).1,
    (C11_group_law Fp denotes_proj_zero h).1⟩

/-- **C12.** Scalar multiplication is repeated addition of the canonical integer of the scalar, and
it is compatible with the operations on points and on scalars. -/
theorem C12_scalar_mul [HaloCurve E F S] {P R : Proj F} {A B : Pt (E.b : F)}
    (hP : Denotes (E.b : F) P A) (hR : Denotes (E.b : F) R B) (s t : S) :
    Denotes (E.b : F) (Proj.mul E P s) (val s • A) ∧
    Denotes (E.b : F) (Proj.mul E (Proj.add E P R) s) (val s • A + val s • B) ∧
    Denotes (E.b : F) (Proj.mul E P (s + t)) (val s • A + val t • A) ∧
    Denotes (E.b : F) (Proj.mul E P (s * t)) (val s • val t • A) ∧
    Denotes (E.b : F) (Proj.mul E P (1 : S)) A ∧ Denotes (E.b : F) (Proj.mul E P (0 : S)) 0 := by
  have g := HaloCurve.good E F S
  refine ⟨denotes_mul g hP s, ?_, ?_, ?_, ?_, ?_⟩
  · rw [← nsmul_add]; exact denotes_mul g (denotes_add g hP hR) s
  · rw [← HaloCurve.smul_add_scalar]; exact denotes_mul g hP _
  · rw [← HaloCurve.smul_mul_scalar]; exact denotes_mul g hP _
  · have := denotes_mul g hP (1 : S); rwa [HaloCurve.smul_one_scalar] at this
  · have := denotes_mul g hP (0 : S); rwa [LawfulField.val_zero, zero_nsmul] at this

/-- C12 applies to the generator of `Ec1` and the scalar `-1` -/
example : ∃ A : Pt ((ec1.b : ℕ) : Fp), A ≠ 0 ∧
    Denotes _ (Proj.mul ec1 (Proj.one ec1) (-1 : Fq)) (val (-1 : Fq) • A) := by
  obtain ⟨A, h, h0⟩ := one_denotes (E := ec1) (F := Fp) (S := Fq)
  exact ⟨A, h0, (C12_scalar_mul h h (-1 : Fq) 0).1⟩

/-- **C13.** The number of points is the prime modulus of the scalar field; every point is killed by
it, every non-identity point has exactly this order and generates the group, and scalars act
faithfully on every non-identity point. -/
theorem C13_prime_order [h : HaloCurve E F S] :
    Nat.card (Pt (E.b : F)) = modulus S ∧ (modulus S).Prime ∧
    (∀ A : Pt (E.b : F), modulus S • A = 0) ∧
    (∀ A : Pt (E.b : F), A ≠ 0 → addOrderOf A = modulus S) ∧
    (∀ A : Pt (E.b : F), A ≠ 0 → ∀ B, ∃! s : S, val s • A = B) := by
  refine ⟨h.is.card rfl, h.is.prime_n, fun A => h.is.nsmul_order rfl A,
    fun A hA => h.is.addOrderOf_eq rfl hA, fun A hA B => ?_⟩
  obtain ⟨k, hk, hB⟩ := h.is.generates rfl hA B
  refine ⟨(k : S), ?_, fun s hs => ?_⟩
  · simp only [LawfulField.val_of_lt hk, hB]
  · have ho := h.is.addOrderOf_eq rfl hA
    simp only at hs
    rw [← hB, nsmul_inj_mod, ho, Nat.mod_eq_of_lt (val_lt s), Nat.mod_eq_of_lt hk] at hs
    rw [← hs, val_cast]

/-- C13 for the two curves with their literal orders: a cycle -/
theorem C13_cycle :
    Nat.card (Pt ((5 : ℕ) : Fq)) = P ∧ Nat.card (Pt ((7 : ℕ) : Fp)) = Q ∧
    Nat.card Fp = P ∧ Nat.card Fq = Q := by
  refine ⟨?_, ?_, ?_, ?_⟩
  · rw [← fp_m]; exact (C13_prime_order (E := ec0) (F := Fq) (S := Fp)).1
  · rw [← fq_m]; exact (C13_prime_order (E := ec1) (F := Fp) (S := Fq)).1
  · rw [← fp_m]; exact LawfulField.card_eq
  · rw [← fq_m]; exact LawfulField.card_eq

/-- **C14.** Multiplying the affine `x` coordinate by the base field's `BETA` is multiplication by
the scalar field's `BETA`. -/
theorem C14_endomorphism [HaloCurve E F S] {P : Proj F} {A : Pt (E.b : F)}
    (hP : Denotes (E.b : F) P A) :
    Denotes (E.b : F) ⟨FieldApi.beta * P.x, P.y, P.z⟩ (val (FieldApi.beta : S) • A) ∧
    ∀ x y, Proj.getXy P = some (x, y) →
      Proj.getXy (Proj.mul E P (FieldApi.beta : S)) = some (FieldApi.beta * x, y) := by
  have g := HaloCurve.good E F S
  have h1 := endo_denotes HaloCurve.beta_cube g.no_two_torsion g.two_ne hP
  have h2 : Denotes (E.b : F) (endoP FieldApi.beta P) (val (FieldApi.beta : S) • A) := by
    rw [← HaloCurve.endo_eq (S := S) g]; exact h1
  refine ⟨h2, fun x y hxy => ?_⟩
  rw [getXy_spec (denotes_mul g hP (FieldApi.beta : S)), ← HaloCurve.endo_eq (S := S) g]
  rw [getXy_spec hP] at hxy
  cases A with
  | zero => simp [affine] at hxy
  | some x' y' n =>
    simp only [affine, Option.some.injEq, Prod.mk.injEq] at hxy
    obtain ⟨rfl, rfl⟩ := hxy
    rfl

/-- C14 applies to the generators, whose coordinates are `(1, gy)` -/
example : Proj.getXy (Proj.mul ec0 (Proj.one ec0 : Proj Fq) (FieldApi.beta : Fp)) =
    some (FieldApi.beta * 1, ((ec0.gy : ℕ) : Fq)) := by
  obtain ⟨A, h, h0⟩ := one_denotes (E := ec0) (F := Fq) (S := Fp)
  refine (C14_endomorphism (S := Fp) h).2 1 _ ?_
  simp [Proj.getXy, Proj.one, LawfulField.invert_eq]

/-- **C15.** `to_bytes` never panics on a valid point and returns the 32-byte little-endian string of
`encNat`; `from_bytes` inverts it; every accepted string is the encoding of the point returned, and
a string is rejected only when it encodes no point. -/
theorem C15_point_encoding (S : Type) [Field S] [LawfulField S] [HaloCurve E F S] :
    (∀ (P : Proj F) (A : Pt (E.b : F)), Denotes (E.b : F) P A →
      ∃ bs, Proj.toBytes P = some bs ∧ leNat bs.toList = encNat A ∧
        ∃ P', Proj.fromBytes E bs = some P' ∧ Denotes (E.b : F) P' A) ∧
    (∀ bs (P : Proj F), Proj.fromBytes E bs = some P →
      ∃ A, Denotes (E.b : F) P A ∧ Proj.toBytes P = some bs) ∧
    (∀ bs, Proj.fromBytes (F := F) E bs = none →
      ¬ ∃ (P : Proj F) (A : Pt (E.b : F)), Denotes (E.b : F) P A ∧ Proj.toBytes P = some bs) := by
  have g := HaloCurve.good E F S
  have hinj : ∀ {A B : Pt (E.b : F)}, encNat A = encNat B → A = B :=
    encNat_inj g.no_two_torsion ((HaloCurve.is (E := E) (F := F) (S := S)).b_nonsquare rfl)
  refine ⟨fun P A h => ?_, fun bs P h => ?_, fun bs h => ?_⟩
  · obtain ⟨bs, h1, h2⟩ := toBytes_spec h
    refine ⟨bs, h1, h2, ?_⟩
    obtain ⟨P', hP'⟩ := Option.ne_none_iff_exists'.1 (fromBytes_complete h2.symm)
    obtain ⟨A', h3, h4⟩ := fromBytes_sound g hP'
    rw [h2] at h4
    rw [← hinj h4]
    exact ⟨P', hP', h3⟩
  · obtain ⟨A, h1, h2⟩ := fromBytes_sound g h
    obtain ⟨bs', h3, h4⟩ := toBytes_spec h1
    refine ⟨A, h1, ?_⟩
    rw [h3]
    congr 1
    apply Vector.toList_inj.1
    exact Fe.leNat_inj (by simp) (by rw [h4, h2])
  · rintro ⟨P, A, h1, h2⟩
    obtain ⟨bs', h3, h4⟩ := toBytes_spec h1
    rw [h2] at h3
    obtain rfl := Option.some.inj h3
    exact fromBytes_complete h4.symm h

/-- Distinct accepted strings decode to distinct points. -/
theorem C15_decoding_injective (S : Type) [Field S] [LawfulField S] [HaloCurve E F S]
    {bs bs' : Vector (BitVec 8) 32} {P P' : Proj F} {A : Pt (E.b : F)}
    (h : Proj.fromBytes E bs = some P) (h' : Proj.fromBytes E bs' = some P')
    (hA : Denotes (E.b : F) P A) (hA' : Denotes (E.b : F) P' A) : bs = bs' := by
  obtain ⟨-, h2, -⟩ := C15_point_encoding (E := E) (F := F) S
  obtain ⟨B, hB, e⟩ := h2 _ _ h
  obtain ⟨B', hB', e'⟩ := h2 _ _ h'
  obtain ⟨c, hc, k⟩ := toBytes_spec hA
  obtain ⟨c', hc', k'⟩ := toBytes_spec hA'
  rw [e] at hc; rw [e'] at hc'
  obtain rfl := Option.some.inj hc
  obtain rfl := Option.some.inj hc'
  exact Vector.toList_inj.1 (Fe.leNat_inj (by simp) (by rw [k, k']))

/-- C15 applies to the identity and the generator, which have different encodings -/
example : ∃ bs bs' : Vector (BitVec 8) 32, Proj.toBytes (Proj.one ec0 : Proj Fq) = some bs ∧
    Proj.toBytes (Proj.zero : Proj Fq) = some bs' ∧ leNat bs'.toList = 0 ∧
    leNat bs.toList ≠ 0 := by
  have hone := IsHaloCurve.denotes_one (F := Fq) (HaloCurve.is (E := ec0) (F := Fq) (S := Fp)) rfl
  obtain ⟨bs, h1, h2⟩ := toBytes_spec (E := ec0) hone
  obtain ⟨bs', h1', h2'⟩ := toBytes_spec (E := ec0) (F := Fq) denotes_proj_zero
  refine ⟨bs, bs', h1, h1', h2', ?_⟩
  rw [h2]
  intro h0
  have h0' : val (1 : Fq) + 2 ^ 255 * (val ((ec0.gy : ℕ) : Fq) % 2) = 0 := h0
  have : val (1 : Fq) = 1 := by
    rw [← Nat.cast_one, LawfulField.val_of_lt (LawfulField.prime (F := Fq)).one_lt]
  omega

/-- **C16.** `get_xy` returns the affine coordinates (`None` exactly for the identity); `is_on_curve`
and `from_xy` never panic; `from_xy` accepts exactly the points of the curve and `(0,0)`, which
gives the identity; and the two are inverse on affine points. -/
theorem C16_affine (S : Type) [Field S] [LawfulField S] [HaloCurve E F S] :
    (∀ (P : Proj F) (A : Pt (E.b : F)), Denotes (E.b : F) P A → Proj.getXy P = affine A ∧
      (Proj.getXy P = none ↔ A = 0) ∧ Proj.isOnCurve E P = some true) ∧
    (∀ x y : F, y ^ 2 = x ^ 3 + (E.b : F) → ∃ (P : Proj F) (A : Pt (E.b : F)),
      Proj.fromXy E x y = some (some P) ∧ Denotes (E.b : F) P A ∧ affine A = some (x, y) ∧
      Proj.getXy P = some (x, y) ∧ Proj.fromXyUnchecked x y = P) ∧
    (Proj.fromXy E (0 : F) 0 = some (some Proj.zero)) ∧
    (∀ x y : F, y ^ 2 ≠ x ^ 3 + (E.b : F) → ¬ (x = 0 ∧ y = 0) →
      Proj.fromXy E x y = some none) := by
  have g := HaloCurve.good E F S
  refine ⟨fun P A h => ⟨getXy_spec h, ?_, ?_⟩, fun x y h => ?_, ?_, fun x y h h0 => ?_⟩
  · rw [getXy_spec h]
    cases A with
    | zero => exact ⟨fun _ => rfl, fun _ => rfl⟩
    | some x y n => simp [affine, Point.some_ne_zero]
  · have hxy := getXy_spec h
    cases h with
    | zero hy => simp [Proj.isOnCurve, Proj.isZero]
    | @some x y z hz n =>
      have hz' : Proj.isZero (⟨x * z, y * z, z⟩ : Proj F) = false := by simp [Proj.isZero, hz]
      simp only [Proj.isOnCurve, hz', hxy, affine, Option.map_some]
      have := equation_short.1 n.1
      simp only [Bool.false_eq_true, if_false, Option.some.injEq, beq_iff_eq]
      linear_combination -this
  · have n := nonsingular_short g.no_two_torsion g.two_ne h
    have hd : Denotes (E.b : F) ⟨x, y, 1⟩ (Point.some x y n) :=
      denotes_some n (by simp) (by simp) (by simp)
    refine ⟨⟨x, y, 1⟩, _, ?_, hd, rfl, getXy_spec hd, rfl⟩
    simp only [Proj.fromXy, isOnCurve_some, h, decide_true, Option.map_some, if_true]
  · have hb := g.no_two_torsion 0
    have : ¬ ((0 : F) ^ 2 = 0 ^ 3 + (E.b : F)) := fun hh => hb (by rw [← hh]; ring)
    simp only [Proj.fromXy, isOnCurve_some, this, decide_false, Option.map_some]
    simp
  · simp only [Proj.fromXy, isOnCurve_some, h, decide_false, Option.map_some]
    have : ((x == 0) && (y == 0)) = false := by
      by_cases hx : x = 0
      · have hy : y ≠ 0 := fun hy => h0 ⟨hx, hy⟩
        simp [hy]
      · simp [hx]
    simp [this]

/-- C16: the generator's coordinates are accepted, `(0, 1)` is rejected (on `Ec0`, `1 ≠ 5`) -/
example : ((ec0.gy : ℕ) : Fq) ^ 2 = 1 ^ 3 + ((ec0.b : ℕ) : Fq) ∧
    Proj.fromXy ec0 (0 : Fq) 1 = some none := by
  have his := HaloCurve.is (E := ec0) (F := Fq) (S := Fp)
  refine ⟨equation_short.1 (his.gen_nonsing (F := Fq) rfl).1, ?_⟩
  refine (C16_affine (E := ec0) (F := Fq) Fp).2.2.2 0 1 ?_ (by simp)
  intro h
  exact his.b_nonsquare (F := Fq) rfl ⟨1, by linear_combination -h⟩

/-- **C17 is false of the code**: `ct_eq` tests `self.is_zero()` twice, so the identity compares
equal to the generator (and to every point), while the generator does not compare equal to the
identity.  The full statement would be `Proj.ctEq P R = true ↔ A = B`. -/
theorem C17_equality_is_wrong [HaloCurve E F S] :
    ¬ (∀ (P R : Proj F) (A B : Pt (E.b : F)), Denotes (E.b : F) P A → Denotes (E.b : F) R B →
        (Proj.ctEq P R = true ↔ A = B)) ∧
    Proj.ctEq (Proj.zero : Proj F) (Proj.one E) = true ∧
    Proj.ctEq (Proj.one E : Proj F) Proj.zero = false := by
  obtain ⟨A, h, h0⟩ := one_denotes (E := E) (F := F) (S := S)
  have h1 : Proj.ctEq (Proj.zero : Proj F) (Proj.one E) = true :=
    (ctEq_iff denotes_proj_zero h).2 (Or.inl rfl)
  refine ⟨fun hall => h0 ((hall _ _ _ _ denotes_proj_zero h).1 h1).symm, h1, ?_⟩
  have := (ctEq_iff h (denotes_proj_zero (b := (E.b : F)))).not
  simpa [h0] using this

omit [LawfulField F] in
/-- **C17, the part that holds**: comparison is exactly equality of group elements when the left
operand is not the identity; when it is, the answer is always `true`.  Missing: the identity on the
left. -/
theorem C17_equality_partial {b : F} {P R : Proj F} {A B : Pt b}
    (hP : Denotes b P A) (hR : Denotes b R B) :
    (A ≠ 0 → (Proj.ctEq P R = true ↔ A = B)) ∧ (A = 0 → Proj.ctEq P R = true) :=
  ⟨fun h => by rw [ctEq_iff hP hR]; simp [h], fun h => (ctEq_iff hP hR).2 (Or.inl h)⟩

/-- both cases of `C17_equality_partial` occur -/
example : ∃ A : Pt ((ec0.b : ℕ) : Fq), A ≠ 0 ∧ Denotes _ (Proj.one ec0) A ∧
    Denotes ((ec0.b : ℕ) : Fq) Proj.zero 0 := by
  obtain ⟨A, h, h0⟩ := one_denotes (E := ec0) (F := Fq) (S := Fp)
  exact ⟨A, h0, h, denotes_proj_zero⟩

end Halo
