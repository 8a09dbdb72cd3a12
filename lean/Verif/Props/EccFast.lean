import Verif.Lemmas.Gadget.EccFast
import Verif.Props.Ecc
/-!
# Fast multiplication of points in circuits (C58)
-/
namespace Halo
namespace Circuit
namespace CurvePoint
variable {F : Type} [Field F] [DecidableEq F] [LawfulField F] {E : CurveConsts}
  (S : Type) [Field S] [LawfulField S] {w : Var → F} {one : Var}

theorem ne_zero_of_regular {vs : List Bool} (h2 : 2 ≤ vs.length) (h : Regular (modulus S) vs) : (bitsValue vs : S) ≠ 0 := by
  have := LawfulField.charP (F := S)
  rw [Ne, CharP.cast_eq_zero_iff S (modulus S)]
  obtain _ | ⟨v, vs⟩ := vs
  · simp at h2
  obtain ⟨h1, -, h3⟩ := h 1 (by norm_num) (by omega)
  simp only [List.drop_succ_cons, List.drop_zero] at h1 h3
  rw [bitsValue]
  cases v
  · exact fun h => h1 ((modulus_odd S).coprime_two_right.dvd_of_dvd_mul_left (by simpa using h))
  · exact fun h => h3 (by simpa [add_comm] using h)

/-- **C58, the true part.** For every point, also the identity, and every list of at least two bits that ends in a set
bit and is regular for the order of the curve, the honest prover can multiply the point by the number with these bits
with `multiply_fast`, and divide it by this number with `multiply_inv_fast`.  What is missing: a single bit and lists
that are not regular, see below. -/
theorem C58_multiply_fast_partial [HaloCurve E F S] (h1 : w one = 1) {P : CurvePoint F} {A : Pt (E.b : F)}
    (hP : P.Honest w A) {bits : List AllocatedBit} {vs : List Bool}
    (hb : List.Forall₂ (fun b v => b.Honest w v) bits vs) (h2 : 2 ≤ vs.length)
    (htop : vs.getLast? = some true) (hr : Regular (modulus S) vs) :
    (Complete w (multiplyFast one P bits) fun R => R.Honest w (bitsValue vs • A)) ∧
    Complete w (multiplyInvFast E S one P bits) fun R => ∃ B : Pt (E.b : F),
      R.Honest w B ∧ bitsValue vs • B = A := by
  refine ⟨multiplyFast_complete S h1 hP hb h2 htop fun _ => hr, ?_⟩
  have hs := ne_zero_of_regular S h2 hr
  refine (multiplyInvFast_complete S h1 hP hb h2 htop hr hs).mono fun R hR => ⟨_, hR, ?_⟩
  rw [← HaloCurve.nsmul_mod (S := S), ← LawfulField.val_natCast, ← HaloCurve.smul_mul_scalar,
    mul_inv_cancel₀ hs, HaloCurve.smul_one_scalar]

/-- Lists of up to 254 bits are regular, lists of 255 bits are regular unless the number is the order of the curve or one
less. -/
theorem C58_regular {vs : List Bool} (htop : vs.getLast? = some true) :
    (vs.length ≤ 254 → Regular (modulus S) vs) ∧
    (vs.length = 255 → (Regular (modulus S) vs ↔ bitsValue vs ≠ modulus S - 1 ∧ bitsValue vs ≠ modulus S)) := by
  obtain ⟨hr1, hr2⟩ := LawfulField.modulus_bound (F := S)
  have hpos : ∀ i < vs.length, 0 < bitsValue (vs.drop i) := by
    intro i hi
    obtain ⟨l, rfl⟩ : ∃ l, vs = l ++ [true] := by
      rcases List.eq_nil_or_concat vs with rfl | ⟨l, a, rfl⟩
      · simp at hi
      · rw [List.concat_eq_append] at htop ⊢
        exact ⟨l, by simpa using htop⟩
    rw [List.drop_append_of_le_length (by simp at hi; omega), bitsValue_append]
    have : 0 < 2 ^ (l.drop i).length := by positivity
    simp [bitsValue]
  have hlt : ∀ i, bitsValue (vs.drop i) < 2 ^ (vs.length - i) := fun i => by
    have := bitsValue_lt (vs.drop i)
    rwa [List.length_drop] at this
  have hle : ∀ i n, vs.length - i ≤ n → bitsValue (vs.drop i) < 2 ^ n := fun i n h =>
    (hlt i).trans_le (Nat.pow_le_pow_right (by norm_num) h)
  have small : ∀ i < vs.length, vs.length - i ≤ 253 → ¬ modulus S ∣ bitsValue (vs.drop i) ∧
      ¬ modulus S ∣ bitsValue (vs.drop i) + 1 ∧ ¬ modulus S ∣ 2 * bitsValue (vs.drop i) + 1 := by
    intro i hi h
    have h1 := hpos i hi
    have h2 := hle i 253 h
    exact ⟨fun h => absurd (Nat.le_of_dvd h1 h) (by omega), fun h => absurd (Nat.le_of_dvd (by omega) h) (by omega),
      fun h => absurd (Nat.le_of_dvd (by omega) h) (by omega)⟩
  refine ⟨fun h i h0 hi => small i hi (by omega), fun h => ?_⟩
  obtain _ | ⟨v, vs⟩ := vs
  · simp at h
  have h1 := hpos 1 (by omega)
  have h2 := hle 1 254 (by omega)
  have e : bitsValue (v :: vs) = v.toNat + 2 * bitsValue ((v :: vs).drop 1) := rfl
  have hv : v.toNat ≤ 1 := Bool.toNat_le v
  have hodd := modulus_odd S
  constructor
  · intro hreg
    have h3 := (hreg 1 (by norm_num) (by omega)).2.2
    have : 2 * bitsValue ((v :: vs).drop 1) + 1 ≠ modulus S := fun e => h3 (e ▸ dvd_rfl)
    obtain ⟨k, hk⟩ := hodd
    constructor <;> omega
  · rintro ⟨n1, n2⟩ i h0 hi
    rcases Nat.lt_or_ge 1 i with h' | h'
    · exact small i hi (by omega)
    obtain rfl : i = 1 := by omega
    refine ⟨fun h => absurd (Nat.le_of_dvd h1 h) (by omega), fun h => ?_, fun h => ?_⟩
    · have := Nat.le_of_dvd (by omega) h
      omega
    · obtain ⟨c, hc⟩ := h
      have hc1 : c < 2 := by
        by_contra hn
        have : modulus S * 2 ≤ modulus S * c := Nat.mul_le_mul_left _ (by omega)
        omega
      have hc0 : c ≠ 0 := by rintro rfl; omega
      obtain rfl : c = 1 := by omega
      omega

omit [DecidableEq F] [LawfulField F] in
theorem bits_complete (vs : List Bool) (w : Var → F) : Complete w (mapProg (fun v => AllocatedBit.alloc (F := F) (.ok v)) vs)
    fun bits => List.Forall₂ (fun b v => b.Honest w v) bits vs :=
  Logic.mono (Logic.complete w) ((Logic.complete w).mapProg (f := fun b => AllocatedBit.alloc (.ok b))
    (P := fun (v : Bool) (b : AllocatedBit) => b.Honest w v) fun v _ => AllocatedBit.alloc_complete v) fun _ h => h.flip

/-- **C58, exactly.** For at least two bits that end in a set bit, the prover of a circuit with `multiply_fast` succeeds,
with the right result, if the point is the identity or the list is regular. In all other cases it fails. -/
theorem C58_multiply_fast_iff [HaloCurve E F S] {p : Proj F} {A : Pt (E.b : F)} (hp : Denotes (E.b : F) p A)
    {vs : List Bool} (h2 : 2 ≤ vs.length) (htop : vs.getLast? = some true) :
    (A = 0 ∨ Regular (modulus S) vs → Provable (fastCircuit E p vs) fun w R => R.Means w (bitsValue vs • A)) ∧
    (¬ (A = 0 ∨ Regular (modulus S) vs) → ¬ Provable (fastCircuit E p vs) fun _ _ => True) := by
  constructor
  · intro hr
    refine provable_of_complete fun w one h1 => ?_
    refine Complete.bind (witness_complete h1 hp) fun P hP => Complete.bind (bits_complete vs w) fun bits hb => ?_
    exact (multiplyFast_complete S h1 hP hb h2 htop fun h => hr.resolve_left h).mono fun R hR => hR.means
  · intro hr hprov
    rw [not_or] at hr
    refine hr.2 (must_of_provable hprov fun w one h1 => ?_)
    refine Must.bind (must_of_complete (witness_complete h1 hp)) fun P hP =>
      Must.bind (must_of_complete (bits_complete vs w)) fun bits hb => ?_
    exact multiplyFast_must S h1 hP hr.1 hb h2 htop

/-- **C58, exactly, for division**: for points other than the identity, the prover of a circuit with `multiply_inv_fast`
succeeds, with the right result, if the list is regular, and fails otherwise. -/
theorem C58_divide_fast_iff [HaloCurve E F S] {p : Proj F} {A : Pt (E.b : F)} (hp : Denotes (E.b : F) p A) (hA : A ≠ 0)
    {vs : List Bool} (h2 : 2 ≤ vs.length) (htop : vs.getLast? = some true) :
    (Regular (modulus S) vs → Provable (divideCircuit E S p vs) fun w R => ∃ B : Pt (E.b : F), R.Means w B ∧
      bitsValue vs • B = A) ∧
    (¬ Regular (modulus S) vs → ¬ Provable (divideCircuit E S p vs) fun _ _ => True) := by
  constructor
  · intro hr
    refine provable_of_complete fun w one h1 => ?_
    refine Complete.bind (witness_complete h1 hp) fun P hP => Complete.bind (bits_complete vs w) fun bits hb => ?_
    exact (C58_multiply_fast_partial S h1 hP hb h2 htop hr).2.mono fun R ⟨B, hR, hB⟩ => ⟨B, hR.means, hB⟩
  · intro hr hprov
    refine hr (must_of_provable hprov fun w one h1 => ?_)
    refine Must.bind (must_of_complete (witness_complete h1 hp)) fun P hP =>
      Must.bind (must_of_complete (bits_complete vs w)) fun bits hb => ?_
    exact multiplyInvFast_must S h1 hP hA hb h2 htop

/-- The bits of a number, from the lowest -/
def bits255 (n : ℕ) : List Bool := (List.range 255).map n.testBit

/-- **C58 is false of the code** for the scalar `-1`: no honest prover can multiply any point other than the identity by
the order of the curve minus one. -/
theorem C58_minus_one_false [HaloCurve E F S] {p : Proj F} {A : Pt (E.b : F)} (hp : Denotes (E.b : F) p A) (hA : A ≠ 0) :
    bitsValue (bits255 (modulus S - 1)) = modulus S - 1 ∧ (bits255 (modulus S - 1)).getLast? = some true ∧
    ¬ Provable (fastCircuit E p (bits255 (modulus S - 1))) (fun _ _ => True) ∧
    ¬ Provable (divideCircuit E S p (bits255 (modulus S - 1))) fun _ _ => True := by
  obtain ⟨hr1, hr2⟩ := LawfulField.modulus_bound (F := S)
  have hv : bitsValue (bits255 (modulus S - 1)) = modulus S - 1 := by
    rw [bits255, bitsValue_range, Nat.mod_eq_of_lt (by omega)]
  have ht : (bits255 (modulus S - 1)).getLast? = some true := by
    rw [bits255, List.range_succ, List.map_append, List.getLast?_append]
    have : (modulus S - 1).testBit 254 = true := by
      rw [Nat.testBit_eq_decide_div_mod_eq, Nat.div_eq_of_lt_le (k := 1) (by omega) (by omega)]
      rfl
    simp [this]
  have hr : ¬ Regular (modulus S) (bits255 (modulus S - 1)) :=
    fun h => (((C58_regular S ht).2 (by simp [bits255])).1 h).1 hv
  exact ⟨hv, ht, (C58_multiply_fast_iff S hp (by simp [bits255]) ht).2 (not_or.2 ⟨hA, hr⟩),
    (C58_divide_fast_iff S hp hA (by simp [bits255]) ht).2 hr⟩

/-- for the generator of the first curve: times 11, a seventh, and times minus one -/
example : ∃ A : Pt ((ec0.b : ℕ) : Fq), A ≠ 0 ∧ Denotes _ (Proj.one ec0) A ∧
    (Provable (fastCircuit ec0 (Proj.one ec0 : Proj Fq) [true, true, false, true]) fun w R => R.Means w (11 • A)) ∧
    (Provable (divideCircuit ec0 Fp (Proj.one ec0 : Proj Fq) [true, true, true]) fun w R =>
      ∃ B : Pt ((ec0.b : ℕ) : Fq), R.Means w B ∧ 7 • B = A) ∧
    ¬ Provable (fastCircuit ec0 (Proj.one ec0 : Proj Fq) (bits255 (modulus Fp - 1))) fun _ _ => True := by
  obtain ⟨A, hA, h0⟩ := one_denotes (E := ec0) (F := Fq) (S := Fp)
  exact ⟨A, h0, hA, (C58_multiply_fast_iff Fp hA (by simp) rfl).1 (.inr ((C58_regular Fp rfl).1 (by simp))),
    (C58_divide_fast_iff Fp hA h0 (by simp) rfl).1 ((C58_regular Fp rfl).1 (by simp)), (C58_minus_one_false Fp hA h0).2.2.1⟩

/-- **C58 is false of the code** for a list of one bit: for every point other than the identity,
multiplication by one gives three times the point. -/
theorem C58_multiply_fast_false [HaloCurve E F S] (h1 : w one = 1) {P : CurvePoint F} {A : Pt (E.b : F)}
    (hP : P.Honest w A) (hA : A ≠ 0) {b : AllocatedBit} (hb : b.Honest w true) :
    (Complete w (multiplyFast one P [b]) fun R => R.Honest w (3 • A)) ∧ 3 • A ≠ bitsValue [true] • A := by
  have key := fun m h => nsmul_ne_zero_of_lt S hA (m := m) h
  have e2 : A + A = 2 • A := (two_nsmul A).symm
  have e3 : A + A + A = 3 • A := by rw [e2, ← succ_nsmul]
  have e4 : A + A + A + A = 4 • A := by rw [e3, ← succ_nsmul]
  refine ⟨?_, fun h => key 2 (by norm_num) (by norm_num) ?_⟩
  · rw [← e3]
    exact multiplyFast_single (HaloCurve.good E F S) h1 hP hA (e2 ▸ key 2 (by norm_num) (by norm_num))
      (e3 ▸ key 3 (by norm_num) (by norm_num)) (e4 ▸ key 4 (by norm_num) (by norm_num)) hb
  · rw [← e3, e2] at h
    simpa [bitsValue] using h

/-- thirteen times a point, and its thirteenth part; and one times a point -/
example : ∃ (w : Var → Fp) (P : CurvePoint Fp) (A : Pt ((ec1.b : ℕ) : Fp)) (bits : List AllocatedBit),
    w (.A 1) = 1 ∧ P.Honest w A ∧ A ≠ 0 ∧
    List.Forall₂ (fun b v => b.Honest w v) bits [true, false, true, true] ∧
    (Complete w (multiplyFast (.A 1) P bits) fun R => R.Honest w (13 • A)) ∧
    Complete w (multiplyFast (.A 1) P [AllocatedBit.one (.A 1)]) fun R => R.Honest w (3 • A) := by
  let w : Var → Fp := fun v => if v = .A 2 then 0 else 1
  obtain ⟨P, -, A, -, h, -, hA, -⟩ := points_example (E := ec1) Fq w
  have h1 : w (.A 1) = 1 := by simp [w]
  have ht : (AllocatedBit.one (.A 1)).Honest w true := ⟨by simp [AllocatedBit.one, AllocatedBit.Means, h1], rfl⟩
  have hf : AllocatedBit.Honest w ⟨some false, .A 2⟩ false := ⟨by simp [AllocatedBit.Means, w], rfl⟩
  have hb : List.Forall₂ (fun b v => AllocatedBit.Honest w b v)
      [AllocatedBit.one (.A 1), ⟨some false, .A 2⟩, AllocatedBit.one (.A 1), AllocatedBit.one (.A 1)]
      [true, false, true, true] := .cons ht (.cons hf (.cons ht (.cons ht .nil)))
  exact ⟨w, P, A, _, h1, h, hA, hb,
    (C58_multiply_fast_partial Fq h1 h hb (by simp) rfl ((C58_regular Fq rfl).1 (by simp))).1,
    (C58_multiply_fast_false Fq h1 h hA ht).1⟩

end CurvePoint
end Circuit
end Halo
