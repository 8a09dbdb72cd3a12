import Verif.Lemmas.FieldConsts
/-!
# Properties of the two fields (C01–C10)

Every statement is about the limb code of `Verif.Model.Limbs` run with the
constants of `fp.rs` or `fq.rs` (`IsHaloField C`), and about residues modulo
the modulus.  `Represents C a x` (in `Verif.Spec.Field`) says that `a` is the
fully reduced Montgomery form of `x`.
-/
namespace Halo
open Fe
variable {C : Consts}

/-- The values of type `Fp`/`Fq` that are reduced are exactly the representations of
residues: one limb vector for each residue and one residue for each reduced limb vector. -/
theorem representation_bijective (hC : IsHaloField C) :
    (∀ a : Limbs, a.toNat < C.m → ∃! x, Represents C a x) ∧
    (∀ x : ZMod C.m, ∃! a, Represents C a x) := by
  constructor
  · intro a h
    obtain ⟨x, hx⟩ := canon_rep hC.ok h
    exact ⟨x, hx, fun y hy => rep_unique hC.ok hy hx⟩
  · intro x
    obtain ⟨a, ha⟩ := rep_exists hC.ok x
    exact ⟨a, ha, fun b hb => rep_inj hb ha⟩

/-- **C01.** Addition, subtraction, negation and doubling are exact and return reduced values. -/
theorem C01_linear_ops (hC : IsHaloField C) {a b : Limbs} {x y : ZMod C.m}
    (ha : Represents C a x) (hb : Represents C b y) :
    Represents C (add C a b) (x + y) ∧ Represents C (sub C a b) (x - y) ∧
    Represents C (neg C a) (-x) ∧ Represents C (double C a) (x + x) :=
  ⟨rep_add hC.ok ha hb, rep_sub hC.ok ha hb, rep_neg hC.ok ha, rep_add hC.ok ha ha⟩

/-- the limbs of `-1` in `Fp`: the hypotheses of C01 hold for the extreme operands `-1, -1`,
whose sum wraps around the modulus -/
example : Represents fpConsts (limbsOf (P - 2 ^ 256 % P)) ((P - 1 : ℕ) : ZMod fpConsts.m) ∧
    (add fpConsts (limbsOf (P - 2 ^ 256 % P)) (limbsOf (P - 2 ^ 256 % P))).toNat
      = P - 2 * (2 ^ 256 % P) % P :=
  ⟨rep_of_nat (by decide +kernel) (by decide +kernel), by decide +kernel⟩

/-- The intermediate `u128` sums of `adc` and `mac` do not overflow (Rust would panic in debug
builds and wrap in release builds). -/
theorem C01_no_overflow (a b c carry : U64) :
    a.toNat + b.toNat + carry.toNat < 2 ^ 128 ∧
    a.toNat + b.toNat * c.toNat + carry.toNat < 2 ^ 128 :=
  ⟨adc_no_overflow a b carry, mac_no_overflow a b c carry⟩

/-- **C02.** Multiplication and squaring are exact and return reduced values. -/
theorem C02_mul_square (hC : IsHaloField C) {a b : Limbs} {x y : ZMod C.m}
    (ha : Represents C a x) (hb : Represents C b y) :
    Represents C (mul C a b) (x * y) ∧ Represents C (square C a) (x ^ 2) ∧
    square C a = mul C a a := by
  have h := rep_square hC.ok ha
  refine ⟨rep_mul hC.ok ha hb, by rwa [pow_two], rep_inj h (rep_mul hC.ok ha ha)⟩

/-- hypotheses of C02 hold for `(-1)·(-1)` in `Fq`, and the code returns one -/
example : Represents fqConsts (limbsOf (Q - 2 ^ 256 % Q)) ((Q - 1 : ℕ) : ZMod fqConsts.m) ∧
    mul fqConsts (limbsOf (Q - 2 ^ 256 % Q)) (limbsOf (Q - 2 ^ 256 % Q)) = one fqConsts :=
  ⟨rep_of_nat (by decide +kernel) (by decide +kernel), by decide +kernel⟩

/-- **C03.** Integers of any size are reduced correctly. -/
theorem C03_integer_conversions (hC : IsHaloField C) :
    (∀ w : Limbs, Represents C (fromRaw C w) (w.toNat : ZMod C.m)) ∧
    (∀ v : U64, Represents C (fromU64 C v) (v.toNat : ZMod C.m)) ∧
    (∀ v : U64, Represents C (ofU64Into C v) (v.toNat : ZMod C.m)) ∧
    (∀ v : U128, Represents C (fromU128 C v) (v.toNat : ZMod C.m)) ∧
    (∀ b : Bool, Represents C (ofBool C b) (if b then 1 else 0)) ∧
    (∀ bytes : Vector (BitVec 8) 64,
      Represents C (fromBytesWide C bytes) (leNat bytes.toList : ZMod C.m)) :=
  ⟨rep_mul_r2 hC.ok, fromU64_rep hC.ok, fromU64_rep hC.ok, fromU128_rep hC.ok,
    ofBool_rep hC.ok, fromBytesWide_rep hC.ok⟩

/-- a value above the modulus: `2^256 - 1` -/
example : (fromRaw fpConsts ⟨-1, -1, -1, -1⟩).toNat = (2 ^ 256 - 1) * 2 ^ 256 % P := by
  decide +kernel

/-- **C04.** `to_bytes` is the little-endian encoding of the least representative, `from_bytes`
accepts exactly the encodings of integers below the modulus, and both round trips hold. -/
theorem C04_encoding (hC : IsHaloField C) :
    (∀ a x, Represents C a x → leNat (toBytes C a).toList = x.val) ∧
    (∀ bytes : Vector (BitVec 8) 32, C.m ≤ leNat bytes.toList → fromBytes C bytes = none) ∧
    (∀ bytes : Vector (BitVec 8) 32, leNat bytes.toList < C.m →
      ∃ a, fromBytes C bytes = some a ∧ Represents C a (leNat bytes.toList : ZMod C.m)) ∧
    (∀ a x, Represents C a x → fromBytes C (toBytes C a) = some a) ∧
    (∀ bytes a, fromBytes C bytes = some a → toBytes C a = bytes) := by
  have : NeZero C.m := ⟨(m_pos hC.ok).ne'⟩
  have hto : ∀ a x, Represents C a x → leNat (toBytes C a).toList = x.val :=
    fun a x h => toBytes_val hC.ok h
  have hbig : ∀ bytes : Vector (BitVec 8) 32, C.m ≤ leNat bytes.toList → fromBytes C bytes = none := by
    intro bytes h
    have := fromBytes_spec hC.ok bytes
    rwa [if_neg (not_lt.2 h)] at this
  have hsm : ∀ bytes : Vector (BitVec 8) 32, leNat bytes.toList < C.m →
      ∃ a, fromBytes C bytes = some a ∧ Represents C a (leNat bytes.toList : ZMod C.m) := by
    intro bytes h
    have := fromBytes_spec hC.ok bytes
    rwa [if_pos h] at this
  refine ⟨hto, hbig, hsm, ?_, ?_⟩
  · intro a x h
    obtain ⟨b, h1, h2⟩ := hsm (toBytes C a) (by rw [hto a x h]; exact ZMod.val_lt x)
    rw [hto a x h, ZMod.natCast_zmod_val] at h2
    rw [h1, rep_inj h h2]
  · intro bytes a h
    have hlt : leNat bytes.toList < C.m := by
      by_contra hge
      rw [hbig bytes (not_lt.1 hge)] at h
      simp at h
    obtain ⟨b, h1, h2⟩ := hsm bytes hlt
    rw [h] at h1
    obtain rfl := Option.some.inj h1
    have h3 := hto a _ h2
    rw [ZMod.val_natCast, Nat.mod_eq_of_lt hlt] at h3
    have := leNat_inj (by simp) h3
    exact Vector.toList_inj.1 this

/-- the encoding of `p` itself is rejected, that of `p - 1` is accepted -/
example : (fromBytes fpConsts (Vector.ofFn fun i => BitVec.ofNat 8 (P / 256 ^ i.val))).isNone ∧
    (fromBytes fpConsts (Vector.ofFn fun i => BitVec.ofNat 8 ((P - 1) / 256 ^ i.val))).isSome := by
  decide +kernel

/-- **C05.** `get_lower_128` is the canonical integer modulo `2^128`. -/
theorem C05_lower_128 (hC : IsHaloField C) {a : Limbs} {x : ZMod C.m} (ha : Represents C a x) :
    (getLower128 C a).toNat = x.val % 2 ^ 128 :=
  getLower128_val hC.ok ha

example : (getLower128 fpConsts (limbsOf (P - 2 ^ 256 % P))).toNat = (P - 1) % 2 ^ 128 := by
  decide +kernel

/-- **C06.** `pow` and `pow_vartime` raise to the given 256-bit exponent. -/
theorem C06_pow (hC : IsHaloField C) {a : Limbs} {x : ZMod C.m} (ha : Represents C a x)
    (e : Limbs) :
    Represents C (pow C a e) (x ^ e.toNat) ∧ Represents C (powVartime C a e) (x ^ e.toNat) ∧
    pow C a e = powVartime C a e := by
  have h := rep_powVartime hC.ok ha e
  exact ⟨by rwa [pow_eq_powVartime], h, pow_eq_powVartime a e⟩

/-- two to the power `2^192 + 3` -/
example : Represents fpConsts (fromU64 fpConsts 2) 2 ∧
    (pow fpConsts (fromU64 fpConsts 2) ⟨3, 0, 0, 0⟩) = fromU64 fpConsts 8 := by
  refine ⟨?_, by decide +kernel⟩
  have := fromU64_rep fp_ok 2
  exact_mod_cast this

/-- **C07.** `invert` fails exactly on zero and returns the inverse otherwise. -/
theorem C07_invert (hC : IsHaloField C) {a : Limbs} {x : ZMod C.m} (ha : Represents C a x) :
    (x = 0 → invert C a = none) ∧
    (x ≠ 0 → ∃ b y, invert C a = some b ∧ Represents C b y ∧ x * y = 1) :=
  invert_spec hC.ok hC.prime (invertExp_eq hC) ha

example : (invert fpConsts (fromU64 fpConsts 2)).map (mul fpConsts (fromU64 fpConsts 2))
    = some (one fpConsts) := by decide +kernel

/-- **C08.** `sqrt` succeeds exactly on squares, and then returns a square root. -/
theorem C08_sqrt (hC : IsHaloField C) {a : Limbs} {x : ZMod C.m} (ha : Represents C a x) :
    (IsSquare x → ∃ r y, sqrt C a = some r ∧ Represents C r y ∧ y * y = x) ∧
    (¬ IsSquare x → sqrt C a = none) := by
  have : Fact C.m.Prime := ⟨hC.prime⟩
  obtain ⟨root, hr⟩ := canon_rep hC.ok (root_reduced hC)
  exact sqrt_correct hC.ok (sqrtExp_eq hC) rfl hr (root_spec hC hr) ha

/-- `4` is a square; the root of unity of order `2^32` is not -/
example : Represents fpConsts (fromU64 fpConsts 4) 4 ∧ IsSquare (4 : ZMod fpConsts.m) ∧
    ∃ α, Represents fpConsts fpConsts.rootOfUnity α ∧ ¬ IsSquare α := by
  refine ⟨by exact_mod_cast fromU64_rep fp_ok 4, ⟨2, by norm_num⟩, ?_⟩
  obtain ⟨α, hα⟩ := canon_rep fp_ok (root_reduced .fp)
  refine ⟨α, hα, ?_⟩
  rintro ⟨y, rfl⟩
  have h := root_spec .fp hα
  have hy : y ≠ 0 := by rintro rfl; simp at h
  have h1 := ZMod.pow_card_sub_one_eq_one hy
  have e : fpConsts.m - 1 = 2 * 2 ^ 31 * (2 * fpConsts.sqrtExp.toNat + 1) := by decide +kernel
  rw [e, pow_mul, pow_mul, pow_two, h, pow_succ, pow_mul] at h1
  have := neg_one_ne_one (C := fpConsts) .fp
  apply this
  simpa using h1

/-- **C09.** `batch_invert` inverts the non-zero entries in place, leaves zeros, returns the
product of the inverses of the non-zero entries and does not panic. -/
theorem C09_batch_invert (hC : IsHaloField C) [Fact C.m.Prime] {v : List Limbs}
    {xs : List (ZMod C.m)} (hv : List.Forall₂ (Represents C) v xs) :
    ∃ v' r, batchInvert C v = some (v', r) ∧
      List.Forall₂ (Represents C) v' (xs.map fun x => if x = 0 then 0 else x⁻¹) ∧
      Represents C r ((xs.filter (· ≠ 0)).map (·⁻¹)).prod := by
  obtain ⟨v', r, h1, h2, h3⟩ := batchInvert_spec hC.ok (invertExp_eq hC) hv
  refine ⟨v', r, h1, ?_, ?_⟩
  · have : (fun x : ZMod C.m => if x = 0 then 0 else x⁻¹) = (·⁻¹) := by
      funext x; split_ifs with h <;> simp [h]
    rwa [this]
  · rw [prodNZ] at h3
    rwa [show ((xs.filter (· ≠ 0)).map (·⁻¹)).prod = (xs.filter (· ≠ 0)).prod⁻¹ from
      (List.prod_inv _).symm]

example : List.Forall₂ (Represents fpConsts) [fromU64 fpConsts 2, zero, fromU64 fpConsts 3] [2, 0, 3] :=
  .cons (by exact_mod_cast fromU64_rep fp_ok 2) (.cons (rep_zero fp_ok)
    (.cons (by exact_mod_cast fromU64_rep fp_ok 3) .nil))

/-- **C10.** The declared constants have their documented properties. -/
theorem C10_constants :
    P.Prime ∧ Q.Prime ∧ fpConsts.m = P ∧ fqConsts.m = Q ∧
    (∀ C, IsHaloField C →
      Represents C zero 0 ∧ Represents C (one C) 1 ∧
      (∃ α, Represents C C.rootOfUnity α ∧ orderOf α = 2 ^ 32) ∧
      (∃ β, Represents C (beta C) β ∧ orderOf β = 3) ∧
      5 * C.rescueInvAlpha.toNat % (C.m - 1) = 1 ∧
      (∀ x : ZMod C.m, (x ^ 5) ^ C.rescueInvAlpha.toNat = x ∧
        (x ^ C.rescueInvAlpha.toNat) ^ 5 = x)) := by
  refine ⟨prime_P, prime_Q, fp_m, fq_m, ?_⟩
  intro C hC
  obtain ⟨root, hr⟩ := canon_rep hC.ok (root_reduced hC)
  refine ⟨rep_zero hC.ok, rep_one hC.ok, ⟨root, hr, root_order hC hr⟩,
    ⟨_, beta_rep hC.ok, beta_order hC (beta_rep hC.ok)⟩, alpha_inv hC, fun x => ⟨?_, ?_⟩⟩
  · rw [← pow_mul, alpha_perm hC]
  · rw [← pow_mul, mul_comm, alpha_perm hC]

example : IsHaloField fpConsts ∧ IsHaloField fqConsts ∧ fpConsts.m ≠ fqConsts.m :=
  ⟨.fp, .fq, by decide +kernel⟩

end Halo
