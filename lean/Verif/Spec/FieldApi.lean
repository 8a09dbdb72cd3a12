import Verif.Spec.Field
import Mathlib.Algebra.Field.ZMod
import Mathlib.GroupTheory.OrderOfElement
/-!
# Interface between the field layer and everything above it

Upper layers of the code (`curves`, `util`, `rescue`, `gadgets`, ...) are generic over the
trait `Field` (`src/fields/mod.rs:5-105`).  They are modelled over a Lean `Field F`, whose
`+ - * ⁻¹ 0 1` stand for the Rust operators, together with the remaining trait methods given
by `FieldApi`.  `LawfulField` states what those methods must do; it is proved for the limb
code in `Verif.Lemmas.FieldInst` (`Elem fpConsts` and `Elem fqConsts`), so a theorem
assuming `[LawfulField F]` is a theorem about `Fp` and `Fq`.
-/
namespace Halo

/-- Methods of trait `Field` (`src/fields/mod.rs:34-105`) other than ring operations. -/
class FieldApi (F : Type) where
  /-- the modulus -/
  modulus : ℕ
  /-- `sqrt` -/
  sqrt : F → Option F
  /-- `invert` -/
  invert : F → Option F
  /-- `to_bytes` -/
  toBytes : F → Vector (BitVec 8) 32
  /-- `from_bytes` -/
  fromBytes : Vector (BitVec 8) 32 → Option F
  /-- `get_lower_128` -/
  lower128 : F → BitVec 128
  /-- `from_u64` -/
  fromU64 : BitVec 64 → F
  /-- `from_u128` -/
  fromU128 : BitVec 128 → F
  /-- `ALPHA` -/
  alpha : F
  /-- `BETA` -/
  beta : F
  /-- `RESCUE_INVALPHA` -/
  rescueInvAlpha : ℕ

export FieldApi (modulus)

/-- What the methods are supposed to do. `val` is the canonical integer of an element. -/
class LawfulField (F : Type) [Field F] extends FieldApi F where
  prime : (FieldApi.modulus F).Prime
  /-- canonical integer -/
  val : F → ℕ
  val_lt : ∀ a, val a < FieldApi.modulus F
  val_cast : ∀ a : F, (val a : F) = a
  val_natCast : ∀ n : ℕ, val (n : F) = n % FieldApi.modulus F
  modulus_bound : 2 ^ 254 < FieldApi.modulus F ∧ FieldApi.modulus F < 2 ^ 255
  sqrt_some : ∀ a : F, IsSquare a → ∃ y : F, FieldApi.sqrt a = some y ∧ y * y = a
  sqrt_none : ∀ a : F, ¬ IsSquare a → FieldApi.sqrt a = none
  invert_eq : ∀ a : F, a ≠ 0 → FieldApi.invert a = some a⁻¹
  invert_zero : FieldApi.invert (0 : F) = none
  toBytes_val : ∀ a : F, leNat (FieldApi.toBytes a).toList = val a
  fromBytes_ok : ∀ b, leNat b.toList < FieldApi.modulus F →
    FieldApi.fromBytes b = some (leNat b.toList : F)
  fromBytes_none : ∀ b, FieldApi.modulus F ≤ leNat b.toList →
    FieldApi.fromBytes (F := F) b = none
  lower128_val : ∀ a : F, (FieldApi.lower128 a).toNat = val a % 2 ^ 128
  fromU64_eq : ∀ v, FieldApi.fromU64 (F := F) v = (v.toNat : F)
  fromU128_eq : ∀ v, FieldApi.fromU128 (F := F) v = (v.toNat : F)
  alpha_order : orderOf (FieldApi.alpha : F) = 2 ^ 32
  beta_order : orderOf (FieldApi.beta : F) = 3
  invAlpha : ∀ x : F, (x ^ 5) ^ FieldApi.rescueInvAlpha F = x

end Halo
