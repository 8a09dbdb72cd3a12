import Verif.Model.FieldConsts
import Mathlib.Data.ZMod.Basic
/-!
# Specification of the field layer

`Represents C a x`: the four limbs `a` are the (unique) fully reduced Montgomery
representation of the residue `x` modulo the modulus of `C`.
-/
namespace Halo

/-- The modulus as a number. -/
abbrev Consts.m (C : Consts) : ℕ := C.modulus.toNat

/-- `a` is the reduced Montgomery form (`R = 2^256`) of the residue `x`. -/
def Represents (C : Consts) (a : Limbs) (x : ZMod C.m) : Prop :=
  a.toNat < C.m ∧ (a.toNat : ZMod C.m) = x * 2 ^ 256

/-- The prime `p` of `Fp`, from the doc comment `src/fields/fp.rs:71`. -/
def P : ℕ := 0x5c5e464a35c12769bac2a757742b393081be9c1a3201248299fffe7d00000001
/-- The prime `q` of `Fq`, from the doc comment `src/fields/fq.rs:71`. -/
def Q : ℕ := 0x5c5e464a35c12769bac2a757742b39311b849d0f1801860419fffe7d00000001

/-- Little-endian integer denoted by a list of bytes. -/
def leNat : List (BitVec 8) → ℕ
  | [] => 0
  | b :: bs => b.toNat + 256 * leNat bs

/-- The two constant records of the code base. -/
inductive IsHaloField : Consts → Prop
  | fp : IsHaloField fpConsts
  | fq : IsHaloField fqConsts

end Halo
