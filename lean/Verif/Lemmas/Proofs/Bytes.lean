import Verif.Lemmas.Proofs.Commit
/-!
# The encodings of leftovers and deferred records
-/
namespace Halo
namespace Proofs
open LawfulField
variable {F : Type} [Field F] [LawfulField F]

@[simp] theorem bytes32_length (a : F) : (bytes32 a).length = 32 := by simp [bytes32]
@[simp] theorem bytes16_length (a : F) : (bytes16 a).length = 16 := by simp [bytes16]

theorem bytes32_inj {a b : F} : bytes32 a = bytes32 b ↔ a = b := by
  refine ⟨fun h => ?_, fun h => by rw [h]⟩
  have : val a = val b := by
    rw [← toBytes_val, ← toBytes_val]
    exact congrArg leNat h
  rw [← val_cast a, ← val_cast b, this]

theorem bytes16_inj {a b : F} : bytes16 a = bytes16 b ↔ val a % 2 ^ 128 = val b % 2 ^ 128 := by
  have e : ∀ a : F, leNat (bytes16 a) = val a % 2 ^ 128 := by
    intro a
    rw [bytes16, bytes32, Util.leNat_take, toBytes_val]
    norm_num
  rw [← e, ← e]
  exact ⟨fun h => by rw [h], fun h => Fe.leNat_inj (by simp) h⟩

theorem flatMap16_length (l : List F) : (l.flatMap bytes16).length = 16 * l.length := by
  induction l with
  | nil => rfl
  | cons a l ih => simp [ih]; ring

theorem flatMap16_inj : ∀ {l l' : List F}, l.length = l'.length →
    (l.flatMap bytes16 = l'.flatMap bytes16 ↔
      List.Forall₂ (fun a b => val a % 2 ^ 128 = val b % 2 ^ 128) l l')
  | [], [], _ => by simp
  | a :: l, b :: l', h => by
    rw [List.flatMap_cons, List.flatMap_cons, List.forall₂_cons, ← bytes16_inj,
      ← flatMap16_inj (by simpa using h)]
    constructor
    · intro h'; exact List.append_inj h' (by simp)
    · rintro ⟨h1, h2⟩; rw [h1, h2]
  | [], _ :: _, h => by simp at h
  | _ :: _, [], h => by simp at h

theorem append_iff {α : Type} {a b c d : List α} (h : a.length = c.length) :
    a ++ b = c ++ d ↔ a = c ∧ b = d :=
  ⟨fun h' => List.append_inj h' h, fun ⟨h1, h2⟩ => by rw [h1, h2]⟩

section
variable {C S : Type} [CurveOps C F S]

@[simp] theorem pointBytes_length (p : C) : (pointBytes p).length = 64 := by
  unfold pointBytes; split <;> simp

theorem pointBytes_eq (p : C) : pointBytes p =
    bytes32 ((CurveOps.getXy p).getD (0, 0)).1 ++ bytes32 ((CurveOps.getXy p).getD (0, 0)).2 := by
  unfold pointBytes
  cases CurveOps.getXy p <;> rfl

theorem pointBytes_inj [Field S] {G : Type} [AddCommGroup G] [Module S G] {rep : C → G → Prop}
    (L : LawfulOps C F S G rep) {p q : C} {a b : G} (hp : rep p a) (hq : rep q b) :
    pointBytes p = pointBytes q ↔ a = b := by
  rw [pointBytes_eq, pointBytes_eq, append_iff (by simp), bytes32_inj, bytes32_inj, ← Prod.ext_iff]
  exact L.getXy hp hq

end
end Proofs
end Halo
