import Verif.Model.Example.Bitcoin
import Verif.Model.Example.Paper
import Verif.Spec.Bitcoin
import Verif.Lemmas.Gadget.TwinSha
import Verif.Lemmas.Recursion.TwinGadgets
/-!
# The example circuits ask for the same constraints, whatever values are known
-/
set_option linter.unusedSectionVars false
namespace Halo
open Circuit Recursion

theorem Circuit.LC.in_addScaled {F : Type} [Field F] {V : Var → Prop} {l o : LC F} {c : Coeff F} (h : l.In V)
    (ho : o.In V) : (l.addScaled c o).In V := by
  unfold LC.addScaled
  obtain ⟨ts⟩ := o
  induction ts generalizing l with
  | nil => exact h
  | cons t ts ih =>
    exact ih (LC.in_add h (ho t (by simp))) fun t ht => ho t (by simp only [List.mem_cons]; exact .inr ht)

namespace Circuit.UInt
variable {F : Type} [Field F] [LawfulField F] {V : Var → Prop} {one : Var}

omit [LawfulField F] in
theorem twin_allocBooleans {n : ℕ} {values values' : List (Option Bool)} (h : values.length = n)
    (h' : values'.length = n) :
    Circuit.Twin V (mapProg (fun v => do return Boolean.is (← AllocatedBit.alloc (orMissing v))) values :
        Prog F (List Boolean))
      (mapProg (fun v => do return Boolean.is (← AllocatedBit.alloc (orMissing v))) values') fun b b' =>
      List.Forall₂ (FreeBit V) b b' ∧ b'.length = n := by
  refine Twin.mono (fun b b' h => ⟨h.1, h.2.trans h'⟩) (twin_mapProg (A := fun _ _ => True)
    (List.forall₂_iff_zip.2 ⟨h.trans h'.symm, fun _ => trivial⟩) fun v v' _ => ?_)
  exact twin_bitAlloc'.bind fun b b' hb => Twin.ret ⟨.is hb.1, rfl⟩

theorem twin_mulAcc2 (ho : V one) {a a' b b' c c' d d' : UInt 64} (ha : Weak V a a') (hb : Weak V b b')
    (hc : Weak V c c') (hd : Weak V d d') :
    Circuit.Twin V (mulAcc2 one a b c d : Prog F _) (mulAcc2 one a' b' c' d') fun r r' =>
      Weak V r.1 r'.1 ∧ Weak V r.2 r'.2 := by
  have hlen : ∀ o : Option (BitVec 128), (match o with
      | some val => (shiftBits 128 val).map some
      | none => List.replicate 128 none).length = 128 := by
    rintro (_ | x)
    · simp
    · simp [shiftBits_self]
  unfold mulAcc2
  refine (twin_allocBooleans (hlen _) (hlen _)).bind fun bits bits' ⟨hbits, hl⟩ => ?_
  have hbits := hbits.imp fun _ _ h => h.1
  obtain ⟨u, u', e1, e2, e3⟩ := fromBits_weak (k := 64) (forall₂_take hbits 64) (by rw [List.length_take]; omega)
  obtain ⟨v, v', f1, f2, f3⟩ := fromBits_weak (k := 64) (List.forall₂_drop 64 (forall₂_take hbits 128))
    (by rw [List.length_drop, List.length_take]; omega)
  simp only [e1, e2, f1, f2, orPanic, fromBytes_twoPow64]
  refine twin_multiply fun l r o _ hl hr ho' => ?_
  obtain ⟨la, la'⟩ := lc_twin (F := F) ho ha
  obtain ⟨lb, lb'⟩ := lc_twin (F := F) ho hb
  obtain ⟨lc, lc'⟩ := lc_twin (F := F) ho hc
  obtain ⟨ld, ld'⟩ := lc_twin (F := F) ho hd
  obtain ⟨lu, lu'⟩ := lc_twin (F := F) ho e3
  obtain ⟨lv, lv'⟩ := lc_twin (F := F) ho f3
  refine twin_enforce (by rw [la]) (LC.in_subVar la' hl) ?_
  refine twin_enforce (by rw [lb]) (LC.in_subVar lb' hr) ?_
  refine twin_enforce (by rw [lc, ld, lu, lv]) (LC.in_subLC (LC.in_subLC (LC.in_subVar ?_ ho') lc') ld')
    (Twin.ret ⟨e3, f3⟩)
  exact LC.in_addScaled lu' lv'

end Circuit.UInt

namespace Example
open Circuit.Sha256 (foldProg index)
variable {F : Type} [Field F] [LawfulField F] {V : Var → Prop} {one : Var}

/-! ### Variants of the circuit that supply other values -/

/-- `unpack_fe` with any bits -/
def unpackWith (one : Var) (num : Num F) (bits : List Bool) : Prog F (List AllocatedBit) := do
  let bools ← mapProg (fun value => AllocatedBit.alloc (orMissing value)) (bits.map some)
  .enforce ((packBits bools).subLC (num.lc one))
  return bools

/-- The constraints for the work, with `unpack` for `unpack_fe` -/
def workBy (unpackW unpackR : AllocatedNum F → Prog F (List AllocatedBit)) (one : Var) (target : List Boolean)
    (prevChainWork chainWork : AllocatedNum F) (work remainder : Except SynthesisError F) : Prog F Unit := do
  let targetLimbs ← limbs (.constant true :: target.drop 1)
  let blockWork ← AllocatedNum.alloc work
  let workBits ← unpackW blockWork
  let workLimbs ← limbs (workBits.map Boolean.is)
  let remainder ← AllocatedNum.alloc remainder
  let remainderBits ← unpackR remainder
  let remainderLimbs ← limbs (remainderBits.map Boolean.is)
  let w := remainderLimbs ++ [.constant 0, .constant 0, .constant 0, .constant 0]
  let w ← foldProg (mulOuter one targetLimbs workLimbs) (List.range 4) w
  .enforce ((← index w 0).lc one)
  .enforce ((← index w 1).lc one)
  .enforce ((← index w 2).lc one)
  .enforce ((← index w 3).lc one)
  .enforce (((← index w 4).lc one).subVar one)
  .enforce ((← index w 5).lc one)
  .enforce ((← index w 6).lc one)
  .enforce ((← index w 7).lc one)
  .enforce ((chainWork.lc.subLC prevChainWork.lc).subLC blockWork.lc)

theorem constrainWork_eq (one : Var) (target : List Boolean) (p c : AllocatedNum F) (work rem : Except SynthesisError F) :
    constrainWork one target p c work rem = workBy (fun n => unpackFe one (.ofAllocated n))
      (fun n => unpackFe one (.ofAllocated n)) one target p c work rem := rfl

/-- Everything up to the work -/
def bitcoinBy (rest : List Boolean → AllocatedNum F → AllocatedNum F → Prog F Unit) (one : Var)
    (oldPayload newPayload : List AllocatedBit) : Prog F Unit := do
  let (prevHeight, prevChainWork, prevHeaderBits) ← unpackPayloadBits one oldPayload
  let (height, chainWork, headerBits) ← unpackPayloadBits one newPayload
  .enforce ((height.lc.subLC prevHeight.lc).subVar one)
  let prevHashBits ← sha256d one prevHeaderBits
  enforceEquality one (← slice headerBits 32 (32 + 256)) prevHashBits
  let _ ← sha256d one headerBits
  rest headerBits prevChainWork chainWork

theorem bitcoin_eq (one : Var) (old new : List AllocatedBit) : (bitcoin : RecursiveCircuit F).synthesize one old new =
    bitcoinBy (fun headerBits prevChainWork chainWork => do
      let (target, targetVal) ← (← CompactBits.fromHeader headerBits).unpack one
      checkWork one target targetVal prevChainWork chainWork) one old new := rfl

/-- `unpack` with other values -/
def CompactBits.unpackBy (one : Var) (c : CompactBits) (p ts : List Bool) (x b : F) :
    Prog F (List Boolean × Unit) := do
  .enforce (c.mantissaSignBit.lc one .one)
  let target ← c.constrain one (fun i => .ok (ts.getD i false)) x (.ok (Bitcoin.mantissa p, b, bitsValue ts))
    (.ok (b, 256 ^ 3, x ^ 32 * 256 ^ Bitcoin.size p))
  return (target, ())

/-- The circuit with other values -/
def bitcoinWith (p : List Bool) (ts : List Bool) (x b : F) (wv rv : List Bool) (one : Var)
    (old new : List AllocatedBit) : Prog F Unit :=
  bitcoinBy (fun headerBits prevChainWork chainWork => do
    let (target, _) ← (← CompactBits.fromHeader headerBits).unpackBy one p ts x b
    workBy (fun n => unpackWith one (.ofAllocated n) wv) (fun n => unpackWith one (.ofAllocated n) rv) one target
      prevChainWork chainWork (.ok (bitsValue wv)) (.ok (bitsValue rv))) one old new

/-! ### Twins -/

theorem twin_allocBits (value value' : ℕ → Except SynthesisError Bool) (len : ℕ) :
    Twin V (allocBits value len : Prog F _) (allocBits value' len) fun b b' =>
      List.Forall₂ (UInt.FreeBit V) b b' ∧ b'.length = len * 8 := by
  unfold allocBits
  refine Twin.mono (fun b b' h => ⟨h.1, by simpa using h.2⟩) (twin_mapProg (A := fun _ _ => True)
    (List.forall₂_iff_zip.2 ⟨rfl, fun _ => trivial⟩) fun v v' _ => ?_)
  exact twin_bitAlloc'.bind fun b b' hb => Twin.ret ⟨.is hb.1, rfl⟩

theorem lcFromBits_twin (ho : V one) {bs bs' : List Boolean} (h : List.Forall₂ (Boolean.Twin V) bs bs') :
    lcFromBits one bs' = (lcFromBits one bs : LC F) ∧ (lcFromBits one bs : LC F).In V :=
  UInt.addBits_twin ho h LC.in_zero

theorem twin_enforceEquality (ho : V one) {a a' b b' : List Boolean} (ha : List.Forall₂ (Boolean.Twin V) a a')
    (hb : List.Forall₂ (Boolean.Twin V) b b') (hl : a'.length = b'.length) :
    Twin V (enforceEquality one a b : Prog F _) (enforceEquality one a' b') fun _ _ => True := by
  obtain ⟨e1, e2⟩ := lcFromBits_twin (F := F) ho ha
  obtain ⟨e3, e4⟩ := lcFromBits_twin (F := F) ho hb
  exact twin_guard (by simpa using hl) (twin_enforce' (by rw [e1, e3]) (LC.in_subLC e2 e4) trivial)

theorem twin_bitsToNum (ho : V one) {a a' : List Boolean} (ha : List.Forall₂ (Boolean.Twin V) a a') :
    Twin V (bitsToNum one a : Prog F _) (bitsToNum one a') (AllocatedNum.Twin V) := by
  obtain ⟨e1, e2⟩ := lcFromBits_twin (F := F) ho ha
  unfold bitsToNum
  refine twin_numAlloc fun x hx => ?_
  exact twin_enforce (by rw [e1]; rfl) (LC.in_subLC e2 (LC.in_ofVar hx)) (Twin.ret ⟨_, _, _, hx⟩)

/-- The same bits, up to values -/
structure CompactBits.Twin (V : Var → Prop) (c c' : CompactBits) : Prop where
  mantissaBits : List.Forall₂ (Boolean.Twin V) c.mantissaBits c'.mantissaBits
  mantissaSignBit : Boolean.Twin V c.mantissaSignBit c'.mantissaSignBit
  sizeBits : List.Forall₂ (Boolean.Twin V) c.sizeBits c'.sizeBits
  sizeLength : c'.sizeBits.length = 8

theorem twin_powStep (ho : V one) {base base' p p' : AllocatedNum F} (hb : AllocatedNum.Twin V base base')
    (hp : AllocatedNum.Twin V p p') {b b' : Boolean} (h : Boolean.Twin V b b') :
    Twin V (powStep one base p b) (powStep one base' p' b') (AllocatedNum.Twin V) := by
  unfold powStep
  refine (twin_mul hp hp).bind fun sq sq' hsq => ?_
  refine (twin_mul hsq hb).bind fun sm sm' hsm => ?_
  refine twin_numAlloc fun x hx => ?_
  refine twin_multiply fun l r o _ hl hr ho' => ?_
  refine twin_enforce (by rw [h.lc]) (LC.in_subVar (h.in ho) hl) ?_
  refine twin_enforce (by rw [hsm.lc, hsq.lc]) (LC.in_subVar (LC.in_subLC hsm.in hsq.in) hr) ?_
  exact twin_enforce (by rw [hsq.lc]; rfl) (LC.in_subVar (LC.in_subLC (LC.in_ofVar hx) hsq.in) ho')
    (Twin.ret ⟨_, _, _, hx⟩)

theorem twin_constrain (ho : V one) {c c' : CompactBits} (h : CompactBits.Twin V c c')
    (bit bit' : ℕ → Except SynthesisError Bool) (first first' : F)
    (product product' power power' : Except SynthesisError (F × F × F)) :
    Twin V (c.constrain one bit first product power) (c'.constrain one bit' first' product' power') fun t t' =>
      List.Forall₂ (UInt.FreeBit V) t t' ∧ t'.length = 256 := by
  unfold CompactBits.constrain
  refine (twin_allocBits _ _ _).bind fun t t' ht => ?_
  have ht1 := ht.1.imp fun _ _ h => h.1
  refine twin_numAlloc fun x hx => ?_
  refine twin_enforce rfl (LC.in_sub (LC.in_ofVar hx) ho) ?_
  refine twin_guard (by simpa using h.sizeLength) ?_
  refine (twin_index h.sizeBits (by rw [h.sizeLength]; omega)).bind fun b b' hb => ?_
  refine twin_enforce hb.lc.symm (hb.in ho) ?_
  refine (twin_index h.sizeBits (by rw [h.sizeLength]; omega)).bind fun b b' hb => ?_
  refine twin_enforce hb.lc.symm (hb.in ho) ?_
  refine (twin_index h.sizeBits (by rw [h.sizeLength]; omega)).bind fun b b' hb => ?_
  refine twin_enforce hb.lc.symm (hb.in ho) ?_
  refine twin_numAlloc fun y hy => ?_
  refine Twin.bind (R := AllocatedNum.Twin V) (twin_foldProg (List.forall₂_drop 3 (List.rel_reverse h.sizeBits))
    (fun b b' p p' hb hp => twin_powStep ho ⟨_, _, _, hx⟩ hp hb) ⟨_, _, _, hy⟩) fun p p' hp => ?_
  refine twin_multiply fun a b c _ ha hb hc => ?_
  refine twin_multiply fun d e f _ hd he hf => ?_
  obtain ⟨e1, e2⟩ := lcFromBits_twin (F := F) ho h.mantissaBits
  obtain ⟨e3, e4⟩ := lcFromBits_twin (F := F) ho ht1
  refine twin_enforce (by rw [e1]) (LC.in_subVar e2 ha) ?_
  refine twin_enforce (by rw [e3]) (LC.in_subVar e4 hc) ?_
  refine twin_enforce rfl (LC.in_subVar (LC.in_ofVar hb) hd) ?_
  refine twin_enforce rfl (LC.in_sub (LC.in_ofVar he) ho) ?_
  exact twin_enforce (by rw [hp.lc]) (LC.in_subVar hp.in hf) (Twin.ret ht)

theorem twin_unpackPayloadBits (ho : V one) {l l' : List AllocatedBit} (h : BitsN V 928 l l') :
    Twin V (unpackPayloadBits one l : Prog F _) (unpackPayloadBits one l') fun r r' =>
      AllocatedNum.Twin V r.1 r'.1 ∧ AllocatedNum.Twin V r.2.1 r'.2.1 ∧
      List.Forall₂ (Boolean.Twin V) r.2.2 r'.2.2 ∧ r'.2.2 = ((l'.map Boolean.is).drop 288) ∧ r'.2.2.length = 640 := by
  unfold unpackPayloadBits
  have hm : List.Forall₂ (Boolean.Twin V) (l.map Boolean.is) (l'.map Boolean.is) := by
    rw [List.forall₂_map_left_iff, List.forall₂_map_right_iff]
    exact h.1.imp fun _ _ h => .is h
  have hl : (l'.map Boolean.is).length = 928 := by simpa using h.2
  generalize l'.map Boolean.is = m' at *
  generalize l.map Boolean.is = m at *
  refine (twin_slice hm (by omega) (by omega)).bind fun a a' ha => ?_
  refine (twin_slice hm (by omega) (by omega)).bind fun b b' hb => ?_
  refine Twin.bind (R := fun c c' => List.Forall₂ (Boolean.Twin V) c c' ∧ c' = m'.drop 288 ∧ c'.length = 640) ?_
    fun c c' hc => ?_
  · have hm' := hm.length_eq
    rw [slice, slice, if_pos (by omega), if_pos (by omega)]
    refine Twin.ret ⟨List.forall₂_drop _ (forall₂_take hm _), ?_, ?_⟩
    · rw [List.take_of_length_le (by omega)]
    · rw [List.length_drop, List.length_take]; omega
  refine (twin_bitsToNum ho ha.1).bind fun x x' hx => ?_
  refine (twin_bitsToNum ho hb.1).bind fun y y' hy => Twin.ret ⟨hx, hy, hc.1, hc.2⟩

omit [Field F] [LawfulField F] in
theorem length_flipBytes {α : Type} {l : List α} (hl : l.length % 8 = 0) : (flipBytes l).length = l.length := by
  rw [flipBytes, Sha256.chunks_eq_pieces (by omega) hl, List.length_flatMap]
  have : (Fips180.pieces 8 l).map (fun a => a.reverse.length) = (Fips180.pieces 8 l).map fun _ => 8 := by
    refine List.map_congr_left fun p hp => ?_
    rw [List.length_reverse]
    exact Sha256.length_of_mem_pieces hp
  rw [this, List.map_const', List.sum_replicate, Fips180.pieces, List.length_map, List.length_range, smul_eq_mul]
  omega

theorem flipBytes_twin {l l' : List Boolean} (h : List.Forall₂ (Boolean.Twin V) l l') (hl : l'.length % 8 = 0) :
    List.Forall₂ (Boolean.Twin V) (flipBytes l) (flipBytes l') ∧ (flipBytes l').length = l'.length := by
  have hl' := h.length_eq
  constructor
  · rw [flipBytes, flipBytes, Sha256.chunks_eq_pieces (by omega) (by omega),
      Sha256.chunks_eq_pieces (by omega) (by omega)]
    exact List.rel_flatMap (Sha256.forall₂_pieces h 8) fun _ _ h => List.rel_reverse h
  · exact length_flipBytes hl

theorem twin_sha256d (ho : V one) {l l' : List Boolean} (h : List.Forall₂ (Boolean.Twin V) l l')
    (hf : ∀ b ∈ l', b.isConstant = false) (hl : l'.length % 32 = 0) :
    Twin V (sha256d one l : Prog F _) (sha256d one l') fun r r' =>
      List.Forall₂ (Boolean.Twin V) r r' ∧ r'.length = 256 := by
  unfold sha256d
  obtain ⟨h1, h2⟩ := flipBytes_twin h (by omega)
  refine (Sha256.twin_sha256 ho h1 (by omega) (Sha256.Blocky.of_free ?_)).bind fun m m' hm => ?_
  · intro b hb
    obtain ⟨c, hc, hb⟩ := List.mem_flatMap.1 hb
    rw [Sha256.chunks_eq_pieces (by omega) (by omega), Fips180.pieces, List.mem_map] at hc
    obtain ⟨i, -, rfl⟩ := hc
    exact hf b (List.mem_of_mem_drop (List.mem_of_mem_take (List.mem_reverse.1 hb)))
  refine (Sha256.twin_sha256 ho hm.1 (by omega) hm.2.1).bind fun r r' hr => Twin.ret ?_
  obtain ⟨h3, h4⟩ := flipBytes_twin hr.1 (by omega)
  exact ⟨h3, by omega⟩

theorem twin_limbs {l l' : List Boolean} (h : List.Forall₂ (Boolean.Twin V) l l') (hl : l'.length = 256) :
    Twin V (limbs l : Prog F _) (limbs l') fun r r' => List.Forall₂ (UInt.Weak V) r r' ∧ r'.length = 4 := by
  unfold limbs
  refine Twin.mono ?_ (twin_mapProg (R := UInt.Weak V) (A := fun i j => i = j ∧ i < 4)
    (RescueGadget.forall₂_refl fun i hi => ⟨rfl, List.mem_range.1 hi⟩) ?_)
  · rintro r r' ⟨h1, h2⟩
    exact ⟨h1, by simpa using h2⟩
  · rintro i _ ⟨rfl, hi⟩
    refine (twin_slice h (by omega) (by omega)).bind fun s s' hs => ?_
    obtain ⟨u, u', e1, e2, e3⟩ := UInt.fromBits_weak (k := 64) hs.1 (by omega)
    rw [e1, e2]
    exact e3

theorem twin_mulInner (ho : V one) {t t' w w' : List (UInt 64)} (ht : List.Forall₂ (UInt.Weak V) t t')
    (htl : t'.length = 4) (hw : List.Forall₂ (UInt.Weak V) w w') (hwl : w'.length = 4) {j i : ℕ} (hj : j < 4)
    (hi : i < 4) {s s' : List (UInt 64) × UInt 64} (hs : List.Forall₂ (UInt.Weak V) s.1 s'.1) (hsl : s'.1.length = 8)
    (hc : UInt.Weak V s.2 s'.2) :
    Twin V (mulInner one t w j s i : Prog F _) (mulInner one t' w' j s' i) fun r r' =>
      (List.Forall₂ (UInt.Weak V) r.1 r'.1 ∧ r'.1.length = 8) ∧ UInt.Weak V r.2 r'.2 := by
  unfold mulInner
  refine (twin_index ht (by omega)).bind fun a a' ha => ?_
  refine (twin_index hw (by omega)).bind fun b b' hb => ?_
  refine (twin_index hs (by omega)).bind fun c c' hcc => ?_
  refine (UInt.twin_mulAcc2 ho ha hb hcc hc).bind ?_
  rintro ⟨lo, hi⟩ ⟨lo', hi'⟩ ⟨h1, h2⟩
  exact Twin.ret ⟨⟨RescueGadget.forall₂_set hs h1 _, by simpa using hsl⟩, h2⟩

theorem twin_mulOuter (ho : V one) {t t' w w' : List (UInt 64)} (ht : List.Forall₂ (UInt.Weak V) t t')
    (htl : t'.length = 4) (hw : List.Forall₂ (UInt.Weak V) w w') (hwl : w'.length = 4) {j : ℕ} (hj : j < 4)
    {s s' : List (UInt 64)} (hs : List.Forall₂ (UInt.Weak V) s s') (hsl : s'.length = 8) :
    Twin V (mulOuter one t w s j : Prog F _) (mulOuter one t' w' s' j) fun r r' =>
      List.Forall₂ (UInt.Weak V) r r' ∧ r'.length = 8 := by
  unfold mulOuter
  refine Twin.bind (R := fun r r' : List (UInt 64) × UInt 64 =>
      (List.Forall₂ (UInt.Weak V) r.1 r'.1 ∧ r'.1.length = 8) ∧ UInt.Weak V r.2 r'.2)
    (twin_foldProg (A := fun i j => i = j ∧ i < 4)
      (RescueGadget.forall₂_refl fun i hi => ⟨rfl, List.mem_range.1 hi⟩) ?_
      ⟨⟨hs, hsl⟩, (UInt.constant_known (by omega) 0).weak⟩) ?_
  · rintro i _ s s' ⟨rfl, hi⟩ ⟨⟨h1, h2⟩, h3⟩
    exact twin_mulInner ho ht htl hw hwl hj hi h1 h2 h3
  · rintro ⟨r, k⟩ ⟨r', k'⟩ ⟨⟨h1, h2⟩, h3⟩
    exact Twin.ret ⟨RescueGadget.forall₂_set h1 h3 _, by simpa using h2⟩

/-- Unpacking yields the same bits. -/
def TwinUnpack (V : Var → Prop) (unpack unpack' : AllocatedNum F → Prog F (List AllocatedBit)) : Prop :=
  ∀ n n', AllocatedNum.Twin V n n' → Twin V (unpack n) (unpack' n') fun b b' =>
    List.Forall₂ (AllocatedBit.Twin V) b b' ∧ b'.length = 256

theorem twin_workBy (ho : V one) {uW uW' uR uR' : AllocatedNum F → Prog F (List AllocatedBit)}
    (hW : TwinUnpack V uW uW') (hR : TwinUnpack V uR uR') {t t' : List Boolean} (ht : List.Forall₂ (Boolean.Twin V) t t')
    (htl : t'.length = 256) {p p' c c' : AllocatedNum F} (hp : AllocatedNum.Twin V p p') (hc : AllocatedNum.Twin V c c')
    (work work' rem rem' : Except SynthesisError F) :
    Twin V (workBy uW uR one t p c work rem) (workBy uW' uR' one t' p' c' work' rem') fun _ _ => True := by
  have h0 := (UInt.constant_known (k := 64) (by omega) 0).weak (V := V)
  unfold workBy
  refine (twin_limbs (.cons (.constant true) (List.forall₂_drop 1 ht)) (by simp; omega)).bind fun tl tl' htl => ?_
  refine twin_numAlloc fun x hx => ?_
  have hX : AllocatedNum.Twin V (⟨work.toOption, x⟩ : AllocatedNum F) ⟨work'.toOption, x⟩ := ⟨_, _, _, hx⟩
  refine (hW _ _ hX).bind fun wb wb' hwb => ?_
  refine (twin_limbs (l := wb.map Boolean.is) (l' := wb'.map Boolean.is) ?_ (by simpa using hwb.2)).bind
    fun wl wl' hwl => ?_
  · rw [List.forall₂_map_left_iff, List.forall₂_map_right_iff]
    exact hwb.1.imp fun _ _ h => .is h
  refine twin_numAlloc fun y hy => ?_
  refine (hR _ _ ⟨_, _, _, hy⟩).bind fun rb rb' hrb => ?_
  refine (twin_limbs (l := rb.map Boolean.is) (l' := rb'.map Boolean.is) ?_ (by simpa using hrb.2)).bind
    fun rl rl' hrl => ?_
  · rw [List.forall₂_map_left_iff, List.forall₂_map_right_iff]
    exact hrb.1.imp fun _ _ h => .is h
  refine Twin.bind (R := fun r r' => List.Forall₂ (UInt.Weak V) r r' ∧ r'.length = 8)
    (twin_foldProg (A := fun i j => i = j ∧ i < 4)
      (RescueGadget.forall₂_refl fun i hi => ⟨rfl, List.mem_range.1 hi⟩) ?_
      ⟨forall₂_append hrl.1 (.cons h0 (.cons h0 (.cons h0 (.cons h0 .nil)))), by simp [hrl.2]⟩) fun w w' hw => ?_
  · rintro i _ s s' ⟨rfl, hi⟩ ⟨h1, h2⟩
    exact twin_mulOuter ho htl.1 htl.2 hwl.1 hwl.2 hi h1 h2
  obtain ⟨hw, hwl⟩ := hw
  refine (twin_index hw (by omega)).bind fun u u' hu => twin_enforce (UInt.lc_twin ho hu).1.symm (UInt.lc_twin ho hu).2 ?_
  refine (twin_index hw (by omega)).bind fun u u' hu => twin_enforce (UInt.lc_twin ho hu).1.symm (UInt.lc_twin ho hu).2 ?_
  refine (twin_index hw (by omega)).bind fun u u' hu => twin_enforce (UInt.lc_twin ho hu).1.symm (UInt.lc_twin ho hu).2 ?_
  refine (twin_index hw (by omega)).bind fun u u' hu => twin_enforce (UInt.lc_twin ho hu).1.symm (UInt.lc_twin ho hu).2 ?_
  refine (twin_index hw (by omega)).bind fun u u' hu => twin_enforce (by rw [(UInt.lc_twin ho hu).1])
    (LC.in_subVar (UInt.lc_twin ho hu).2 ho) ?_
  refine (twin_index hw (by omega)).bind fun u u' hu => twin_enforce (UInt.lc_twin ho hu).1.symm (UInt.lc_twin ho hu).2 ?_
  refine (twin_index hw (by omega)).bind fun u u' hu => twin_enforce (UInt.lc_twin ho hu).1.symm (UInt.lc_twin ho hu).2 ?_
  refine (twin_index hw (by omega)).bind fun u u' hu => twin_enforce (UInt.lc_twin ho hu).1.symm (UInt.lc_twin ho hu).2 ?_
  exact twin_enforce' (by rw [hc.lc, hp.lc]; rfl) (LC.in_subLC (LC.in_subLC hc.in hp.in) hX.in) trivial

theorem twinUnpack_fe (ho : V one) : TwinUnpack (F := F) V (fun n => unpackFe one (.ofAllocated n))
    fun n => unpackFe one (.ofAllocated n) := fun _ _ h =>
  Twin.mono (fun _ _ h => ⟨h.1, h.2.1⟩) (twin_unpackFe ho (.ofAllocated h))

theorem twinUnpack_with (ho : V one) {bits : List Bool} (hl : bits.length = 256) : TwinUnpack (F := F) V
    (fun n => unpackWith one (.ofAllocated n) bits) fun n => unpackFe one (.ofAllocated n) := by
  intro n n' hn
  have hn : Num.Twin V (.ofAllocated n) (.ofAllocated n') := .ofAllocated hn
  have hlen : (match (Num.ofAllocated n').value with
      | some value => (bytesBits (FieldApi.toBytes value).toList).map some
      | none => List.replicate 256 none).length = 256 := by
    split
    · rw [List.length_map, toBytes_length]
    · rw [List.length_replicate]
  unfold unpackFe unpackWith
  have key : ∀ vs vs' : List (Option Bool), vs.length = vs'.length →
      Twin V (mapProg (fun v => (AllocatedBit.alloc (orMissing v) : Prog F _)) vs)
        (mapProg (fun v => AllocatedBit.alloc (orMissing v)) vs') fun bs bs' =>
          List.Forall₂ (fun b b' => AllocatedBit.Twin V b b' ∧ b'.value = none) bs bs' ∧
            bs'.length = vs'.length := fun vs vs' h =>
    twin_mapProg (A := fun _ _ => True) (List.forall₂_iff_zip.2 ⟨h, fun _ => trivial⟩)
      fun _ _ _ => twin_bitAlloc'
  refine (key _ _ (((List.length_map _).trans hl).trans hlen.symm)).bind fun bs bs' hbs => ?_
  have h2 := hbs.1.imp fun _ _ h => h.1
  obtain ⟨e1, e2⟩ := packBits_twin (F := F) h2
  exact twin_enforce (by rw [e1, hn.lc]) (LC.in_subLC e2 (hn.in ho)) (Twin.ret ⟨h2, hbs.2.trans hlen⟩)

theorem twin_constrainWork (ho : V one) {t t' : List Boolean} (ht : List.Forall₂ (Boolean.Twin V) t t')
    (htl : t'.length = 256) {p p' c c' : AllocatedNum F} (hp : AllocatedNum.Twin V p p') (hc : AllocatedNum.Twin V c c')
    (work work' rem rem' : Except SynthesisError F) :
    Twin V (constrainWork one t p c work rem) (constrainWork one t' p' c' work' rem') fun _ _ => True :=
  twin_workBy ho (twinUnpack_fe ho) (twinUnpack_fe ho) ht htl hp hc _ _ _ _

/-! ### Values that are known -/

/-- The values of the bits -/
def Knows (bits : List Boolean) (vs : List Bool) : Prop := List.Forall₂ (fun b v => b.getValue = some v) bits vs

theorem sumBits_fold {bits : List Boolean} {vs : List Bool} (h : Knows bits vs) (i n : ℕ) :
    (bits.zipIdx i).foldl (fun acc b => match acc, b.1.getValue with
      | some acc, some bit => some (acc + if bit then 1 <<< b.2 else 0)
      | _, _ => none) (some n) = some (n + 2 ^ i * bitsValue vs) := by
  induction h generalizing i n with
  | nil => simp [bitsValue]
  | @cons b v _ _ h _ ih =>
    rw [List.zipIdx_cons, List.foldl_cons, h]
    simp only []
    rw [ih, bitsValue, pow_succ, Nat.shiftLeft_eq]
    congr 1
    cases v <;> simp <;> ring

theorem sumBits_eq {bits : List Boolean} {vs : List Bool} (h : Knows bits vs) : sumBits bits = some (bitsValue vs) := by
  exact (sumBits_fold h 0 0).trans (by simp)

theorem bytesValue_append (a b : List ℕ) : bytesValue (a ++ b) = bytesValue a + 256 ^ a.length * bytesValue b := by
  induction a with
  | nil => simp [bytesValue]
  | cons x a ih => rw [List.cons_append, bytesValue, ih, bytesValue, List.length_cons, pow_succ]; ring

theorem mantissaBytes_eq {bits : List Boolean} {vs : List Bool} (h : Knows bits vs) (hl : vs.length = 23) :
    ∃ a b c, mantissaBytes bits = some [a, b, c] ∧ bytesValue [a, b, c] = bitsValue vs ∧ a < 256 ∧ b < 256 ∧ c < 256 ∧
      a = bitsValue (vs.take 8) ∧ b = bitsValue ((vs.drop 8).take 8) ∧ c = bitsValue (vs.drop 16) := by
  have hl' : bits.length = 23 := by rw [h.length_eq, hl]
  have hc : Sha256.chunks 8 bits = [bits.take 8, (bits.drop 8).take 8, bits.drop 16] := by
    match bits, hl' with
    | [_, _, _, _, _, _, _, _, _, _, _, _, _, _, _, _, _, _, _, _, _, _, _], _ => simp [Sha256.chunks]
  have h1 := sumBits_eq (forall₂_take h 8)
  have h2 := sumBits_eq (forall₂_take (List.forall₂_drop 8 h) 8)
  have h3 := sumBits_eq (List.forall₂_drop 16 h)
  refine ⟨_, _, _, by rw [mantissaBytes, hc]; simp only [List.foldl_cons, List.foldl_nil, h1, h2, h3]; rfl, ?_, ?_, ?_, ?_,
    rfl, rfl, rfl⟩
  · have e : vs = vs.take 8 ++ ((vs.drop 8).take 8 ++ vs.drop 16) := by
      rw [show vs.drop 16 = (vs.drop 8).drop 8 by rw [List.drop_drop], List.take_append_drop, List.take_append_drop]
    conv_rhs => rw [e]
    rw [bitsValue_append, bitsValue_append, List.length_take, List.length_take, List.length_drop, hl]
    simp [bytesValue]
  · exact lt_of_lt_of_le (bitsValue_lt _) (by rw [List.length_take, hl]; norm_num)
  · exact lt_of_lt_of_le (bitsValue_lt _) (by rw [List.length_take, List.length_drop, hl]; norm_num)
  · exact lt_of_lt_of_le (bitsValue_lt _) (by rw [List.length_drop, hl]; norm_num)

theorem bytesValue_replicate (n : ℕ) : bytesValue (List.replicate n 0) = 0 := by
  induction n with
  | zero => rfl
  | succ n ih => rw [List.replicate_succ, bytesValue, ih]

/-- The bytes of the target -/
theorem targetBytes_eq {a b c s : ℕ} (h4 : 3 ≤ s) (h32 : s ≤ 32) : targetBytes [a, b, c] s =
    some (List.replicate (s - 3) 0 ++ [a, b, c] ++ List.replicate (32 - s) 0) := by
  have : ∀ s ∈ List.range 33, 3 ≤ s → (((List.replicate 32 0).set (s - 3) a).set (s - 2) b).set (s - 1) c =
      List.replicate (s - 3) 0 ++ [a, b, c] ++ List.replicate (32 - s) 0 := by
    simp only [List.mem_range]
    intro s hs h3
    interval_cases s <;> rfl
  rw [targetBytes, if_pos (by omega)]
  congr 1
  exact this s (List.mem_range.2 (by omega)) h4

theorem bytesValue_target (a b c s : ℕ) : bytesValue (List.replicate (s - 3) 0 ++ [a, b, c] ++ List.replicate (32 - s) 0) =
    bytesValue [a, b, c] * 256 ^ (s - 3) := by
  rw [bytesValue_append, bytesValue_append, bytesValue_replicate, bytesValue_replicate, List.length_replicate]
  ring

/-- What the blind side must know -/
def GoodTarget (t : Option ℕ) : Prop := ∀ x, t = some x → 0 < x ∧ x + 1 < 2 ^ 256

theorem workValue_pure {t' : Option ℕ} (h : GoodTarget t') :
    ∃ v, (workValue t' : Prog F (Except SynthesisError F)) = .pure v := by
  cases t' with
  | none => exact ⟨_, rfl⟩
  | some x =>
    obtain ⟨h1, h2⟩ := h x rfl
    rw [workValue]
    rw [if_neg (by omega)]
    simp only []
    have : (2 ^ 256 - 1 - x) / (x + 1) < 2 ^ 255 := by
      rw [Nat.div_lt_iff_lt_mul (by omega)]
      omega
    exact ⟨_, if_neg (by omega)⟩

theorem remainderValue_pure {t' : Option ℕ} (h : GoodTarget t') :
    ∃ v, (remainderValue t' : Prog F (Except SynthesisError F)) = .pure v := by
  cases t' with
  | none => exact ⟨_, rfl⟩
  | some x =>
    obtain ⟨h1, h2⟩ := h x rfl
    exact ⟨_, if_neg (by omega)⟩

theorem twin_workValue {t t' : Option ℕ} (h : GoodTarget t') :
    Twin V (workValue t : Prog F (Except SynthesisError F)) (workValue t') fun _ _ => True := by
  obtain ⟨v, hv⟩ := workValue_pure (F := F) h
  rw [hv]
  cases t with
  | none => trivial
  | some x =>
    rw [workValue]
    split
    · exact ⟨.ok 0, trivial⟩
    · simp only []
      split
      · exact ⟨.ok 0, trivial⟩
      · trivial

theorem twin_remainderValue {t t' : Option ℕ} (h : GoodTarget t') :
    Twin V (remainderValue t : Prog F (Except SynthesisError F)) (remainderValue t') fun _ _ => True := by
  obtain ⟨v, hv⟩ := remainderValue_pure (F := F) h
  rw [hv]
  cases t with
  | none => trivial
  | some x =>
    rw [remainderValue]
    split
    · exact ⟨.ok 0, trivial⟩
    · trivial

theorem twin_checkWork (ho : V one) {t t' : List Boolean} (ht : List.Forall₂ (Boolean.Twin V) t t')
    (htl : t'.length = 256) {tv tv' : Option ℕ} (htv : GoodTarget tv') {p p' c c' : AllocatedNum F}
    (hp : AllocatedNum.Twin V p p') (hc : AllocatedNum.Twin V c c') :
    Twin V (checkWork one t tv p c) (checkWork one t' tv' p' c') fun _ _ => True := by
  unfold checkWork
  refine (twin_workValue htv).bind fun _ _ _ => ?_
  refine (twin_remainderValue htv).bind fun _ _ _ => ?_
  exact twin_constrainWork ho ht htl hp hc _ _ _ _

/-- The blind side can compute the target if it knows the values. -/
def CompactBits.Good (c : CompactBits) : Prop :=
  (∀ s, c.size = some s → 4 ≤ s) ∧ ∀ m s, c.mantissa = some m → c.size = some s →
    ∃ t, targetBytes m s = some t ∧ 0 < bytesValue t ∧ bytesValue t + 1 < 2 ^ 256

theorem targetVal_pure {c' : CompactBits} (hg : c'.Good) :
    ∃ v, (c'.targetVal : Prog F _) = .pure v ∧ GoodTarget (v.map bytesValue) := by
  unfold CompactBits.targetVal
  rcases hm : c'.mantissa with _ | m
  · exact ⟨none, rfl, by simp [GoodTarget]⟩
  · rcases hs : c'.size with _ | s
    · exact ⟨none, rfl, by simp [GoodTarget]⟩
    · obtain ⟨t, e1, e2, e3⟩ := hg.2 m s hm hs
      refine ⟨some t, by simp only [e1, orPanic]; rfl, ?_⟩
      rintro x ⟨rfl⟩
      exact ⟨e2, e3⟩

theorem twin_unpack (ho : V one) {c c' : CompactBits} (h : CompactBits.Twin V c c') (hg : c'.Good) :
    Twin V (c.unpack one : Prog F _) (c'.unpack one) fun r r' =>
      (List.Forall₂ (Boolean.Twin V) r.1 r'.1 ∧ r'.1.length = 256) ∧ GoodTarget r'.2 := by
  unfold CompactBits.unpack
  refine twin_enforce h.mantissaSignBit.lc.symm (h.mantissaSignBit.in ho) ?_
  refine Twin.bind (R := fun _ t' => GoodTarget (t'.map bytesValue)) ?_ fun t t' ht => ?_
  · obtain ⟨v, e1, e2⟩ := targetVal_pure (F := F) hg
    rw [e1]
    unfold CompactBits.targetVal
    split
    · generalize targetBytes _ _ = o
      cases o with
      | none => exact ⟨none, e2⟩
      | some x => exact e2
    · exact e2
  · refine (twin_constrain ho h _ _ _ _ _ _ _ _).bind fun r r' hr => Twin.ret ⟨⟨hr.1.imp fun _ _ h => h.1, hr.2⟩, ht⟩

theorem twin_fromHeader {l l' : List Boolean} (h : List.Forall₂ (Boolean.Twin V) l l') (hl : l'.length = 640)
    {vs : List Bool} (hk : Knows l' vs) (hlow : 4 ≤ bitsValue ((vs.drop 600).take 8))
    (hhigh : bitsValue ((vs.drop 600).take 8) ≤ 32) (hm : bitsValue ((vs.drop 576).take 23) ≠ 0) :
    Twin V (CompactBits.fromHeader l : Prog F _) (CompactBits.fromHeader l') fun c c' =>
      CompactBits.Twin V c c' ∧ c'.Good := by
  have hl0 := h.length_eq
  have hvl : vs.length = 640 := by rw [← hk.length_eq, hl]
  unfold CompactBits.fromHeader
  refine Twin.bind (R := fun m m' => List.Forall₂ (Boolean.Twin V) m m' ∧ m' = (l'.drop 576).take 23) ?_ fun m m' hmm => ?_
  · rw [slice, slice, if_pos (by omega), if_pos (by omega)]
    exact Twin.ret ⟨List.forall₂_drop _ (forall₂_take h _), by rw [List.drop_take]⟩
  refine (twin_index h (by omega)).bind fun b b' hb => ?_
  refine Twin.bind (R := fun m m' => List.Forall₂ (Boolean.Twin V) m m' ∧ m' = (l'.drop 600).take 8) ?_ fun s s' hss => ?_
  · rw [slice, slice, if_pos (by omega), if_pos (by omega)]
    exact Twin.ret ⟨List.forall₂_drop _ (forall₂_take h _), by rw [List.drop_take]⟩
  obtain ⟨hm1, rfl⟩ := hmm
  obtain ⟨hs1, rfl⟩ := hss
  have hsv := sumBits_eq (forall₂_take (List.forall₂_drop 600 hk) 8)
  obtain ⟨x, y, z, e1, e2, hx, hy, hz, -⟩ := mantissaBytes_eq (forall₂_take (List.forall₂_drop 576 hk) 23)
    (by rw [List.length_take, List.length_drop]; omega)
  simp only []
  refine twin_guard ?_ (Twin.ret ⟨⟨hm1, hb, hs1, ?_⟩, ?_, ?_⟩)
  · rw [hsv]
    simpa using hlow
  · rw [List.length_take, List.length_drop]; omega
  · rw [hsv]
    rintro _ ⟨rfl⟩
    exact hlow
  · simp only [e1, hsv]
    rintro _ _ ⟨rfl⟩ ⟨rfl⟩
    refine ⟨_, targetBytes_eq (by omega) hhigh, ?_, ?_⟩
    · rw [bytesValue_target, e2]
      positivity
    · rw [bytesValue_target, e2]
      have h23 : bitsValue ((vs.drop 576).take 23) < 2 ^ 23 :=
        lt_of_lt_of_le (bitsValue_lt _) (Nat.pow_le_pow_right (by omega) (by rw [List.length_take]; omega))
      generalize bitsValue ((vs.drop 576).take 23) = M at *
      generalize bitsValue ((vs.drop 600).take 8) = S at *
      have : 256 ^ (S - 3) ≤ 256 ^ 29 := Nat.pow_le_pow_right (by omega) (by omega)
      have : M * 256 ^ (S - 3) ≤ 2 ^ 23 * 256 ^ 29 := Nat.mul_le_mul h23.le this
      norm_num at this ⊢
      omega

theorem twin_bitcoinBy (ho : V one) {old old' new new' : List AllocatedBit} (hold : BitsN V 928 old old')
    (hnew : BitsN V 928 new new') {vs : List Bool} (hk : new'.map (·.value) = vs.map some)
    {rest rest' : List Boolean → AllocatedNum F → AllocatedNum F → Prog F Unit}
    (hr : ∀ l l' p p' c c', List.Forall₂ (Boolean.Twin V) l l' → l'.length = 640 → Knows l' (Bitcoin.header vs) →
      AllocatedNum.Twin V p p' → AllocatedNum.Twin V c c' → Twin V (rest l p c) (rest' l' p' c') fun _ _ => True) :
    Twin V (bitcoinBy rest one old new) (bitcoinBy rest' one old' new') fun _ _ => True := by
  have hvl : vs.length = 928 := by
    have := congrArg List.length hk
    simp only [List.length_map] at this
    rw [← this, hnew.2]
  have hkn : Knows (new'.map Boolean.is) vs := by
    unfold Knows
    rw [List.forall₂_map_left_iff]
    rw [← List.forall₂_eq_eq_eq, List.forall₂_map_left_iff, List.forall₂_map_right_iff] at hk
    exact hk
  unfold bitcoinBy
  refine (twin_unpackPayloadBits ho hold).bind ?_
  rintro ⟨ph, pw, pb⟩ ⟨ph', pw', pb'⟩ ⟨h1, h2, h3, h4, h5⟩
  simp only at h1 h2 h3 h4 h5 ⊢
  refine (twin_unpackPayloadBits ho hnew).bind ?_
  rintro ⟨nh, nw, nb⟩ ⟨nh', nw', nb'⟩ ⟨g1, g2, g3, g4, g5⟩
  simp only at g1 g2 g3 g4 g5 ⊢
  have free : ∀ l : List AllocatedBit, ∀ b ∈ (l.map Boolean.is).drop 288, b.isConstant = false := by
    intro l b hb
    have := List.mem_of_mem_drop hb
    rw [List.mem_map] at this
    obtain ⟨x, -, rfl⟩ := this
    rfl
  refine twin_enforce (by rw [g1.lc, h1.lc]) (LC.in_subVar (LC.in_subLC g1.in h1.in) ho) ?_
  refine (twin_sha256d ho h3 (h4 ▸ free old') (by omega)).bind fun d d' hd => ?_
  refine (twin_slice g3 (by omega) (by omega)).bind fun s s' hs => ?_
  refine (twin_enforceEquality ho hs.1 hd.1 (by omega)).bind fun _ _ _ => ?_
  refine (twin_sha256d ho g3 (g4 ▸ free new') (by omega)).bind fun _ _ _ => ?_
  have hkh : Knows nb' (Bitcoin.header vs) := by
    rw [g4, Bitcoin.header, Bitcoin.field, List.take_of_length_le (by rw [List.length_drop]; omega)]
    exact List.forall₂_drop _ hkn
  exact hr _ _ _ _ _ _ g3 g5 hkh h2 g2

/-- The circuit of the Bitcoin example asks for the same constraints, if the blind side knows a payload on which
the computations succeed. -/
theorem twin_bitcoin (ho : V one) {old old' new new' : List AllocatedBit} (hold : BitsN V 928 old old')
    (hnew : BitsN V 928 new new') {vs : List Bool} (hk : new'.map (·.value) = vs.map some) (hf : Bitcoin.Fine vs) :
    Twin V ((bitcoin : RecursiveCircuit F).synthesize one old new) (bitcoin.synthesize one old' new') fun _ _ => True := by
  rw [bitcoin_eq, bitcoin_eq]
  refine twin_bitcoinBy ho hold hnew hk fun l l' p p' c c' g3 g5 hkh h2 g2 => ?_
  refine (twin_fromHeader g3 g5 hkh hf.low hf.high hf.mantissa).bind fun c c' hc => ?_
  refine (twin_unpack ho hc.1 hc.2).bind ?_
  rintro ⟨t, tv⟩ ⟨t', tv'⟩ ⟨k1, k2⟩
  exact twin_checkWork ho k1.1 k1.2 k2 h2 g2

/-- The variant asks for the same constraints. -/
theorem twin_bitcoinWith (ho : V one) {old old' new new' : List AllocatedBit} (hold : BitsN V 928 old old')
    (hnew : BitsN V 928 new new') {vs : List Bool} (hk : new'.map (·.value) = vs.map some) (hf : Bitcoin.Fine vs)
    (ts : List Bool) (x b : F) {wv rv : List Bool} (hw : wv.length = 256) (hr : rv.length = 256) :
    Twin V (bitcoinWith vs ts x b wv rv one old new) ((bitcoin : RecursiveCircuit F).synthesize one old' new')
      fun _ _ => True := by
  rw [bitcoin_eq, bitcoinWith]
  refine twin_bitcoinBy ho hold hnew hk fun l l' p p' c c' g3 g5 hkh h2 g2 => ?_
  refine (twin_fromHeader g3 g5 hkh hf.low hf.high hf.mantissa).bind fun c c' hc => ?_
  refine Twin.bind (R := fun r r' => (List.Forall₂ (Boolean.Twin V) r.1 r'.1 ∧ r'.1.length = 256) ∧ GoodTarget r'.2) ?_ ?_
  · unfold CompactBits.unpackBy CompactBits.unpack
    refine twin_enforce hc.1.mantissaSignBit.lc.symm (hc.1.mantissaSignBit.in ho) ?_
    obtain ⟨v, e1, e2⟩ := targetVal_pure (F := F) hc.2
    rw [e1]
    exact (twin_constrain ho hc.1 _ _ _ _ _ _ _ _).bind fun r r' hr =>
      Twin.ret ⟨⟨hr.1.imp fun _ _ h => h.1, hr.2⟩, e2⟩
  · rintro ⟨t, tv⟩ ⟨t', tv'⟩ ⟨k1, k2⟩
    obtain ⟨v1, e3⟩ := workValue_pure (F := F) k2
    obtain ⟨v2, e4⟩ := remainderValue_pure (F := F) k2
    simp only [checkWork, e3, e4]
    exact twin_workBy ho (twinUnpack_with ho hw) (twinUnpack_with ho hr) k1.1 k1.2 h2 g2 _ _ _ _

/-- The circuit of the first example asks for the same constraints. -/
theorem twin_paper {old old' new new' : List AllocatedBit} (hold : BitsN V 8 old old') (hnew : BitsN V 8 new new') :
    Twin V ((paper : RecursiveCircuit F).synthesize one old new) (paper.synthesize one old' new') fun _ _ => True := by
  unfold paper
  refine twin_guard (by rw [hold.2]; simp) (twin_guard (by rw [hnew.2]; simp) ?_)
  exact twin_multiply fun _ _ _ _ _ _ _ => Twin.ret trivial

end Example
end Halo
