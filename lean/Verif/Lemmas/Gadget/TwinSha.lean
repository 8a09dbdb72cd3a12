import Verif.Lemmas.Gadget.TwinWord
import Verif.Lemmas.Gadget.Sha256
/-!
# The SHA-256 gadget asks for the same constraints, whatever values are known
-/
set_option linter.unusedSectionVars false
namespace Halo
namespace Circuit
namespace Sha256
open UInt
variable {F : Type} [Field F] {V : Var → Prop} {one : Var}

theorem twin_foldProg_at {α σ σ' : Type} {f : σ → α → Prog F σ} {f' : σ' → α → Prog F σ'} (I : ℕ → σ → σ' → Prop) :
    ∀ {xs : List α} {s : σ} {s' : σ'} (n : ℕ), I n s s' →
      (∀ i x s s', xs[i]? = some x → I (n + i) s s' → Twin V (f s x) (f' s' x) (I (n + i + 1))) →
      Twin V (foldProg f xs s) (foldProg f' xs s') (I (n + xs.length))
  | [], _, _, _, h, _ => Twin.ret h
  | x :: xs, s, s', n, h, hf => (hf 0 x s s' rfl h).bind fun s s' hs => by
      have := twin_foldProg_at I (xs := xs) (s := s) (s' := s') (n + 1) hs fun i x s s' hx hI => by
        have := hf (i + 1) x s s' (by simpa using hx)
        rw [show n + (i + 1) = n + 1 + i by omega] at this
        exact this hI
      rwa [show n + 1 + xs.length = n + (x :: xs).length by simp; omega] at this

/-- `r` is a constant or free, as `u` is. -/
def Follow (V : Var → Prop) (u u' r r' : UInt 32) : Prop := (Known u u' ∧ Known r r') ∨ (Free V u u' ∧ Free V r r')

theorem Follow.strict {u u' r r' : UInt 32} (h : Follow V u u' r r') : Strict V r r' := h.imp And.right And.right

theorem twin_rotrs {u u' : UInt 32} (h : Strict V u u') (i j : ℕ) :
    Twin V ((u.rotr i).xor (u.rotr j) : Prog F (UInt 32)) ((u'.rotr i).xor (u'.rotr j)) (Follow V u u') := by
  rcases h with h | h
  · exact Twin.mono (fun _ _ g => .inl ⟨h, g⟩) (known_xor (h.rotr i) (h.rotr j))
  · exact Twin.mono (fun _ _ g => .inr ⟨h, g⟩) (free_xor (h.rotr i) (h.1.rotr j))

theorem twin_rotr3 {u u' r r' : UInt 32} (h : Follow V u u' r r') (i : ℕ) :
    Twin V (r.xor (u.rotr i) : Prog F (UInt 32)) (r'.xor (u'.rotr i)) (Follow V u u') := by
  rcases h with ⟨h, g⟩ | ⟨h, g⟩
  · exact Twin.mono (fun _ _ g => .inl ⟨h, g⟩) (known_xor g (h.rotr i))
  · exact Twin.mono (fun _ _ g => .inr ⟨h, g⟩) (free_xor g (h.1.rotr i))

theorem twin_shr3 {u u' r r' : UInt 32} (h : Follow V u u' r r') (i : ℕ) :
    Twin V (r.xor (u.shr i) : Prog F (UInt 32)) (r'.xor (u'.shr i)) (Follow V u u') := by
  rcases h with ⟨h, g⟩ | ⟨h, g⟩
  · exact Twin.mono (fun _ _ g => .inl ⟨h, g⟩) (known_xor g (h.shr i))
  · exact Twin.mono (fun _ _ g => .inr ⟨h, g⟩) (free_xor g (h.1.shr i))

theorem Free.exists {u u' : UInt 32} (h : Free V u u') : ∃ b ∈ u'.bits, b.isConstant = false := by
  have hl : 0 < u'.bits.length := by rw [h.1.2]; omega
  exact ⟨_, List.getElem_mem hl, h.2 _ (List.getElem_mem hl)⟩

/-- All operands are known or one is free. -/
def Ops (V : Var → Prop) (us us' : List (UInt 32)) : Prop :=
  List.Forall₂ (Weak V) us us' ∧ ∃ u ∈ us', ∃ b ∈ u.bits, b.isConstant = false

theorem Ops.free (ho : V one) {us us' : List (UInt 32)} (h : Ops V us us') (h2 : 2 ≤ us'.length)
    (h10 : us'.length ≤ 10) : Twin V (addmany one us : Prog F (UInt 32)) (addmany one us') (Free V) :=
  free_addmany ho h.1 h2 h10 h.2

/-- Strict operands -/
theorem strict_addmany (ho : V one) {us us' : List (UInt 32)} (h : List.Forall₂ (Strict V) us us')
    (h2 : 2 ≤ us'.length) (h10 : us'.length ≤ 10) :
    Twin V (addmany one us : Prog F (UInt 32)) (addmany one us') (Strict V) := by
  have : List.Forall₂ Known us us' ∨ ∃ u ∈ us', ∃ b ∈ u.bits, b.isConstant = false := by
    clear h2 h10
    induction h with
    | nil => exact .inl .nil
    | cons h _ ih =>
      rcases h with h | h
      · rcases ih with ih | ⟨u, hu, hb⟩
        · exact .inl (.cons h ih)
        · exact .inr ⟨u, by simp [hu], hb⟩
      · exact .inr ⟨_, by simp, Free.exists h⟩
  rcases this with h' | h'
  · exact Twin.mono (fun _ _ h => .inl h) (known_addmany h' h2 h10)
  · exact Twin.mono (fun _ _ h => .inr h) (free_addmany ho (h.imp fun _ _ h => h.weak) h2 h10 h')

theorem twin_extend (ho : V one) {w w' : List (UInt 32)} (h : List.Forall₂ (Strict V) w w') {i : ℕ}
    (hi : w'.length = i) (h16 : 16 ≤ i) :
    Twin V (extend one w i : Prog F (List (UInt 32))) (extend one w' i) fun r r' =>
      List.Forall₂ (Strict V) r r' ∧ r'.length = i + 1 := by
  unfold extend
  refine (twin_index h (by omega)).bind fun w15 w15' h15 => ?_
  refine (twin_rotrs h15 _ _).bind fun s0 s0' hs0 => ?_
  refine (twin_shr3 hs0 _).bind fun s0 s0' hs0 => ?_
  refine (twin_index h (by omega)).bind fun w2 w2' h2 => ?_
  refine (twin_rotrs h2 _ _).bind fun s1 s1' hs1 => ?_
  refine (twin_shr3 hs1 _).bind fun s1 s1' hs1 => ?_
  refine (twin_index h (by omega)).bind fun w16 w16' hw16 => ?_
  refine (twin_index h (by omega)).bind fun w7 w7' h7 => ?_
  refine (strict_addmany ho (.cons hw16 (.cons hs0.strict (.cons h7 (.cons hs1.strict .nil)))) (by simp)
    (by simp)).bind fun t t' ht => Twin.ret ⟨forall₂_append h (.cons ht .nil), by simp [hi]⟩

theorem twin_schedule (ho : V one) {w w' : List (UInt 32)} (h : List.Forall₂ (Strict V) w w')
    (hl : w'.length = 16) :
    Twin V (foldProg (extend one) ((List.range 48).map (· + 16)) w : Prog F (List (UInt 32)))
      (foldProg (extend one) ((List.range 48).map (· + 16)) w') fun r r' =>
      List.Forall₂ (Strict V) r r' ∧ r'.length = 64 := by
  refine Twin.mono ?_ (twin_foldProg_at (fun n r r' => List.Forall₂ (Strict V) r r' ∧ r'.length = n) 16
    ⟨h, hl⟩ ?_)
  · rintro r r' h
    simpa using h
  · rintro i x s s' hx ⟨h1, h2⟩
    obtain ⟨-, rfl⟩ : i < 48 ∧ i + 16 = x := by
      rw [List.getElem?_map, Option.map_eq_some_iff] at hx
      obtain ⟨j, hj, rfl⟩ := hx
      rw [List.getElem?_eq_some_iff] at hj
      obtain ⟨h3, rfl⟩ := hj
      simpa using h3
    rw [show 16 + i = i + 16 by omega] at h2 ⊢
    exact twin_extend ho h1 h2 (by omega)

/-- A working variable that is free -/
def Maybe.Free (V : Var → Prop) : Maybe → Maybe → Prop
  | .concrete u, .concrete u' => UInt.Free V u u'
  | .deferred us, .deferred us' => Ops V us us' ∧ 2 ≤ us'.length ∧ us'.length ≤ 9
  | _, _ => False

/-- A working variable that is known -/
def Maybe.Known : Maybe → Maybe → Prop
  | .concrete u, .concrete u' => UInt.Known u u'
  | .deferred us, .deferred us' => List.Forall₂ UInt.Known us us' ∧ 2 ≤ us'.length ∧ us'.length ≤ 9
  | _, _ => False

theorem free_compute (ho : V one) {m m' : Maybe} (h : Maybe.Free V m m') :
    Twin V (m.compute one [] : Prog F (UInt 32)) (m'.compute one []) (UInt.Free V) := by
  cases m with
  | concrete u => cases m' with
    | concrete u' => exact h
    | deferred us' => exact h.elim
  | deferred us => cases m' with
    | concrete u' => exact h.elim
    | deferred us' =>
      simp only [Maybe.compute, List.append_nil]
      exact h.1.free ho h.2.1 (by have := h.2.2; omega)

theorem known_compute {m m' : Maybe} (h : Maybe.Known m m') :
    Twin V (m.compute one [] : Prog F (UInt 32)) (m'.compute one []) UInt.Known := by
  cases m with
  | concrete u => cases m' with
    | concrete u' => exact h
    | deferred us' => exact h.elim
  | deferred us => cases m' with
    | concrete u' => exact h.elim
    | deferred us' =>
      simp only [Maybe.compute, List.append_nil]
      exact known_addmany h.1 h.2.1 (by have := h.2.2; omega)

/-- The working variables, up to values: all are known, or the newest are free. -/
inductive Work.Twin (V : Var → Prop) (s s' : Work) : Prop
  | known (a : Maybe.Known s.a s'.a) (b : UInt.Known s.b s'.b) (c : UInt.Known s.c s'.c) (d : UInt.Known s.d s'.d)
      (e : Maybe.Known s.e s'.e) (f : UInt.Known s.f s'.f) (g : UInt.Known s.g s'.g) (h : UInt.Known s.h s'.h)
  | free (a : Maybe.Free V s.a s'.a) (b : Strict V s.b s'.b) (c : Strict V s.c s'.c) (d : Strict V s.d s'.d)
      (e : Maybe.Free V s.e s'.e) (f : Strict V s.f s'.f) (g : Strict V s.g s'.g) (h : Strict V s.h s'.h)

/-- Both variables have been deferred. -/
def Work.Deferred (s : Work) : Prop := s.a.isDeferred ∧ s.e.isDeferred

theorem twin_round (ho : V one) {w w' : List (UInt 32)} (hw : List.Forall₂ (Strict V) w w') (hl : w'.length = 64)
    {s s' : Work} (h : Work.Twin V s s') {i : ℕ} (hi : i < 64) :
    Circuit.Twin V (round one w s i : Prog F Work) (round one w' s' i) fun r r' => Work.Twin V r r' ∧ r'.Deferred := by
  have hk : (index roundConstants i : Prog F _) = .pure (roundConstants.getD i 0) := by
    have : i < roundConstants.length := hi
    simp [index, List.getElem?_eq_getElem this, orPanic]
    rfl
  have hkk := constant_known (k := 32) (by omega) (roundConstants.getD i 0)
  unfold round
  rw [hk]
  cases h with
  | known a b c d e f g h =>
    refine (known_compute e).bind fun ne ne' he => ?_
    refine (known_xor (he.rotr 6) (he.rotr 11)).bind fun _ _ hs1 => ?_
    refine (known_xor hs1 (he.rotr 25)).bind fun s1 s1' hs1 => ?_
    refine (known_ch he f g).bind fun ch ch' hch => ?_
    refine Twin.bind (R := fun a a' => a = a' ∧ a' = roundConstants.getD i 0) ⟨rfl, rfl⟩ ?_
    rintro _ _ ⟨rfl, rfl⟩
    refine (twin_index hw (by omega)).bind fun wi wi' hwi => ?_
    refine (known_compute a).bind fun na na' ha => ?_
    refine (known_xor (ha.rotr 2) (ha.rotr 13)).bind fun _ _ hs0 => ?_
    refine (known_xor hs0 (ha.rotr 22)).bind fun s0 s0' hs0 => ?_
    refine (known_maj ha b c).bind fun mj mj' hmj => Twin.ret ⟨?_, trivial, trivial⟩
    rcases hwi with hwi | hwi
    · refine .known ⟨.cons h (.cons hs1 (.cons hch (.cons hkk (.cons hwi (.cons hs0 (.cons hmj .nil)))))), ?_, ?_⟩ ha b c
        ⟨.cons h (.cons hs1 (.cons hch (.cons hkk (.cons hwi (.cons d .nil))))), ?_, ?_⟩ he f g <;> simp
    · refine .free ⟨⟨.cons h.weak (.cons hs1.weak (.cons hch.weak (.cons hkk.weak (.cons hwi.1 (.cons hs0.weak
          (.cons hmj.weak .nil)))))), wi', by simp, Free.exists hwi⟩, ?_, ?_⟩ (.inl ha) (.inl b) (.inl c)
        ⟨⟨.cons h.weak (.cons hs1.weak (.cons hch.weak (.cons hkk.weak (.cons hwi.1 (.cons d.weak .nil))))),
          wi', by simp, Free.exists hwi⟩, ?_, ?_⟩ (.inl he) (.inl f) (.inl g) <;> simp
  | free a b c d e f g h =>
    refine (free_compute ho e).bind fun ne ne' he => ?_
    refine (free_xor (he.rotr 6) (he.1.rotr 11)).bind fun _ _ hs1 => ?_
    refine (free_xor hs1 (he.1.rotr 25)).bind fun s1 s1' hs1 => ?_
    refine (weak_ch ho he.1 f.weak g.weak).bind fun ch ch' hch => ?_
    refine Twin.bind (R := fun a a' => a = a' ∧ a' = roundConstants.getD i 0) ⟨rfl, rfl⟩ ?_
    rintro _ _ ⟨rfl, rfl⟩
    refine (twin_index hw (by omega)).bind fun wi wi' hwi => ?_
    refine (free_compute ho a).bind fun na na' ha => ?_
    refine (free_xor (ha.rotr 2) (ha.1.rotr 13)).bind fun _ _ hs0 => ?_
    refine (free_xor hs0 (ha.1.rotr 22)).bind fun s0 s0' hs0 => ?_
    refine (weak_maj ho ha.1 b.weak c.weak).bind fun mj mj' hmj => Twin.ret ⟨?_, trivial, trivial⟩
    refine .free ⟨⟨.cons h.weak (.cons hs1.1 (.cons hch (.cons hkk.weak (.cons hwi.weak (.cons hs0.1
          (.cons hmj .nil)))))), s1', by simp, Free.exists hs1⟩, ?_, ?_⟩ (.inr ha) b c
        ⟨⟨.cons h.weak (.cons hs1.1 (.cons hch (.cons hkk.weak (.cons hwi.weak (.cons d.weak .nil))))),
          s1', by simp, Free.exists hs1⟩, ?_, ?_⟩ (.inr he) f g <;> simp

theorem twin_rounds (ho : V one) {w w' : List (UInt 32)} (hw : List.Forall₂ (Strict V) w w') (hl : w'.length = 64)
    {s s' : Work} (h : Work.Twin V s s') :
    Circuit.Twin V (foldProg (round one w) (List.range 64) s : Prog F Work) (foldProg (round one w') (List.range 64) s')
      fun r r' => Work.Twin V r r' ∧ r'.Deferred := by
  refine Twin.mono ?_ (twin_foldProg_at (fun n r r' => Work.Twin V r r' ∧ (0 < n → r'.Deferred)) 0
    ⟨h, by simp⟩ ?_)
  · exact fun r r' h => ⟨h.1, h.2 (by simp)⟩
  · rintro i x s s' hx ⟨h1, -⟩
    rw [List.getElem?_eq_some_iff] at hx
    obtain ⟨h2, rfl⟩ := hx
    refine Twin.mono (fun r r' h => ⟨h.1, fun _ => h.2⟩) (twin_round ho hw hl h1 ?_)
    simpa using h2

/-- Eight words of a chaining value, up to values: all are known, or the first and fifth are free. -/
def CurTwin (V : Var → Prop) (cur cur' : List (UInt 32)) : Prop :=
  cur'.length = 8 ∧ (List.Forall₂ UInt.Known cur cur' ∨
    List.Forall₂ (Strict V) cur cur' ∧ (∀ u u', cur[0]? = some u → cur'[0]? = some u' → UInt.Free V u u') ∧
      ∀ u u', cur[4]? = some u → cur'[4]? = some u' → UInt.Free V u u')

theorem twin_words {input input' : List Boolean} (h : List.Forall₂ (Boolean.Twin V) input input')
    (hl : input'.length = 512) (hs : ∀ c ∈ chunks 32 input', (∀ b ∈ c, b.isConstant = true) ∨ ∀ b ∈ c, b.isConstant = false) :
    Circuit.Twin V (mapProg (fun e => orPanic (UInt.fromBitsBe e)) (chunks 32 input) : Prog F (List (UInt 32)))
      (mapProg (fun e => orPanic (UInt.fromBitsBe e)) (chunks 32 input')) fun r r' =>
      List.Forall₂ (Strict V) r r' ∧ r'.length = 16 := by
  have hl' : input.length = 512 := by rw [h.length_eq, hl]
  rw [chunks_eq_pieces (by omega) (by omega)] at hs ⊢
  rw [chunks_eq_pieces (by omega) (by omega)]
  refine Twin.mono ?_ (twin_mapProg (R := Strict V) (RescueGadget.forall₂_mem (forall₂_pieces h 32)) ?_)
  · rintro r r' ⟨h1, h2⟩
    exact ⟨h1, by rw [h2]; simp [Fips180.pieces, hl]⟩
  · rintro x x' ⟨h1, h2⟩
    have hlen := length_of_mem_pieces h2
    rw [fromBitsBe_eq, fromBitsBe_eq]
    rcases hs x' h2 with h3 | h3
    · have : List.Forall₂ KnownBit x x' := by
        refine (RescueGadget.forall₂_mem h1).imp fun b b' hb => ⟨?_, h3 b' hb.2⟩
        have := h3 b' hb.2
        obtain ⟨hb, -⟩ := hb
        cases hb with
        | constant => rfl
        | _ => simp [Boolean.isConstant] at this
      obtain ⟨u, u', e1, e2, e3⟩ := fromBits_known (k := 32) (List.rel_reverse this) (by simpa using hlen)
      rw [e1, e2]
      exact .inl e3
    · have : List.Forall₂ (FreeBit V) x x' :=
        (RescueGadget.forall₂_mem h1).imp fun b b' hb => ⟨hb.1, h3 b' hb.2⟩
      obtain ⟨u, u', e1, e2, e3⟩ := fromBits_free (k := 32) (List.rel_reverse this) (by simpa using hlen)
      rw [e1, e2]
      exact .inr e3

theorem known_compute_add {m m' : Maybe} {u u' : UInt 32} (h : Maybe.Known m m') (hd : m'.isDeferred)
    (hu : UInt.Known u u') : Circuit.Twin V (m.compute one [u] : Prog F (UInt 32)) (m'.compute one [u']) UInt.Known := by
  cases m with
  | concrete u => cases m' with
    | concrete u' => exact hd.elim
    | deferred us' => exact h.elim
  | deferred us => cases m' with
    | concrete u' => exact h.elim
    | deferred us' =>
      obtain ⟨h1, h2, h3⟩ := h
      exact known_addmany (forall₂_append h1 (.cons hu .nil)) (by simp; omega) (by simp; omega)

theorem free_compute_add (ho : V one) {m m' : Maybe} {u u' : UInt 32} (h : Maybe.Free V m m') (hd : m'.isDeferred)
    (hu : Weak V u u') : Circuit.Twin V (m.compute one [u] : Prog F (UInt 32)) (m'.compute one [u']) (UInt.Free V) := by
  cases m with
  | concrete u => cases m' with
    | concrete u' => exact hd.elim
    | deferred us' => exact h.elim
  | deferred us => cases m' with
    | concrete u' => exact h.elim
    | deferred us' =>
      obtain ⟨⟨h1, v, hv, hb⟩, h2, h3⟩ := h
      exact free_addmany ho (forall₂_append h1 (.cons hu .nil)) (by simp; omega) (by simp; omega) ⟨v, by simp [hv], hb⟩

theorem mixed_compute_add (ho : V one) {m m' : Maybe} {u u' : UInt 32} (h : Maybe.Known m m') (hd : m'.isDeferred)
    (hu : UInt.Free V u u') :
    Circuit.Twin V (m.compute one [u] : Prog F (UInt 32)) (m'.compute one [u']) (UInt.Free V) := by
  cases m with
  | concrete u => cases m' with
    | concrete u' => exact absurd hd (by simp [Maybe.isDeferred])
    | deferred us' => exact h.elim
  | deferred us => cases m' with
    | concrete u' => exact h.elim
    | deferred us' =>
      obtain ⟨h1, h2, h3⟩ := h
      exact free_addmany ho (forall₂_append (h1.imp fun _ _ h => h.weak) (.cons hu.1 .nil)) (by simp; omega)
        (by simp; omega) ⟨u', by simp, Free.exists hu⟩

theorem known_add2 {u u' v v' : UInt 32} (h : UInt.Known u u') (g : UInt.Known v v') :
    Circuit.Twin V (addmany one [u, v] : Prog F (UInt 32)) (addmany one [u', v']) UInt.Known :=
  known_addmany (.cons h (.cons g .nil)) (by simp) (by simp)

theorem strict_add2 (ho : V one) {u u' v v' : UInt 32} (h : Strict V u u') (g : Strict V v v') :
    Circuit.Twin V (addmany one [u, v] : Prog F (UInt 32)) (addmany one [u', v']) (Strict V) :=
  strict_addmany ho (.cons h (.cons g .nil)) (by simp) (by simp)

theorem forall₂_eight {α β : Type} {R : α → β → Prop} {l : List α} {l' : List β} (h : List.Forall₂ R l l')
    (hl : l'.length = 8) : ∃ a0 a1 a2 a3 a4 a5 a6 a7 b0 b1 b2 b3 b4 b5 b6 b7, l = [a0, a1, a2, a3, a4, a5, a6, a7] ∧
      l' = [b0, b1, b2, b3, b4, b5, b6, b7] ∧ R a0 b0 ∧ R a1 b1 ∧ R a2 b2 ∧ R a3 b3 ∧ R a4 b4 ∧ R a5 b5 ∧ R a6 b6 ∧
      R a7 b7 := by
  match l', hl with
  | [b0, b1, b2, b3, b4, b5, b6, b7], _ =>
    cases h with | cons h0 h => cases h with | cons h1 h => cases h with | cons h2 h => cases h with | cons h3 h =>
    cases h with | cons h4 h => cases h with | cons h5 h => cases h with | cons h6 h => cases h with | cons h7 h =>
    cases h
    exact ⟨_, _, _, _, _, _, _, _, _, _, _, _, _, _, _, _, rfl, rfl, h0, h1, h2, h3, h4, h5, h6, h7⟩

theorem CurTwin.forall₂ {cur cur' : List (UInt 32)} (h : CurTwin V cur cur') : List.Forall₂ (Strict V) cur cur' :=
  h.2.elim (fun h => h.imp fun _ _ h => .inl h) And.left

theorem twin_compress (ho : V one) {input input' : List Boolean} (h : List.Forall₂ (Boolean.Twin V) input input')
    (hl : input'.length = 512)
    (hs : ∀ c ∈ chunks 32 input', (∀ b ∈ c, b.isConstant = true) ∨ ∀ b ∈ c, b.isConstant = false)
    {cur cur' : List (UInt 32)} (hc : CurTwin V cur cur') :
    Circuit.Twin V (compress one input cur : Prog F (List (UInt 32))) (compress one input' cur') (CurTwin V) := by
  unfold compress
  refine twin_guard (by have := hc.1; omega) ?_
  refine (twin_words h hl hs).bind fun w w' hw => ?_
  refine (twin_schedule ho hw.1 hw.2).bind fun w w' hw => ?_
  refine twin_guard (by have := hw.2; omega) ?_
  have hst := forall₂_eight hc.forall₂ hc.1
  obtain ⟨a0, a1, a2, a3, a4, a5, a6, a7, b0, b1, b2, b3, b4, b5, b6, b7, rfl, rfl, s0, s1, s2, s3, s4, s5, s6, s7⟩ := hst
  simp only []
  refine (twin_rounds ho hw.1 hw.2 (s' := ⟨.concrete b0, b1, b2, b3, .concrete b4, b5, b6, b7⟩) ?_).bind
    fun s s' ⟨hs, hd⟩ => ?_
  · rcases hc.2 with hk | ⟨-, hf0, hf4⟩
    · cases hk with | cons h0 hk => cases hk with | cons h1 hk => cases hk with | cons h2 hk =>
      cases hk with | cons h3 hk => cases hk with | cons h4 hk => cases hk with | cons h5 hk =>
      cases hk with | cons h6 hk => cases hk with | cons h7 hk =>
      exact .known h0 h1 h2 h3 h4 h5 h6 h7
    · exact .free (hf0 _ _ rfl rfl) s1 s2 s3 (hf4 _ _ rfl rfl) s5 s6 s7
  cases hs with
  | known a b c d e f g h =>
    rcases hc.2 with hk | ⟨-, hf0, hf4⟩
    · cases hk with | cons h0 hk => cases hk with | cons h1 hk => cases hk with | cons h2 hk =>
      cases hk with | cons h3 hk => cases hk with | cons h4 hk => cases hk with | cons h5 hk =>
      cases hk with | cons h6 hk => cases hk with | cons h7 hk =>
      refine (known_compute_add a hd.1 h0).bind fun _ _ r0 => ?_
      refine (known_add2 h1 b).bind fun _ _ r1 => ?_
      refine (known_add2 h2 c).bind fun _ _ r2 => ?_
      refine (known_add2 h3 d).bind fun _ _ r3 => ?_
      refine (known_compute_add e hd.2 h4).bind fun _ _ r4 => ?_
      refine (known_add2 h5 f).bind fun _ _ r5 => ?_
      refine (known_add2 h6 g).bind fun _ _ r6 => ?_
      refine (known_add2 h7 h).bind fun _ _ r7 => Twin.ret ⟨rfl, .inl ?_⟩
      exact .cons r0 (.cons r1 (.cons r2 (.cons r3 (.cons r4 (.cons r5 (.cons r6 (.cons r7 .nil)))))))
    · refine (mixed_compute_add ho a hd.1 (hf0 _ _ rfl rfl)).bind fun _ _ r0 => ?_
      refine (strict_add2 ho s1 (.inl b)).bind fun _ _ r1 => ?_
      refine (strict_add2 ho s2 (.inl c)).bind fun _ _ r2 => ?_
      refine (strict_add2 ho s3 (.inl d)).bind fun _ _ r3 => ?_
      refine (mixed_compute_add ho e hd.2 (hf4 _ _ rfl rfl)).bind fun _ _ r4 => ?_
      refine (strict_add2 ho s5 (.inl f)).bind fun _ _ r5 => ?_
      refine (strict_add2 ho s6 (.inl g)).bind fun _ _ r6 => ?_
      refine (strict_add2 ho s7 (.inl h)).bind fun _ _ r7 => Twin.ret ⟨rfl, .inr ⟨?_, ?_, ?_⟩⟩
      · exact .cons (.inr r0) (.cons r1 (.cons r2 (.cons r3 (.cons (.inr r4) (.cons r5 (.cons r6 (.cons r7 .nil)))))))
      · rintro _ _ ⟨rfl⟩ ⟨rfl⟩; exact r0
      · rintro _ _ ⟨rfl⟩ ⟨rfl⟩; exact r4
  | free a b c d e f g h =>
    refine (free_compute_add ho a hd.1 s0.weak).bind fun _ _ r0 => ?_
    refine (strict_add2 ho s1 b).bind fun _ _ r1 => ?_
    refine (strict_add2 ho s2 c).bind fun _ _ r2 => ?_
    refine (strict_add2 ho s3 d).bind fun _ _ r3 => ?_
    refine (free_compute_add ho e hd.2 s4.weak).bind fun _ _ r4 => ?_
    refine (strict_add2 ho s5 f).bind fun _ _ r5 => ?_
    refine (strict_add2 ho s6 g).bind fun _ _ r6 => ?_
    refine (strict_add2 ho s7 h).bind fun _ _ r7 => Twin.ret ⟨rfl, .inr ⟨?_, ?_, ?_⟩⟩
    · exact .cons (.inr r0) (.cons r1 (.cons r2 (.cons r3 (.cons (.inr r4) (.cons r5 (.cons r6 (.cons r7 .nil)))))))
    · rintro _ _ ⟨rfl⟩ ⟨rfl⟩; exact r0
    · rintro _ _ ⟨rfl⟩ ⟨rfl⟩; exact r4

/-- Within each group of 32, all bits or no bits are constants. -/
def Blocky (l : List Boolean) : Prop :=
  ∀ (i j : ℕ) b c, i / 32 = j / 32 → l[i]? = some b → l[j]? = some c → b.isConstant = c.isConstant

theorem Blocky.piece {l p : List Boolean} (h : Blocky l) {n : ℕ} (hn : n % 32 = 0) (hp : p ∈ Fips180.pieces n l) :
    Blocky p := by
  rw [Fips180.pieces, List.mem_map] at hp
  obtain ⟨k, -, rfl⟩ := hp
  intro i j b c hij hi hj
  rw [List.getElem?_take, List.getElem?_drop] at hi hj
  split at hi
  swap
  · cases hi
  split at hj
  swap
  · cases hj
  obtain ⟨m, rfl⟩ := Nat.dvd_of_mod_eq_zero hn
  refine h _ _ b c ?_ hi hj
  rw [show 32 * m * k = 32 * (m * k) by ring]
  omega

theorem Blocky.chunks {l : List Boolean} (h : Blocky l) (hl : l.length % 32 = 0) :
    ∀ c ∈ chunks 32 l, (∀ b ∈ c, b.isConstant = true) ∨ ∀ b ∈ c, b.isConstant = false := by
  rw [chunks_eq_pieces (by omega) hl]
  intro c hc
  have hb := h.piece (by omega) hc
  have hl := length_of_mem_pieces hc
  have key : ∀ b ∈ c, ∀ b' ∈ c, b.isConstant = b'.isConstant := by
    intro b hb1 b' hb2
    obtain ⟨i, hi, rfl⟩ := List.getElem_of_mem hb1
    obtain ⟨j, hj, rfl⟩ := List.getElem_of_mem hb2
    exact hb i j _ _ (by omega) (List.getElem?_eq_getElem hi) (List.getElem?_eq_getElem hj)
  match c with
  | [] => exact .inl (by simp)
  | b :: c =>
    cases hb : b.isConstant with
    | true => exact .inl fun b' h' => by rw [key b' h' b (by simp), hb]
    | false => exact .inr fun b' h' => by rw [key b' h' b (by simp), hb]

theorem pad_eq (input : List Boolean) : ∃ l : List Bool, pad input = input ++ l.map .constant ∧
    (input.length + l.length) % 512 = 0 ∧ ∀ input' : List Boolean, input'.length = input.length →
      pad input' = input' ++ l.map .constant := by
  refine ⟨true :: (List.replicate ((959 + 1 - (input.length + 1) % 512) % 512) false ++
    (List.range 64).reverse.map fun i => ((BitVec.ofNat 64 input.length >>> i) &&& 1 == 1)), ?_, ?_, ?_⟩
  · rw [pad, padZeros_eq _ _ (by simp; omega)]
    simp
  · simp
    omega
  · intro input' h
    rw [pad, padZeros_eq _ _ (by simp; omega)]
    simp [h]

theorem Blocky.pad {l : List Boolean} (h : Blocky l) (hl : l.length % 32 = 0) : Blocky (pad l) := by
  obtain ⟨p, hp, -⟩ := pad_eq l
  rw [hp]
  have hc : ∀ (i : ℕ) b, l.length ≤ i → (l ++ p.map Boolean.constant)[i]? = some b → b.isConstant = true := by
    intro i b hi hb
    rw [List.getElem?_append_right hi, List.getElem?_map, Option.map_eq_some_iff] at hb
    obtain ⟨_, -, rfl⟩ := hb
    rfl
  intro i j b c hij hi hj
  by_cases h1 : i < l.length
  · have h2 : j < l.length := by omega
    rw [List.getElem?_append_left h1] at hi
    rw [List.getElem?_append_left h2] at hj
    exact h i j b c hij hi hj
  · rw [hc i b (by omega) hi, hc j c (by omega) hj]

theorem Blocky.append {l l' : List Boolean} (h : Blocky l) (h' : Blocky l') (hl : l.length % 32 = 0) :
    Blocky (l ++ l') := by
  intro i j b c hij hi hj
  by_cases h1 : i < l.length
  · rw [List.getElem?_append_left h1] at hi
    rw [List.getElem?_append_left (by omega)] at hj
    exact h i j b c hij hi hj
  · rw [List.getElem?_append_right (by omega)] at hi
    rw [List.getElem?_append_right (by omega)] at hj
    exact h' _ _ b c (by omega) hi hj

theorem Blocky.of_free {l : List Boolean} (h : ∀ b ∈ l, b.isConstant = false) : Blocky l := by
  intro i j b c _ hi hj
  rw [h b (List.mem_of_getElem? hi), h c (List.mem_of_getElem? hj)]

theorem Blocky.of_known {l : List Boolean} (h : ∀ b ∈ l, b.isConstant = true) : Blocky l := by
  intro i j b c _ hi hj
  rw [h b (List.mem_of_getElem? hi), h c (List.mem_of_getElem? hj)]

theorem twin_blocks (ho : V one) {blocks blocks' : List (List Boolean)}
    (h : List.Forall₂ (List.Forall₂ (Boolean.Twin V)) blocks blocks')
    (hl : ∀ b ∈ blocks', b.length = 512 ∧ Blocky b) : ∀ {cur cur' : List (UInt 32)}, CurTwin V cur cur' →
      Circuit.Twin V (foldProg (fun cur block => compress one block cur) blocks cur : Prog F (List (UInt 32)))
        (foldProg (fun cur block => compress one block cur) blocks' cur') (CurTwin V) := by
  induction h with
  | nil => exact fun hc => Twin.ret hc
  | cons h _ ih =>
    intro cur cur' hc
    have hb := hl _ (List.mem_cons_self ..)
    exact (twin_compress ho h hb.1 (hb.2.chunks (by have := hb.1; omega)) hc).bind fun r r' hr =>
      ih (fun b hb => hl b (by simp [hb])) hr

theorem iv_twin : CurTwin V getIv getIv := by
  refine ⟨rfl, .inl ?_⟩
  rw [getIv, List.forall₂_map_left_iff, List.forall₂_map_right_iff, List.forall₂_same]
  exact fun x _ => constant_known (by omega) x

/-- The bits of a digest -/
theorem cur_bits {cur cur' : List (UInt 32)} (h : List.Forall₂ (Strict V) cur cur') :
    List.Forall₂ (Boolean.Twin V) (cur.flatMap UInt.intoBitsBe) (cur'.flatMap UInt.intoBitsBe) ∧
      Blocky (cur'.flatMap UInt.intoBitsBe) ∧ (cur'.flatMap UInt.intoBitsBe).length = 32 * cur'.length := by
  induction h with
  | nil => exact ⟨.nil, Blocky.of_free (by simp), rfl⟩
  | @cons u u' us us' h _ ih =>
    obtain ⟨h1, h2, h3⟩ := ih
    rw [List.flatMap_cons, List.flatMap_cons]
    have hlen : u'.intoBitsBe.length = 32 := by rw [intoBitsBe, List.length_reverse]; exact h.weak.2
    refine ⟨forall₂_append (List.rel_reverse h.weak.1) h1, Blocky.append ?_ h2 (by omega), ?_⟩
    · rcases h with h | h
      · exact Blocky.of_known fun b hb => h.2.1 b (by simpa [intoBitsBe] using hb)
      · exact Blocky.of_free fun b hb => h.2 b (by simpa [intoBitsBe] using hb)
    · rw [List.length_append, hlen, h3, List.length_cons]
      ring

/-- `sha256` builds the same constraints whatever the values, when constants come in whole words. -/
theorem twin_sha256 (ho : V one) {input input' : List Boolean} (h : List.Forall₂ (Boolean.Twin V) input input')
    (hl : input'.length % 32 = 0) (hb : Blocky input') :
    Circuit.Twin V (sha256 one input : Prog F (List Boolean)) (sha256 one input') fun r r' =>
      List.Forall₂ (Boolean.Twin V) r r' ∧ Blocky r' ∧ r'.length = 256 := by
  obtain ⟨p, hp1, hp2, hp3⟩ := pad_eq input'
  have hpl : (pad input').length % 512 = 0 := by rw [hp1]; simpa using hp2
  have hpp : List.Forall₂ (Boolean.Twin V) (pad input) (pad input') := by
    rw [hp1, hp3 input h.length_eq]
    refine forall₂_append h (RescueGadget.forall₂_refl fun b hb => ?_)
    rw [List.mem_map] at hb
    obtain ⟨b, -, rfl⟩ := hb
    exact .constant b
  have hbb := hb.pad hl
  have hpl' : (pad input).length % 512 = 0 := by rw [hpp.length_eq, hpl]
  rw [sha256, if_neg (by rw [h.length_eq]; omega), sha256, if_neg (by omega)]
  simp only []
  rw [if_neg (by omega), if_neg (by omega), chunks_eq_pieces (by omega) hpl, chunks_eq_pieces (by omega) hpl']
  refine (twin_blocks ho (forall₂_pieces hpp 512) (fun b hb => ⟨length_of_mem_pieces hb, hbb.piece (by omega) hb⟩)
    iv_twin).bind fun r r' hr => Twin.ret ?_
  have := cur_bits hr.forall₂
  rw [hr.1] at this
  exact this

end Sha256
end Circuit
end Halo
