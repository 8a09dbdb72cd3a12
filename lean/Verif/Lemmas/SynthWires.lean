import Verif.Lemmas.Synth
import Verif.Model.Eval
/-!
# The witness backends follow the constraint system of a circuit
-/
namespace Halo
namespace Circuit
variable {F : Type} [Field F]

/-- The first `n` values of a column -/
def col (f : ℕ → F) (n : ℕ) : List F := (List.range n).map fun i => f (i + 1)

omit [Field F] in
@[simp] theorem col_length (f : ℕ → F) (n : ℕ) : (col f n).length = n := by simp [col]

omit [Field F] in
theorem at1_col {f : ℕ → F} {n i : ℕ} (h0 : 0 < i) (hn : i ≤ n) : at1 (col f n) i = some (f i) := by
  have h1 : i - 1 < n := by omega
  have h2 : i - 1 + 1 = i := by omega
  have h3 : i ≠ 0 := by omega
  simp [at1, col, h1, h2, h3]

theorem at1_some {α : Type} {l : List α} {i : ℕ} {x : α} (h : at1 l i = some x) :
    0 < i ∧ i ≤ l.length := by
  unfold at1 at h
  split at h
  · simp at h
  · have := (List.getElem?_eq_some_iff.1 h).1
    omega

omit [Field F] in
theorem set1_col {f : ℕ → F} {n i : ℕ} (v : F) (h0 : 0 < i) (hn : i ≤ n) :
    Wires.set1 (col f n) i v = some (col (Function.update f i v) n) := by
  have h : 0 < i ∧ i ≤ (col f n).length := ⟨h0, by simpa using hn⟩
  rw [Wires.set1, if_pos h]
  congr 1
  apply List.ext_getElem
  · simp
  · intro j h1 h2
    rw [List.getElem_set]
    simp only [col, List.getElem_map, List.getElem_range]
    by_cases hj : i - 1 = j
    · have : j + 1 = i := by omega
      simp [hj, this]
    · have : j + 1 ≠ i := by omega
      simp [hj, Function.update_of_ne this]

theorem col_succ {f : ℕ → F} {n : ℕ} (h : f (n + 1) = 0) : col f n ++ [0] = col f (n + 1) := by
  simp [col, List.range_succ, h]

/-- The assignment vectors for `n` gates -/
def wiresOf (w : Var → F) (n : ℕ) : Wires F :=
  ⟨col (fun i => w (.A i)) n, col (fun i => w (.B i)) n, col (fun i => w (.C i)) n⟩

omit [Field F] in
theorem get_wiresOf {w : Var → F} {n : ℕ} {var : Var} (h0 : 0 < var.index) (hn : var.index ≤ n) :
    (wiresOf w n).get var = some (w var) := by
  cases var with
  | A i => exact at1_col (f := fun i => w (.A i)) h0 hn
  | B i => exact at1_col (f := fun i => w (.B i)) h0 hn
  | C i => exact at1_col (f := fun i => w (.C i)) h0 hn

omit [Field F] in
theorem set_wiresOf {w : Var → F} {n : ℕ} {var : Var} (v : F) (h0 : 0 < var.index)
    (hn : var.index ≤ n) : (wiresOf w n).set var v = some (wiresOf (Function.update w var v) n) := by
  have hc : ∀ (c : ℕ → Var) (i : ℕ), (∀ j, c j = c i → j = i) →
      (fun j => Function.update w (c i) v (c j)) = Function.update (fun j => w (c j)) i v := by
    intro c i hinj
    funext j
    by_cases hj : j = i
    · subst hj; simp
    · rw [Function.update_of_ne hj, Function.update_of_ne fun h => hj (hinj j h)]
  cases var with
  | A i =>
    have := set1_col (f := fun i => w (.A i)) v h0 hn
    simp only [Var.index] at this
    simp [Wires.set, wiresOf, this, hc .A i (fun j h => by simpa using h)]
  | B i =>
    have := set1_col (f := fun i => w (.B i)) v h0 hn
    simp only [Var.index] at this
    simp [Wires.set, wiresOf, this, hc .B i (fun j h => by simpa using h)]
  | C i =>
    have := set1_col (f := fun i => w (.C i)) v h0 hn
    simp only [Var.index] at this
    simp [Wires.set, wiresOf, this, hc .C i (fun j h => by simpa using h)]

theorem push_wiresOf {w : Var → F} {n : ℕ} (h : ∀ v : Var, n < v.index → w v = 0) :
    (wiresOf w n).push = wiresOf w (n + 1) := by
  simp only [Wires.push, wiresOf]
  rw [col_succ (h (.A (n + 1)) (Nat.lt_succ_self n)), col_succ (h (.B (n + 1)) (Nat.lt_succ_self n)),
    col_succ (h (.C (n + 1)) (Nat.lt_succ_self n))]

/-- Wires that have not been handed out carry zero. -/
structure System.Inv (s : System F) : Prop where
  unused : ∀ v : Var, s.gates < v.index → s.w v = 0
  half : ∀ i, s.half = some i → 0 < i ∧ i ≤ s.gates ∧ s.w (.B i) = 0 ∧ s.w (.C i) = 0

namespace System.Inv
variable {s : System F}

theorem empty : (System.empty : System F).Inv := ⟨fun _ _ => rfl, by simp [System.empty]⟩

theorem fresh (h : s.Inv) (v : F) : (s.fresh v).2.Inv := by
  unfold System.fresh
  cases hh : s.half with
  | some i =>
    obtain ⟨h1, h2, h3, h4⟩ := h.half i hh
    refine ⟨fun x hx => ?_, by simp⟩
    simp only at hx
    have n1 : x ≠ .C i := by rintro rfl; exact absurd hx (by simp [Var.index]; omega)
    have n2 : x ≠ .B i := by rintro rfl; exact absurd hx (by simp [Var.index]; omega)
    simp only [Function.update_of_ne n1, Function.update_of_ne n2]
    exact h.unused x hx
  | none =>
    refine ⟨fun x hx => ?_, ?_⟩
    · simp only at hx
      have n1 : x ≠ .A (s.gates + 1) := by rintro rfl; exact absurd hx (by simp [Var.index])
      simp only [Function.update_of_ne n1]
      exact h.unused x (by omega)
    · intro i hi
      simp only [Option.some.injEq] at hi
      subst hi
      refine ⟨by omega, le_refl _, ?_, ?_⟩ <;>
      · simp only [ne_eq, reduceCtorEq, not_false_eq_true, Function.update_of_ne]
        exact h.unused _ (by simp [Var.index])

theorem gate (h : s.Inv) (v : F × F × F) : (s.gate v).Inv := by
  unfold System.gate
  refine ⟨fun x hx => ?_, ?_⟩
  · simp only at hx
    have n1 : x ≠ .A (s.gates + 1) := by rintro rfl; exact absurd hx (by simp [Var.index])
    have n2 : x ≠ .B (s.gates + 1) := by rintro rfl; exact absurd hx (by simp [Var.index])
    have n3 : x ≠ .C (s.gates + 1) := by rintro rfl; exact absurd hx (by simp [Var.index])
    simp only [Function.update_of_ne n1, Function.update_of_ne n2, Function.update_of_ne n3]
    exact h.unused x (by omega)
  · intro i hi
    obtain ⟨h1, h2, h3, h4⟩ := h.half i hi
    have hne : i ≠ s.gates + 1 := by omega
    refine ⟨h1, by simp only; omega, ?_, ?_⟩
    · simp [hne, h3]
    · simp [hne, h4]

theorem constrain (h : s.Inv) (lc : LC F) : (s.constrain lc).Inv := ⟨h.unused, h.half⟩

theorem inputs (h : s.Inv) (l : List (ℕ × Option F)) : System.Inv { s with inputs := l } :=
  ⟨h.unused, h.half⟩

end System.Inv

theorem fresh_index {s : System F} (h : s.Inv) (v : F) :
    0 < (s.fresh v).1.index ∧ (s.fresh v).1.index ≤ (s.fresh v).2.gates := by
  unfold System.fresh
  cases hh : s.half with
  | some i => obtain ⟨h1, h2, _⟩ := h.half i hh; exact ⟨h1, h2⟩
  | none => exact ⟨Nat.succ_pos _, le_refl _⟩

/-- The relation of `is_satisfied`'s backend to the system -/
structure SatRel (s : System F) (d : Driver (SatState F)) : Prop where
  inv : s.Inv
  cur : d.cur = s.half
  q : d.q = s.lcs.length
  n : d.n = s.gates
  bn : d.backend.n = s.gates
  bq : d.backend.q = s.lcs.length
  wires : d.backend.wires = wiresOf s.w s.gates
  mults : d.backend.mults.length = s.gates
  half : ∀ i, s.half = some i → at1 d.backend.mults i = some false
  lcs : d.backend.lcs = s.lcs.map fun lc => (lc, 0)
  inputs : d.backend.inputs = s.inputs.map fun p => p.1

theorem sat_insert (st : SatState F) (l : List (LC F × F)) (terms : List (Var × Coeff F)) :
    ∀ (done : LC F), st.lcs = l ++ [(done, 0)] →
    terms.foldlM (fun b t => satBackend.insertCoeff b t.1 t.2 (l.length + 1)) st =
      .ok { st with lcs := l ++ [(⟨done.terms ++ terms⟩, 0)] } := by
  induction terms generalizing st with
  | nil =>
    intro done h
    cases st
    simp_all [List.foldlM_nil, pure, Except.pure]
  | cons t ts ih =>
    intro done h
    have h1 : satBackend.insertCoeff st t.1 t.2 (l.length + 1) =
        .ok { st with lcs := l ++ [(done.add t.2 t.1, 0)] } := by
      simp [satBackend, at1, h]
    rw [List.foldlM_cons, h1]
    simp only [Except.bind_ok]
    rw [ih { st with lcs := l ++ [(done.add t.2 t.1, 0)] } (done.add t.2 t.1) rfl]
    simp [LC.add]

theorem sim_sat : Sim true (satBackend (F := F)) SatRel (fun _ => True) where
  alloc_ok := by
    intro _ s d v h
    have hi := h.inv.fresh v
    unfold Basic.alloc System.fresh
    unfold System.fresh at hi
    rw [h.cur]
    cases hh : s.half with
    | some i =>
      simp only [hh] at hi
      obtain ⟨h1, h2, h3, h4⟩ := h.inv.half i hh
      have e1 := get_wiresOf (w := s.w) (n := s.gates) (var := .A i) h1 h2
      have e2 := set_wiresOf (w := s.w) (n := s.gates) (var := .B i) v h1 h2
      have e3 := set_wiresOf (w := Function.update s.w (.B i) v) (n := s.gates) (var := .C i)
        (s.w (.A i) * v) h1 h2
      simp only [satBackend, h.wires, e1, Except.bind_ok, orMissing, e2, if_true, h.half i hh, e3,
        Bool.false_eq_true, if_false, Except.toOption]
      refine ⟨_, rfl, hi, rfl, h.q, h.n, h.bn, h.bq, rfl, h.mults, by simp, h.lcs, h.inputs⟩
    | none =>
      simp only [hh] at hi
      have e1 := push_wiresOf h.inv.unused
      have e2 := set_wiresOf (w := s.w) (n := s.gates + 1) (var := .A (s.gates + 1)) v
        (Nat.succ_pos _) (le_refl _)
      have e3 : at1 (d.backend.mults ++ [false]) (s.gates + 1) = some false := by
        simp [at1, ← h.mults]
      simp only [satBackend, h.wires, h.n, e1, e2, Except.bind_ok, if_true, e3, Except.toOption]
      refine ⟨_, rfl, hi, rfl, h.q, rfl, by simp [h.bn], h.bq, rfl, by simp [h.mults], ?_, h.lcs,
        h.inputs⟩
      intro i hi
      simp only [Option.some.injEq] at hi
      subst hi
      exact e3
  alloc_err := by
    intro _ s d e h
    unfold Basic.alloc
    rw [h.cur]
    cases hh : s.half with
    | some i =>
      obtain ⟨h1, h2, h3, h4⟩ := h.inv.half i hh
      have e1 := get_wiresOf (w := s.w) (n := s.gates) (var := .A i) h1 h2
      simp only [satBackend, h.wires, e1, Except.bind_ok, Except.bind_error]
    | none => simp only [satBackend, Except.bind_error]
  alloc_unknown := by simp
  enforce := by
    intro s d lc h
    left
    have hl : (s.lcs.map fun lc => (lc, (0 : F))).length = s.lcs.length := by simp
    have e := sat_insert { d.backend with q := d.backend.q + 1, lcs := d.backend.lcs ++ [(LC.zero, 0)] }
      (s.lcs.map fun lc => (lc, 0)) lc.terms LC.zero (by simp [h.lcs])
    rw [hl] at e
    have hq : (satBackend.newLinear d.backend).2 = s.lcs.length + 1 := by simp [satBackend, h.lcs]
    have hb : (satBackend.newLinear d.backend).1 =
      { d.backend with q := d.backend.q + 1, lcs := d.backend.lcs ++ [(LC.zero, 0)] } := rfl
    unfold Basic.enforceZero
    simp only [hq, hb, e, Except.bind_ok]
    refine ⟨_, rfl, h.inv.constrain lc, h.cur, by simp [System.constrain, h.q], h.n, h.bn,
      by simp [System.constrain, h.bq], h.wires, h.mults, h.half, ?_, h.inputs⟩
    simp [System.constrain, LC.zero]
  newK := by
    intro s d v h _
    refine ⟨_, rfl, h.inv.inputs _, h.cur, h.q, h.n, h.bn, h.bq, h.wires, h.mults, h.half, h.lcs, ?_⟩
    simp [h.inputs, h.q]
  mul_ok := by
    intro _ s d v h
    have hi := h.inv.gate v
    unfold Basic.multiply
    have e1 := push_wiresOf h.inv.unused
    have e2 := set_wiresOf (w := s.w) (n := s.gates + 1) (var := .A (s.gates + 1)) v.1
      (Nat.succ_pos _) (le_refl _)
    have e3 := set_wiresOf (w := Function.update s.w (.A (s.gates + 1)) v.1) (n := s.gates + 1)
      (var := .B (s.gates + 1)) v.2.1 (Nat.succ_pos _) (le_refl _)
    have e4 := set_wiresOf (w := Function.update (Function.update s.w (.A (s.gates + 1)) v.1)
      (.B (s.gates + 1)) v.2.1) (n := s.gates + 1)
      (var := .C (s.gates + 1)) v.2.2 (Nat.succ_pos _) (le_refl _)
    simp only [satBackend, h.wires, h.n, e1, Except.map, e2, Except.bind_ok, Bool.false_eq_true,
      if_false, if_true, Except.toOption, Option.map_some, orMissing, e3, e4]
    refine ⟨_, rfl, hi, h.cur, h.q, rfl, by simp [h.bn, System.gate], h.bq, rfl,
      by simp [h.mults, System.gate], ?_, h.lcs, h.inputs⟩
    intro i hi
    have := h.half i hi
    have hb := at1_some this
    simp only [at1] at this ⊢
    split at this
    · simp at this
    · rename_i h0
      rw [if_neg h0, List.getElem?_append_left (by omega)]
      exact this
  mul_err := by
    intro _ s d e h
    simp [Basic.multiply, satBackend, Except.map, Except.bind_error]
  mul_unknown := by simp
  good_fresh := fun _ => trivial
  good_constrain := fun _ => trivial
  good_gate := fun _ => trivial
  good_inputs := Iff.rfl

/-- The relation of the prover's backend to the system -/
structure ProverRel (s : System F) (d : Driver (Witness F)) : Prop where
  inv : s.Inv
  cur : d.cur = s.half
  q : d.q = s.lcs.length
  n : d.n = s.gates
  bn : d.backend.n = s.gates
  bq : d.backend.q = s.lcs.length
  wires : d.backend.wires = wiresOf s.w s.gates
  inputs : s.inputs = d.backend.inputs.map fun p => (p.1, some p.2)

theorem prover_insert (st : Witness F) (y : ℕ) (terms : List (Var × Coeff F)) :
    terms.foldlM (fun b t => proverBackend.insertCoeff b t.1 t.2 y) st = .ok st := by
  induction terms generalizing st with
  | nil => rfl
  | cons t ts ih => rw [List.foldlM_cons]; exact ih st

theorem sim_prover : Sim true (proverBackend (F := F)) ProverRel (fun _ => True) where
  alloc_ok := by
    intro _ s d v h
    have hi := h.inv.fresh v
    unfold Basic.alloc System.fresh
    unfold System.fresh at hi
    rw [h.cur]
    cases hh : s.half with
    | some i =>
      simp only [hh] at hi
      obtain ⟨h1, h2, h3, h4⟩ := h.inv.half i hh
      have e1 := get_wiresOf (w := s.w) (n := s.gates) (var := .A i) h1 h2
      have e2 := set_wiresOf (w := s.w) (n := s.gates) (var := .B i) v h1 h2
      have e3 := set_wiresOf (w := Function.update s.w (.B i) v) (n := s.gates) (var := .C i)
        (s.w (.A i) * v) h1 h2
      simp only [proverBackend, h.wires, e1, Except.bind_ok, orMissing, e2, if_true, e3,
        Except.toOption]
      exact ⟨_, rfl, hi, rfl, h.q, h.n, h.bn, h.bq, rfl, h.inputs⟩
    | none =>
      simp only [hh] at hi
      have e1 := push_wiresOf h.inv.unused
      have e2 := set_wiresOf (w := s.w) (n := s.gates + 1) (var := .A (s.gates + 1)) v
        (Nat.succ_pos _) (le_refl _)
      simp only [proverBackend, h.wires, h.n, e1, e2, Except.bind_ok, if_true, Except.toOption]
      exact ⟨_, rfl, hi, rfl, h.q, rfl, by simp [h.bn], h.bq, rfl, h.inputs⟩
  alloc_err := by
    intro _ s d e h
    unfold Basic.alloc
    rw [h.cur]
    cases hh : s.half with
    | some i =>
      obtain ⟨h1, h2, h3, h4⟩ := h.inv.half i hh
      have e1 := get_wiresOf (w := s.w) (n := s.gates) (var := .A i) h1 h2
      simp only [proverBackend, h.wires, e1, Except.bind_ok, Except.bind_error]
    | none => simp only [proverBackend, Except.bind_error]
  alloc_unknown := by simp
  enforce := by
    intro s d lc h
    left
    unfold Basic.enforceZero
    simp only [prover_insert, Except.bind_ok]
    exact ⟨_, rfl, h.inv.constrain lc, h.cur, by simp [System.constrain, h.q], h.n, h.bn,
      by simp [System.constrain, proverBackend, h.bq], h.wires, h.inputs⟩
  newK := by
    intro s d v h hv
    obtain ⟨v, rfl⟩ := Option.isSome_iff_exists.1 (hv rfl)
    refine ⟨_, rfl, h.inv.inputs _, h.cur, h.q, h.n, h.bn, h.bq, h.wires, ?_⟩
    simp [h.inputs, h.q]
  mul_ok := by
    intro _ s d v h
    have hi := h.inv.gate v
    unfold Basic.multiply
    have e1 := push_wiresOf h.inv.unused
    have e2 := set_wiresOf (w := s.w) (n := s.gates + 1) (var := .A (s.gates + 1)) v.1
      (Nat.succ_pos _) (le_refl _)
    have e3 := set_wiresOf (w := Function.update s.w (.A (s.gates + 1)) v.1) (n := s.gates + 1)
      (var := .B (s.gates + 1)) v.2.1 (Nat.succ_pos _) (le_refl _)
    have e4 := set_wiresOf (w := Function.update (Function.update s.w (.A (s.gates + 1)) v.1)
      (.B (s.gates + 1)) v.2.1) (n := s.gates + 1)
      (var := .C (s.gates + 1)) v.2.2 (Nat.succ_pos _) (le_refl _)
    simp only [proverBackend, h.wires, h.n, e1, Except.map, e2, Except.bind_ok,
      if_true, Except.toOption, Option.map_some, orMissing, e3, e4]
    exact ⟨_, rfl, hi, h.cur, h.q, rfl, by simp [h.bn, System.gate], h.bq, rfl, h.inputs⟩
  mul_err := by
    intro _ s d e h
    simp [Basic.multiply, proverBackend, Except.map, Except.bind_error]
  mul_unknown := by simp
  good_fresh := fun _ => trivial
  good_constrain := fun _ => trivial
  good_gate := fun _ => trivial
  good_inputs := Iff.rfl

/-- A backend that asks for no values -/
structure Silent {β ι : Type} (B : Backend F β ι) : Prop where
  get : ∀ b v, B.getVar b v = .ok none
  set : ∀ b a v x, B.setVar b a v x = .ok (b, false)

theorem Silent.alloc {β ι : Type} {B : Backend F β ι} (h : Silent B) (d : Driver β)
    (v : Except SynthesisError F) : Basic.alloc B d v = match d.cur with
      | some i => .ok ((.B i, none), { d with cur := none })
      | none => .ok ((.A (d.n + 1), none),
          ⟨B.newGate d.backend false, some (d.n + 1), d.q, d.n + 1⟩) := by
  unfold Basic.alloc
  cases d.cur <;> simp [h.get, h.set, Except.bind_ok]

omit [Field F] in
theorem Silent.multiply {β ι : Type} {B : Backend F β ι} (h : Silent B) (d : Driver β)
    (v : Except SynthesisError (F × F × F)) : Basic.multiply B d v =
      .ok ((.A (d.n + 1), .B (d.n + 1), .C (d.n + 1), none),
          ⟨B.newGate d.backend true, d.cur, d.q, d.n + 1⟩) := by
  simp [Basic.multiply, h.set, Except.bind_ok]

/-- The relation of the verifier's input map to the system -/
structure InputRel (s : System F) (d : Driver (List ℕ)) : Prop where
  inv : s.Inv
  cur : d.cur = s.half
  q : d.q = s.lcs.length
  n : d.n = s.gates
  inputs : d.backend = s.inputs.map fun p => p.1

omit [Field F] in
theorem input_insert (st : List ℕ) (terms : List (Var × Coeff F)) :
    terms.foldlM (fun b t => inputMapBackend.insertCoeff b t.1 t.2 ()) st = .ok st := by
  induction terms generalizing st with
  | nil => rfl
  | cons t ts ih => rw [List.foldlM_cons]; exact ih st

omit [Field F] in
theorem silent_inputMap : Silent (inputMapBackend (F := F)) := ⟨fun _ _ => rfl, fun _ _ _ _ => rfl⟩

theorem sim_inputMap : Sim false (inputMapBackend (F := F)) InputRel (fun _ => True) where
  alloc_ok := by simp
  alloc_err := by simp
  alloc_unknown := by
    intro _ s d v h
    have hi := h.inv.fresh 0
    rw [silent_inputMap.alloc, h.cur]
    unfold System.fresh
    unfold System.fresh at hi
    cases hh : s.half with
    | some i =>
      simp only [hh] at hi
      exact ⟨_, rfl, hi, rfl, h.q, h.n, h.inputs⟩
    | none =>
      simp only [hh] at hi
      rw [h.n]
      exact ⟨_, rfl, hi, rfl, h.q, rfl, h.inputs⟩
  enforce := by
    intro s d lc h
    left
    unfold Basic.enforceZero
    simp only [input_insert, Except.bind_ok]
    exact ⟨_, rfl, h.inv.constrain lc, h.cur, by simp [System.constrain, h.q], h.n, h.inputs⟩
  newK := by
    intro s d v h _
    refine ⟨_, rfl, h.inv.inputs _, h.cur, h.q, h.n, ?_⟩
    simp [h.inputs, h.q]
  mul_ok := by simp
  mul_err := by simp
  mul_unknown := by
    intro _ s d v h
    rw [silent_inputMap.multiply, h.n]
    exact ⟨_, rfl, h.inv.gate _, h.cur, h.q, rfl, h.inputs⟩
  good_fresh := fun _ => trivial
  good_constrain := fun _ => trivial
  good_gate := fun _ => trivial
  good_inputs := Iff.rfl

end Circuit
end Halo
