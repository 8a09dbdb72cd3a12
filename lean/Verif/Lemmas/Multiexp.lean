import Verif.Lemmas.CurveApi
import Verif.Lemmas.Mem
import Verif.Lemmas.FftPar
import Verif.Model.Util
/-!
# `multiexp` and `parallel_generator_collapse`
-/
namespace Halo
namespace Util
open Mem
variable {C S G : Type} [CurveApi C S] [Field S] [AddCommGroup G] [Module S G]
  {rep : C → G → Prop}

theorem smul_eq_val [LawfulField S] (s : S) (a : G) : s • a = LawfulField.val s • a := by
  conv_lhs => rw [← LawfulField.val_cast s]
  exact Nat.cast_smul_eq_nsmul S _ a

/-! ## digits -/

theorem leNat_drop (l : List (BitVec 8)) (k : ℕ) : leNat (l.drop k) = leNat l / 256 ^ k := by
  by_cases hk : k ≤ l.length
  · conv_rhs => rw [← List.take_append_drop k l, Fe.leNat_append]
    have hlen : (l.take k).length = k := by simp [hk]
    have hlt := Fe.leNat_lt (l.take k)
    rw [hlen] at hlt ⊢
    rw [Nat.add_comm, Nat.mul_add_div (by positivity), Nat.div_eq_of_lt hlt, add_zero]
  · rw [List.drop_eq_nil_of_le (by omega)]
    have hlt := Fe.leNat_lt l
    rw [Nat.div_eq_of_lt (hlt.trans_le (Nat.pow_le_pow_right (by norm_num) (by omega)))]
    rfl

theorem leNat_take (l : List (BitVec 8)) (k : ℕ) : leNat (l.take k) = leNat l % 256 ^ k := by
  by_cases hk : k ≤ l.length
  · conv_rhs => rw [← List.take_append_drop k l, Fe.leNat_append]
    have hlen : (l.take k).length = k := by simp [hk]
    have hlt := Fe.leNat_lt (l.take k)
    rw [hlen] at hlt ⊢
    rw [Nat.add_mul_mod_self_left, Nat.mod_eq_of_lt hlt]
  · rw [List.take_of_length_le (by omega)]
    have hlt := Fe.leNat_lt l
    rw [Nat.mod_eq_of_lt (hlt.trans_le (Nat.pow_le_pow_right (by norm_num) (by omega)))]

/-- `get_at` returns the digit of weight `2^(c·segment)` -/
theorem getAt_spec (segment c : ℕ) (hc : c ≤ 57) (bytes : Vector (BitVec 8) 32) :
    getAt segment c bytes = leNat bytes.toList / 2 ^ (segment * c) % 2 ^ c := by
  unfold getAt
  simp only
  generalize hs : segment * c = s
  have hlt := Fe.leNat_lt bytes.toList
  rw [show bytes.toList.length = 32 by simp] at hlt
  split
  · rename_i h
    rw [Nat.div_eq_of_lt (hlt.trans_le _), Nat.zero_mod]
    rw [show (256 : ℕ) ^ 32 = 2 ^ 256 by norm_num]
    exact Nat.pow_le_pow_right (by norm_num) (by omega)
  · rename_i h
    rw [leNat_take, leNat_drop, Nat.shiftRight_eq_div_pow, Nat.shiftLeft_eq, one_mul]
    obtain ⟨r, hr, hsr⟩ : ∃ r, r < 8 ∧ s = s / 8 * 8 + r := ⟨s % 8, by omega, by omega⟩
    have hsub : s - s / 8 * 8 = r := by omega
    rw [hsub]
    have e1 : (256 : ℕ) ^ (s / 8) = 2 ^ (s / 8 * 8) := by
      rw [show (256 : ℕ) = 2 ^ 8 by norm_num, ← pow_mul, mul_comm]
    have e2 : (256 : ℕ) ^ 8 = 2 ^ r * 2 ^ (64 - r) := by
      rw [← pow_add, show r + (64 - r) = 64 by omega]; norm_num
    rw [e1, e2, Nat.mod_mul_right_div_self, Nat.div_div_eq_div_mul, ← pow_add, ← hsr]
    apply Nat.mod_mod_of_dvd
    exact pow_dvd_pow 2 (by omega)

/-! ## buckets -/

/-- weight of the buckets -/
def weight : ℕ → List G → G
  | _, [] => 0
  | k, b :: bs => (k + 1) • b + weight (k + 1) bs

theorem weight_replicate (k n : ℕ) : weight k (List.replicate n (0 : G)) = 0 := by
  induction n generalizing k with
  | zero => rfl
  | succ n ih => rw [List.replicate_succ, weight, ih]; simp

theorem weight_set (l : List G) (k i : ℕ) (a : G) (hi : i < l.length) :
    weight k (l.set i (l[i] + a)) = weight k l + (k + i + 1) • a := by
  induction l generalizing k i with
  | nil => simp at hi
  | cons b l ih =>
    cases i with
    | zero => simp only [List.set_cons_zero, List.getElem_cons_zero, weight, nsmul_add]; abel_nf
    | succ i =>
      simp only [List.set_cons_succ, List.getElem_cons_succ, weight]
      rw [ih (k + 1) i (by simpa using hi), show k + (i + 1) + 1 = k + 1 + i + 1 by omega, ← add_assoc (_ • b)]

/-- summation by parts -/
theorem parts (l : List G) :
    ∀ s : G × G, (l.foldl (fun (s : G × G) e => (s.1 + e, s.2 + (s.1 + e))) s) =
      (s.1 + l.sum, s.2 + l.length • s.1 + weight 0 l.reverse) := by
  have wapp : ∀ (k : ℕ) (l : List G) (a : G), weight k (l ++ [a]) = weight k l + (k + l.length + 1) • a := by
    intro k l a
    induction l generalizing k with
    | nil => simp [weight]
    | cons b l ih =>
      simp only [List.cons_append, weight, ih, List.length_cons]
      rw [show k + (l.length + 1) + 1 = k + 1 + l.length + 1 by omega, ← add_assoc (_ • b)]
  induction l with
  | nil => intro s; simp [weight]
  | cons b l ih =>
    intro s
    rw [List.foldl_cons, ih]
    simp only [List.sum_cons, List.length_cons, List.reverse_cons, wapp, List.length_reverse,
      zero_add, Prod.mk.injEq]
    refine ⟨by abel, ?_⟩
    rw [nsmul_add, succ_nsmul, succ_nsmul]
    abel

theorem sumBuckets_rep (h : LawfulCurve C S G rep) {bs : List C} {gs : List G}
    (hb : List.Forall₂ rep bs gs) {acc : C} {a : G} (ha : rep acc a) :
    rep (sumBuckets (S := S) bs acc) (a + weight 0 gs) := by
  have key : ∀ (bs : List C) (gs : List G), List.Forall₂ rep bs gs → ∀ (p : C × C) (x : G × G),
      rep p.1 x.1 → rep p.2 x.2 →
      rep (bs.foldl (fun (s : C × C) exp =>
        let running := CurveApi.add s.1 exp
        (running, CurveApi.add s.2 running)) p).1
        (gs.foldl (fun (s : G × G) e => (s.1 + e, s.2 + (s.1 + e))) x).1 ∧
      rep (bs.foldl (fun (s : C × C) exp =>
        let running := CurveApi.add s.1 exp
        (running, CurveApi.add s.2 running)) p).2
        (gs.foldl (fun (s : G × G) e => (s.1 + e, s.2 + (s.1 + e))) x).2 := by
    intro bs gs hb
    induction hb with
    | nil => intro p x h1 h2; exact ⟨h1, h2⟩
    | cons hab _ ih =>
      intro p x h1 h2
      exact ih _ _ (h.add h1 hab) (h.add h2 (h.add h1 hab))
  have := (key _ _ (List.rel_reverse hb) (CurveApi.zero (S := S), acc) (0, a) h.zero ha).2
  rw [parts] at this
  simp only [smul_zero, add_zero, List.reverse_reverse] at this
  exact this

theorem fillBuckets_rep (h : LawfulCurve C S G rep) (segment c : ℕ) (hc : c ≤ 57)
    {pairs : List (Vector (BitVec 8) 32 × C)} {as : List (ℕ × G)}
    (hp : List.Forall₂ (fun p a => leNat p.1.toList = a.1 ∧ rep p.2 a.2) pairs as) :
    ∃ bs gs, fillBuckets (S := S) segment c pairs = some bs ∧ List.Forall₂ rep bs.toList gs ∧
      weight 0 gs = (as.map fun a => (a.1 / 2 ^ (segment * c) % 2 ^ c) • a.2).sum := by
  have key : ∀ (pairs : List (Vector (BitVec 8) 32 × C)) (as : List (ℕ × G)),
      List.Forall₂ (fun p a => leNat p.1.toList = a.1 ∧ rep p.2 a.2) pairs as →
      ∀ (bs : Array C) (gs : List G), List.Forall₂ rep bs.toList gs → bs.size = 2 ^ c - 1 →
      ∃ bs' gs', pairs.foldlM (fun (buckets : Array C) p => do
          let coeff := getAt segment c p.1
          if coeff ≠ 0 then
            let old ← Mem.get buckets (coeff - 1)
            Mem.set buckets (coeff - 1) (CurveApi.add old p.2)
          else some buckets) bs = some bs' ∧ List.Forall₂ rep bs'.toList gs' ∧
        weight 0 gs' = weight 0 gs +
          (as.map fun a => (a.1 / 2 ^ (segment * c) % 2 ^ c) • a.2).sum := by
    intro pairs as hp
    induction hp with
    | nil => intro bs gs h1 _; exact ⟨bs, gs, rfl, h1, by simp⟩
    | @cons p a _ _ hpa _ ih =>
      intro bs gs h1 hsz
      simp only [List.foldlM_cons, List.map_cons, List.sum_cons]
      have hdlt : a.1 / 2 ^ (segment * c) % 2 ^ c < 2 ^ c := Nat.mod_lt _ (Nat.two_pow_pos c)
      have hd := getAt_spec segment c hc p.1
      rw [hpa.1] at hd
      simp only [hd]
      generalize a.1 / 2 ^ (segment * c) % 2 ^ c = d at *
      by_cases h0 : d = 0
      · obtain ⟨bs', gs', e1, e2, e3⟩ := ih bs gs h1 hsz
        refine ⟨bs', gs', ?_, e2, ?_⟩
        · simp only [h0, ne_eq, not_true_eq_false, if_false, Option.bind_eq_bind, Option.bind_some]
          exact e1
        · rw [e3, h0, zero_nsmul, zero_add]
      · have hlt : d - 1 < bs.size := by omega
        have hlen : bs.toList.length = gs.length := h1.length_eq
        have hltg : d - 1 < gs.length := by rw [← hlen]; simpa using hlt
        have hget : Mem.get bs (d - 1) = some bs[d - 1] := by simp [Mem.get, hlt]
        have hrep : rep bs[d - 1] gs[d - 1] := by
          have := h1.get (i := d - 1) (by simpa using hlt) hltg
          simpa using this
        have hF : List.Forall₂ rep (bs.set (d - 1) (CurveApi.add bs[d - 1] p.2) hlt).toList
            (gs.set (d - 1) (gs[d - 1] + a.2)) := by
          rw [Array.toList_set]
          rw [List.forall₂_iff_get]
          refine ⟨by simpa using hlen, ?_⟩
          intro i hi1 hi2
          simp only [List.get_eq_getElem, List.getElem_set]
          split
          · exact h.add hrep hpa.2
          · have := h1.get (i := i) (by simpa using hi1) (by simpa using hi2)
            simpa using this
        obtain ⟨bs', gs', e1, e2, e3⟩ := ih _ _ hF (by simpa using hsz)
        refine ⟨bs', gs', ?_, e2, ?_⟩
        · simp only [ne_eq, h0, not_false_eq_true, if_true, Option.bind_eq_bind, hget,
            Option.bind_some, Mem.set, dif_pos hlt]
          exact e1
        · rw [e3, weight_set _ _ _ _ hltg]
          rw [show 0 + (d - 1) + 1 = d by omega, add_assoc]
  obtain ⟨bs, gs, h1, h2, h3⟩ := key pairs as hp
    (Array.replicate ((1 <<< c) - 1) (CurveApi.zero (S := S))) (List.replicate (2 ^ c - 1) 0) (by
      rw [Array.toList_replicate, Nat.shiftLeft_eq, one_mul]
      generalize 2 ^ c - 1 = n
      induction n with
      | zero => exact .nil
      | succ n ih => rw [List.replicate_succ, List.replicate_succ]; exact .cons h.zero ih)
    (by simp [Nat.shiftLeft_eq])
  refine ⟨bs, gs, h1, h2, ?_⟩
  rw [h3, weight_replicate, zero_add]

theorem double_fold (h : LawfulCurve C S G rep) (n : ℕ) {acc : C} {a : G} (ha : rep acc a) :
    rep ((List.range n).foldl (fun acc _ => CurveApi.double acc) acc) ((2 ^ n : ℕ) • a) := by
  induction n with
  | zero => simpa using ha
  | succ n ih =>
    rw [List.range_succ, List.foldl_append]
    simp only [List.foldl_cons, List.foldl_nil]
    have := h.double ih
    rwa [← two_nsmul, ← mul_nsmul', ← pow_succ'] at this

/-- the sum `Σ v_i • a_i` -/
def lin (as : List (ℕ × G)) : G := (as.map fun a => a.1 • a.2).sum

variable [LawfulField S]

theorem lin_step (as : List (ℕ × G)) (c k : ℕ) :
    (2 ^ c : ℕ) • lin (as.map fun a => (a.1 / 2 ^ ((k + 1) * c), a.2)) +
      (as.map fun a => (a.1 / 2 ^ (k * c) % 2 ^ c) • a.2).sum =
    lin (as.map fun a => (a.1 / 2 ^ (k * c), a.2)) := by
  induction as with
  | nil => simp [lin]
  | cons a as ih =>
    simp only [lin, List.map_cons, List.sum_cons, List.map_map] at ih ⊢
    rw [← ih, nsmul_add]
    have : (a.1 / 2 ^ (k * c)) • a.2 = (2 ^ c : ℕ) • (a.1 / 2 ^ ((k + 1) * c)) • a.2 +
        (a.1 / 2 ^ (k * c) % 2 ^ c) • a.2 := by
      rw [← mul_nsmul', ← add_nsmul]
      congr 1
      rw [Nat.succ_mul, pow_add, ← Nat.div_div_eq_div_mul]
      exact (Nat.div_add_mod _ _).symm
    rw [this]; abel

theorem multiexpChunk_rep (h : LawfulCurve C S G rep) {lnCeil : ℕ → ℕ}
    {coeffs : List S} {bases : List C} {gs : List G}
    (hln : 32 ≤ bases.length → 1 ≤ lnCeil bases.length ∧ lnCeil bases.length ≤ 57)
    (hb : List.Forall₂ rep bases gs) :
    ∃ p, multiexpChunk lnCeil coeffs bases = some p ∧
      rep p (List.zipWith (fun s a => s • a) coeffs gs).sum := by
  unfold multiexpChunk
  simp only
  have hc : ∃ c, (if bases.length < 32 then 3 else lnCeil bases.length) = c ∧ 1 ≤ c ∧ c ≤ 57 := by
    split
    · exact ⟨3, rfl, by norm_num, by norm_num⟩
    · rename_i hlt; exact ⟨_, rfl, hln (by omega)⟩
  obtain ⟨c, hce, hc1, hc2⟩ := hc
  rw [hce, if_neg (by omega)]
  let as : List (ℕ × G) := List.zipWith (fun s a => (LawfulField.val s, a)) coeffs gs
  have hp : List.Forall₂ (fun (p : Vector (BitVec 8) 32 × C) (a : ℕ × G) =>
      leNat p.1.toList = a.1 ∧ rep p.2 a.2) ((coeffs.map FieldApi.toBytes).zip bases) as := by
    clear hln hce
    induction hb generalizing coeffs with
    | nil => simp [as]
    | cons hab _ ih =>
      cases coeffs with
      | nil => simp [as]
      | cons s coeffs =>
        simp only [List.map_cons, List.zip_cons_cons, as, List.zipWith_cons_cons]
        exact .cons ⟨LawfulField.toBytes_val s, hab⟩ ih
  have hfin : (List.zipWith (fun s a => s • a) coeffs gs).sum = lin as := by
    simp only [lin, as, List.map_zipWith]
    congr 2
    funext s a
    exact smul_eq_val s a
  rw [hfin]
  have key : ∀ n (acc : C), rep acc (lin (as.map fun a => (a.1 / 2 ^ (n * c), a.2))) →
      ∃ p, (List.range n).reverse.foldlM (fun acc segment => do
        let acc := (List.range c).foldl (fun acc _ => CurveApi.double acc) acc
        let buckets ← fillBuckets segment c ((coeffs.map FieldApi.toBytes).zip bases)
        some (sumBuckets buckets.toList acc)) acc = some p ∧ rep p (lin as) := by
    intro n
    induction n with
    | zero =>
      intro acc hacc
      refine ⟨acc, rfl, ?_⟩
      simpa using hacc
    | succ n ih =>
      intro acc hacc
      rw [List.range_succ, List.reverse_append, List.reverse_singleton, List.singleton_append,
        List.foldlM_cons]
      obtain ⟨bs, gs', h1, h2, h3⟩ := fillBuckets_rep h n c hc2 hp
      simp only [h1, Option.bind_eq_bind, Option.bind_some]
      have hd := double_fold h c hacc
      have := sumBuckets_rep h h2 hd
      rw [h3, lin_step] at this
      obtain ⟨p, hp1, hp2⟩ := ih _ this
      exact ⟨p, by simpa using hp1, hp2⟩
  refine key (256 / c + 1) _ ?_
  have hz : lin (as.map fun a => (a.1 / 2 ^ ((256 / c + 1) * c), a.2)) = 0 := by
    simp only [lin, List.map_map]
    apply List.sum_eq_zero
    intro x hx
    obtain ⟨a, ha, rfl⟩ := List.mem_map.1 hx
    obtain ⟨s, hs⟩ : ∃ s : S, a.1 = LawfulField.val s := by
      simp only [as] at ha
      rw [← List.map_uncurry_zip_eq_zipWith] at ha
      obtain ⟨⟨s, g⟩, -, rfl⟩ := List.mem_map.1 ha
      exact ⟨s, rfl⟩
    have h256 : 256 ≤ (256 / c + 1) * c := by
      rw [Nat.add_mul, one_mul]
      have := Nat.div_add_mod 256 c
      have := Nat.mod_lt 256 (show c > 0 by omega)
      rw [mul_comm]; omega
    have : a.1 < 2 ^ ((256 / c + 1) * c) := by
      rw [hs]
      refine (LawfulField.val_lt s).trans ((LawfulField.modulus_bound (F := S)).2.trans_le ?_)
      exact Nat.pow_le_pow_right (by norm_num) (by omega)
    simp [Nat.div_eq_of_lt this]
  rw [hz]; exact h.zero

theorem forall₂_chunks {α β : Type} {R : α → β → Prop} {n : ℕ} : ∀ (fuel : ℕ) {l : List α} {l' : List β},
    List.Forall₂ R l l' → List.Forall₂ (List.Forall₂ R) (chunksAux n fuel l) (chunksAux n fuel l') := by
  intro fuel
  induction fuel with
  | zero => intro l l' _; exact .nil
  | succ fuel ih =>
    intro l l' h
    unfold chunksAux
    have he : l.isEmpty = l'.isEmpty := by cases h <;> rfl
    rw [he]
    split
    · exact .nil
    · exact .cons (List.forall₂_take n h) (ih (List.forall₂_drop n h))

/-- `multiexp` returns the linear combination -/
theorem multiexp_rep (h : LawfulCurve C S G rep) {cpus : ℕ} (hcpus : 0 < cpus) {lnCeil : ℕ → ℕ}
    (hln : ∀ n, 32 ≤ n → n < 2 ^ 32 → 1 ≤ lnCeil n ∧ lnCeil n ≤ 57)
    {coeffs : List S} {bases : List C} {gs : List G} (hlen : coeffs.length = bases.length)
    (hsize : bases.length < 2 ^ 32) (hb : List.Forall₂ rep bases gs) :
    ∃ p, multiexp cpus lnCeil coeffs bases = some p ∧
      rep p (List.zipWith (fun s a => s • a) coeffs gs).sum := by
  unfold multiexp
  rw [if_neg (not_not.2 hlen)]
  split
  · rename_i hlt
    have hq : coeffs.length / cpus ≠ 0 := (Nat.div_pos hlt.le hcpus).ne'
    simp only [chunks, if_neg hq, Option.bind_eq_bind, Option.bind_some]
    generalize coeffs.length / cpus = n at *
    have hn : 0 < n := Nat.pos_of_ne_zero hq
    have hbg : bases.length = gs.length := hb.length_eq
    have hfl := chunksAux_zipWith (fun (s : S) (a : G) => s • a) hn coeffs.length coeffs gs le_rfl
      (hlen.trans hbg)
    rw [← hfl, ← hlen]
    have hch := forall₂_chunks (n := n) coeffs.length hb
    have hlc : ∀ c ∈ chunksAux n coeffs.length bases, c.length < 2 ^ 32 := by
      intro c hc
      have h1 := List.length_flatten (L := chunksAux n coeffs.length bases)
      rw [chunksAux_flatten hn _ _ (by omega)] at h1
      have := List.le_sum_of_mem (List.mem_map_of_mem (f := List.length) hc)
      omega
    generalize chunksAux n coeffs.length bases = cb at *
    generalize chunksAux n coeffs.length gs = cg at *
    generalize chunksAux n coeffs.length coeffs = cc at *
    have key : ∃ ps, (cc.zip cb).mapM (fun p => multiexpChunk lnCeil p.1 p.2) = some ps ∧
        List.Forall₂ rep ps (List.zipWith (fun s a => (List.zipWith (fun s a => s • a) s a).sum) cc cg)
        := by
      clear hfl
      induction hch generalizing cc with
      | nil => exact ⟨[], by simp⟩
      | @cons b g cb cg hbg' _ ih =>
        cases cc with
        | nil => exact ⟨[], by simp⟩
        | cons s cc =>
          obtain ⟨ps, h1, h2⟩ := ih (fun c hc => hlc c (List.mem_cons_of_mem _ hc)) cc
          obtain ⟨p, h3, h4⟩ := multiexpChunk_rep (coeffs := s) h
            (fun h32 => hln _ h32 (hlc b List.mem_cons_self)) hbg'
          refine ⟨p :: ps, ?_, .cons h4 h2⟩
          rw [List.zip_cons_cons, List.mapM_cons, h3, h1]; rfl
    obtain ⟨ps, h1, h2⟩ := key
    rw [h1]
    refine ⟨_, rfl, ?_⟩
    have hsum : (List.zipWith (List.zipWith fun s a => s • a) cc cg).flatten.sum =
        (List.zipWith (fun s a => (List.zipWith (fun (s : S) (a : G) => s • a) s a).sum) cc cg).sum := by
      rw [List.sum_flatten, List.map_zipWith]
    rw [hsum]
    have fold : ∀ (ps : List C) (xs : List G), List.Forall₂ rep ps xs → ∀ (acc : C) (a : G), rep acc a →
        rep (ps.foldl CurveApi.add acc) (a + xs.sum) := by
      intro ps xs hx
      induction hx with
      | nil => intro acc a ha; simpa using ha
      | cons hab _ ih =>
        intro acc a ha
        rw [List.foldl_cons, List.sum_cons, ← add_assoc]
        exact ih _ _ (h.add ha hab)
    have := fold _ _ h2 _ _ h.zero
    rwa [zero_add] at this
  · refine ⟨_, rfl, ?_⟩
    have fold : ∀ (bases : List C) (gs : List G), List.Forall₂ rep bases gs → ∀ (coeffs : List S)
        (acc : C) (a : G), rep acc a →
        rep ((coeffs.zip bases).foldl (fun acc p => CurveApi.add acc (CurveApi.mul p.2 p.1)) acc)
          (a + (List.zipWith (fun s a => s • a) coeffs gs).sum) := by
      intro bases gs hb
      induction hb with
      | nil => intro coeffs acc a ha; simpa using ha
      | cons hab _ ih =>
        intro coeffs acc a ha
        cases coeffs with
        | nil => simpa using ha
        | cons s coeffs =>
          rw [List.zip_cons_cons, List.foldl_cons, List.zipWith_cons_cons, List.sum_cons, ← add_assoc]
          exact ih _ _ _ (h.add ha (h.mul s hab))
    have := fold _ _ hb coeffs _ _ h.zero
    rwa [zero_add] at this

omit [Field S] [LawfulField S] in
/-- `parallel_generator_collapse` folds the halves -/
theorem generatorCollapse_eq {cpus : ℕ} (hcpus : 0 < cpus) {g : List C} {l : ℕ} (hg : g.length = 2 * l)
    (hl : 0 < l) (u ui : S) :
    generatorCollapse cpus g u ui = some (List.zipWith
      (fun lo hi => CurveApi.add (CurveApi.mul lo ui) (CurveApi.mul hi u)) (g.take l) (g.drop l)
        ++ g.drop l) := by
  unfold generatorCollapse
  have hl2 : g.length / 2 = l := by omega
  simp only [hl2]
  have hch : ∃ n, (if l / cpus < cpus then l else l / cpus) = n ∧ 0 < n := by
    split
    · exact ⟨l, rfl, hl⟩
    · rename_i h
      refine ⟨_, rfl, ?_⟩
      omega
  obtain ⟨n, hn, hn0⟩ := hch
  rw [hn]
  simp only [chunks, if_neg hn0.ne', Option.bind_eq_bind, Option.bind_some, Option.some.injEq]
  congr 1
  have h1 : (g.take l).length = l := by simp [hg]; omega
  have h2 : (g.drop l).length = l := by simp [hg]; omega
  rw [← chunksAux_zipWith _ hn0 (g.take l).length (g.take l) (g.drop l) le_rfl (by omega), h1, h2,
    ← List.map_uncurry_zip_eq_zipWith]
  rfl

omit [CurveApi C S] [Field S] [LawfulField S] in
theorem modify_mid {a : C} {f : C → C} : ∀ (pre lo : List C),
    (pre ++ a :: lo).modify pre.length f = pre ++ f a :: lo
  | [], lo => rfl
  | p :: pre, lo => by
    have := modify_mid (a := a) (f := f) pre lo
    simp only [List.cons_append, List.length_cons, List.modify_succ_cons, this]

omit [CurveApi C S] [Field S] [LawfulField S] in
theorem collapse_steps (f : C → C → C) : ∀ (hi lo pre : List C),
      (((hi.zipIdx pre.length).take lo.length).map fun (e : C × ℕ) (s : List C) =>
        s.modify e.2 fun lo => f lo e.1).foldl (fun s f => f s) (pre ++ lo) =
      pre ++ (List.zipWith f lo hi ++ lo.drop hi.length) := by
  intro hi
  induction hi with
  | nil => intro lo pre; simp
  | cons h hi ih =>
    intro lo pre
    cases lo with
    | nil => simp
    | cons a lo =>
      have := ih lo (pre ++ [f a h])
      simp only [List.length_append, List.length_singleton] at this
      simp only [List.zipIdx_cons, List.length_cons, List.take_succ_cons, List.map_cons,
        List.foldl_cons, List.zipWith_cons_cons, List.drop_succ_cons, modify_mid]
      simpa using this

omit [Field S] [LawfulField S] in
/-- the threads of `parallel_generator_collapse` end with the folded chunks, whatever the
interleaving -/
theorem collapseThreads_spec {cpus : ℕ} (hcpus : 0 < cpus) {g : List C} {l : ℕ}
    (hg : g.length = 2 * l) (hl : 0 < l) (u ui : S) :
    ∃ ts, collapseThreads cpus g u ui = some ts ∧
      ∀ sched, allDone (runSchedule ts sched) →
        ((runSchedule ts sched).map Thread.state).flatten = List.zipWith
          (fun lo hi => CurveApi.add (CurveApi.mul lo ui) (CurveApi.mul hi u))
          (g.take l) (g.drop l) := by
  unfold collapseThreads
  have hl2 : g.length / 2 = l := by omega
  simp only [hl2]
  have hch : ∃ n, (if l / cpus < cpus then l else l / cpus) = n ∧ 0 < n := by
    split
    · exact ⟨l, rfl, hl⟩
    · exact ⟨_, rfl, by omega⟩
  obtain ⟨n, hn, hn0⟩ := hch
  rw [hn]
  simp only [chunks, if_neg hn0.ne', Option.bind_eq_bind, Option.bind_some, Option.some.injEq,
    exists_eq_left']
  intro sched hs
  rw [schedule_independent _ _ hs, List.map_map]
  have h1 : (g.take l).length = l := by simp [hg]; omega
  have h2 : (g.drop l).length = l := by simp [hg]; omega
  rw [← chunksAux_zipWith _ hn0 (g.take l).length (g.take l) (g.drop l) le_rfl (by omega), h1, h2,
    ← List.map_uncurry_zip_eq_zipWith]
  congr 1
  apply List.map_congr_left
  rintro ⟨lo, hi⟩ hmem
  have hlen : lo.length = hi.length := by
    have hF : List.Forall₂ (fun (_ _ : C) => True) (g.take l) (g.drop l) := by
      rw [List.forall₂_iff_get]; exact ⟨by omega, fun _ _ _ => trivial⟩
    have hF := forall₂_chunks (n := n) l hF
    generalize chunksAux n l (g.take l) = A at *
    generalize chunksAux n l (g.drop l) = B at *
    clear * - hmem hF
    induction hF with
    | nil => simp at hmem
    | cons h _ ih =>
      rw [List.zip_cons_cons, List.mem_cons] at hmem
      rcases hmem with hm | hm
      · cases hm; exact h.length_eq
      · exact ih hm
  simp only [Function.comp, Thread.result, Function.uncurry]
  have key := collapse_steps
    (fun lo hi : C => CurveApi.add (CurveApi.mul lo ui) (CurveApi.mul hi u)) hi lo []
  rw [List.drop_eq_nil_of_le hlen.le] at key
  simp only [List.length_nil, List.nil_append, List.append_nil] at key
  exact key

end Util
end Halo
