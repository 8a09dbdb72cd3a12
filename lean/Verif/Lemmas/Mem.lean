import Verif.Model.Mem
namespace Halo

/-- Every schedule after which all threads have finished gives the sequential result. -/
theorem schedule_independent {σ : Type} (ts : List (Thread σ)) (sched : List ℕ)
    (h : allDone (runSchedule ts sched)) :
    (runSchedule ts sched).map Thread.state = ts.map Thread.result := by
  have step_result : ∀ t : Thread σ, t.step.result = t.result := by
    rintro ⟨s, _ | ⟨f, fs⟩⟩ <;> rfl
  have inv : ∀ ts : List (Thread σ),
      (runSchedule ts sched).map Thread.result = ts.map Thread.result := by
    clear h
    induction sched with
    | nil => intro ts; rfl
    | cons i sched ih =>
      intro ts
      rw [runSchedule, List.foldl_cons]
      have := ih (ts.modify i Thread.step)
      rw [runSchedule] at this
      rw [this]
      apply List.ext_getElem
      · simp
      · intro j h1 h2
        simp only [List.getElem_map, List.getElem_modify]
        split
        · exact step_result _
        · rfl
  rw [← inv ts]
  apply List.map_congr_left
  intro t ht
  rw [Thread.result, h t ht]; rfl

namespace Mem
variable {α : Type}

/-- the array of the first `n` values of `f` -/
def arr (n : ℕ) (f : ℕ → α) : Array α := Array.ofFn fun i : Fin n => f i

@[simp] theorem size_arr (n : ℕ) (f : ℕ → α) : (arr n f).size = n := by simp [arr]

theorem get_arr {n i : ℕ} (f : ℕ → α) (h : i < n) : get (arr n f) i = some (f i) := by
  simp [get, arr, h]

theorem arr_congr {n : ℕ} {f g : ℕ → α} (h : ∀ i < n, f i = g i) : arr n f = arr n g := by
  apply Array.ext
  · simp
  · intro i h1 h2; simp [arr]; exact h i (by simpa using h1)

theorem arr_inj {n : ℕ} {f g : ℕ → α} (h : arr n f = arr n g) {i : ℕ} (hi : i < n) : f i = g i := by
  have := get_arr f hi
  rw [h, get_arr g hi] at this
  exact (Option.some.inj this).symm

theorem set_arr {n i : ℕ} (f : ℕ → α) (v : α) (h : i < n) :
    set (arr n f) i v = some (arr n (Function.update f i v)) := by
  have hs : i < (arr n f).size := by simpa using h
  rw [set, dif_pos hs]
  congr 1
  apply Array.ext
  · simp
  · intro j h1 h2
    simp only [arr, Array.getElem_set, Array.getElem_ofFn, Function.update_apply]
    by_cases hj : i = j
    · simp [hj]
    · have hj' : ¬ j = i := fun hh => hj hh.symm
      simp [hj, hj']

theorem swap_arr {n i j : ℕ} (f : ℕ → α) (hi : i < n) (hj : j < n) :
    swap (arr n f) i j =
      some (arr n (Function.update (Function.update f i (f j)) j (f i))) := by
  simp [swap, get_arr f hi, get_arr f hj, set_arr _ _ hi, set_arr _ _ hj]

theorem exists_arr (a : Array α) [Inhabited α] : a = arr a.size fun i => a[i]! := by
  apply Array.ext
  · simp
  · intro i h1 h2; simp [arr]

end Mem

/-! ## chunks -/
variable {α β : Type}

theorem chunksAux_flatten {n : ℕ} (hn : 0 < n) : ∀ (fuel : ℕ) (l : List α), l.length ≤ fuel →
    (chunksAux n fuel l).flatten = l := by
  intro fuel
  induction fuel with
  | zero => intro l h; simp at h; simp [chunksAux, h]
  | succ fuel ih =>
    intro l h
    unfold chunksAux
    split
    · rename_i he; simp at he; simp [he]
    · rename_i he
      have : (l.drop n).length ≤ fuel := by
        rw [List.length_drop]
        simp at he
        have : l.length ≠ 0 := by simpa using he
        omega
      rw [List.flatten_cons, ih _ this, List.take_append_drop]

/-- `zip` of the chunks of two lists of equal length pairs up chunks of equal length whose
concatenations are the two lists. -/
theorem chunksAux_zip {n : ℕ} (hn : 0 < n) : ∀ (fuel : ℕ) (l : List α) (l' : List β),
    l.length = l'.length → l.length ≤ fuel →
    (chunksAux n fuel l).length = (chunksAux n fuel l').length ∧
    ∀ p ∈ (chunksAux n fuel l).zip (chunksAux n fuel l'), p.1.length = p.2.length := by
  intro fuel
  induction fuel with
  | zero => intro l l' _ _; simp [chunksAux]
  | succ fuel ih =>
    intro l l' h hf
    unfold chunksAux
    by_cases he : l = []
    · subst he
      have : l' = [] := by simpa using h.symm
      simp [this]
    · have he' : l' ≠ [] := by rintro rfl; simp at h; exact he h
      have : (l.drop n).length ≤ fuel := by
        rw [List.length_drop]
        have : l.length ≠ 0 := by simpa using he
        omega
      obtain ⟨h1, h2⟩ := ih (l.drop n) (l'.drop n) (by simp [h]) this
      have e1 : l.isEmpty = false := by simpa using he
      have e2 : l'.isEmpty = false := by simpa using he'
      simp only [e1, e2, Bool.false_eq_true, if_false, List.length_cons, h1, true_and,
        List.zip_cons_cons]
      intro p hp
      rcases List.mem_cons.1 hp with rfl | hp
      · simp [h]
      · exact h2 p hp

/-- mapping over zipped chunks and concatenating is `zipWith` -/
theorem chunksAux_zipWith {γ : Type} (f : α → β → γ) {n : ℕ} (hn : 0 < n) :
    ∀ (fuel : ℕ) (l : List α) (l' : List β), l.length ≤ fuel → l.length = l'.length →
    (List.zipWith (List.zipWith f) (chunksAux n fuel l) (chunksAux n fuel l')).flatten =
      List.zipWith f l l' := by
  intro fuel
  induction fuel with
  | zero => intro l l' h h'; simp at h; subst h; simp [chunksAux]
  | succ fuel ih =>
    intro l l' hf h
    unfold chunksAux
    by_cases he : l = []
    · subst he; simp
    · have he' : l' ≠ [] := by rintro rfl; simp at h; exact he h
      have : (l.drop n).length ≤ fuel := by
        rw [List.length_drop]
        have : l.length ≠ 0 := by simpa using he
        omega
      have e1 : l.isEmpty = false := by simpa using he
      have e2 : l'.isEmpty = false := by simpa using he'
      simp only [e1, e2, Bool.false_eq_true, if_false, List.zipWith_cons_cons, List.flatten_cons]
      rw [ih _ _ this (by simp [h]), ← List.zipWith_append (by simp [h]), List.take_append_drop,
        List.take_append_drop]

end Halo
