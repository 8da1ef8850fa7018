import Verif.Model.Wrappers
import Verif.Spec.Table

/-!
# Transposing tables with `zip`
-/

namespace Clever

variable {α : Type}

theorem min?_getD_le (l : List Nat) (x : Nat) (h : x ∈ l) : l.min?.getD 0 ≤ x := by
  cases hm : l.min? with
  | none => rw [List.min?_eq_none_iff] at hm; simp [hm] at h
  | some m =>
    have := (List.min?_eq_some_iff.mp hm).2 x h
    simpa using this

theorem filterMap_col (rows : List (List α)) (j : Nat) (h : ∀ r ∈ rows, j < r.length) (i : Nat) :
    (rows.filterMap (·[j]?))[i]? = rows[i]?.bind (·[j]?) := by
  induction rows generalizing i with
  | nil => simp
  | cons r rows ih =>
    have hr : r[j]? = some (r[j]'(h r (by simp))) := List.getElem?_eq_getElem _
    rw [List.filterMap_cons_some (f := fun x : List α => x[j]?) hr]
    cases i with
    | zero => simp [hr]
    | succ i => simp [ih (fun r hr => h r (by simp [hr])) i]

/-- The number of columns that `zip` keeps. -/
def minWidth (rows : List (List α)) : Nat := (rows.map List.length).min?.getD 0

theorem zipRows_eq (rows : List (List α)) (h : rows ≠ []) :
    zipRows rows = (List.range (minWidth rows)).map fun j => rows.filterMap (·[j]?) := by
  cases rows with
  | nil => exact absurd rfl h
  | cons r rs => rfl

/-- `zip` keeps the columns that every row has. -/
theorem entry_zipRows (rows : List (List α)) (h : rows ≠ []) (i j : Nat) :
    Spec.entry (zipRows rows) j i = if j < minWidth rows then Spec.entry rows i j else none := by
  rw [zipRows_eq rows h]
  unfold Spec.entry
  by_cases hj : j < minWidth rows
  · rw [if_pos hj]
    rw [List.getElem?_map, List.getElem?_range hj]
    simp only [Option.map_some, Option.bind_some]
    apply filterMap_col
    intro r hr
    exact Nat.lt_of_lt_of_le hj (min?_getD_le _ _ (List.mem_map_of_mem hr))
  · rw [if_neg hj, List.getElem?_eq_none (by simp; omega)]
    rfl

theorem minWidth_rect {rows : List (List α)} (hr : Spec.Rect rows) {r : List α} (h : r ∈ rows) :
    minWidth rows = r.length := by
  unfold minWidth
  cases hm : (rows.map List.length).min? with
  | none => rw [List.min?_eq_none_iff] at hm; simp at hm; simp [hm] at h
  | some m =>
    obtain ⟨h1, -⟩ := List.min?_eq_some_iff.mp hm
    simp only [List.mem_map] at h1
    obtain ⟨r', hr', rfl⟩ := h1
    exact hr r' hr' r h

theorem zipRows_rect (rows : List (List α)) : Spec.Rect (zipRows rows) := by
  cases hrows : rows with
  | nil => simp [zipRows, Spec.Rect]
  | cons x xs =>
    rw [← hrows]
    have hne : rows ≠ [] := by simp [hrows]
    have key : ∀ r ∈ zipRows rows, r.length = rows.length := by
      intro r hr
      rw [zipRows_eq rows hne] at hr
      simp only [List.mem_map, List.mem_range] at hr
      obtain ⟨j, hj, rfl⟩ := hr
      have hall : ∀ r ∈ rows, j < r.length := fun r hr =>
        Nat.lt_of_lt_of_le hj (min?_getD_le _ _ (List.mem_map_of_mem hr))
      clear hj hne hrows
      induction rows with
      | nil => rfl
      | cons r rs ih =>
        have hr : r[j]? = some (r[j]'(hall r (by simp))) := List.getElem?_eq_getElem _
        rw [List.filterMap_cons_some (f := fun x : List α => x[j]?) hr]
        simp [ih (fun r hr => hall r (by simp [hr]))]
    intro r hr r' hr'
    rw [key r hr, key r' hr']

/-- For a rectangular table, `zip` gives the transpose. -/
theorem zipRows_transpose (rows : List (List α)) (hr : Spec.Rect rows) :
    Spec.IsTranspose rows (zipRows rows) := by
  intro i j
  cases hrows : rows with
  | nil => simp [zipRows, Spec.entry]
  | cons x xs =>
    rw [← hrows]
    rw [entry_zipRows rows (by simp [hrows])]
    split
    · rfl
    · next hj =>
      unfold Spec.entry
      cases hi : rows[i]? with
      | none => rfl
      | some r =>
        rw [Option.bind_some, List.getElem?_eq_none]
        rw [minWidth_rect hr (List.mem_of_getElem? hi)] at hj
        omega

/-- The check `len(set(map(len, rows))) > 1`. -/
theorem ragged_iff (rows : List (List α)) :
    (rows.map List.length).dedup.length > 1 ↔ ¬ Spec.Rect rows := by
  constructor
  · intro h hr
    have hle : ∀ x ∈ (rows.map List.length).dedup, ∀ y ∈ (rows.map List.length).dedup, x = y := by
      intro x hx y hy
      simp only [List.mem_dedup, List.mem_map] at hx hy
      obtain ⟨r, h1, rfl⟩ := hx
      obtain ⟨r', h2, rfl⟩ := hy
      exact hr r h1 r' h2
    have hn := List.nodup_dedup (rows.map List.length)
    match hd : (rows.map List.length).dedup with
    | [] => simp [hd] at h
    | [x] => simp [hd] at h
    | x :: y :: l =>
      rw [hd] at hle hn
      have := hle x (by simp) y (by simp)
      simp [this] at hn
  · intro h
    by_contra hc
    apply h
    have hlen : (rows.map List.length).dedup.length ≤ 1 := by omega
    intro r hr r' hr'
    have h1 : r.length ∈ (rows.map List.length).dedup := by
      rw [List.mem_dedup]; exact List.mem_map_of_mem hr
    have h2 : r'.length ∈ (rows.map List.length).dedup := by
      rw [List.mem_dedup]; exact List.mem_map_of_mem hr'
    match hd : (rows.map List.length).dedup with
    | [] => simp [hd] at h1
    | [x] => rw [hd] at h1 h2; simp at h1 h2; omega
    | x :: y :: l => simp [hd] at hlen

/-- Transposing invents no cells. -/
theorem mem_zipRows {rows : List (List α)} {r : List α} (h : r ∈ zipRows rows) {x : α} (hx : x ∈ r) :
    ∃ r' ∈ rows, x ∈ r' := by
  cases hrows : rows with
  | nil => simp [hrows, zipRows] at h
  | cons y ys =>
    rw [zipRows_eq rows (by simp [hrows])] at h
    simp only [List.mem_map] at h
    obtain ⟨j, -, rfl⟩ := h
    simp only [List.mem_filterMap] at hx
    obtain ⟨r', hr', hx⟩ := hx
    exact ⟨r', hrows ▸ hr', List.mem_of_getElem? hx⟩

end Clever
