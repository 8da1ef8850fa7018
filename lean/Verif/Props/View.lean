import Verif.Model.View
import Verif.Props.Standardize
import Verif.Props.Wrappers

/-!
# Properties of transposing: C56 and C67
-/

namespace Clever.Spec

/-- `T` is the transpose of `rows` with the missing cells filled up: there is an entry for every row and every
column that some row has, and it is `none` if the row has no such cell. -/
def IsPaddedTranspose (rows : List (List Str)) (T : List (List (Option Str))) : Prop :=
  ∀ i j, entry T j i = open scoped Classical in
    if i < rows.length ∧ ∃ r ∈ rows, j < r.length then some (entry rows i j) else none

end Clever.Spec

namespace Clever.Props

open Spec (StandardText Encodes DetectedRows)

/-! ## C56 Transposing loses no cells -/

theorem fixRow_eq {m : Nat} {r : List Str} (h : r.length ≤ m) :
    fixRow m r = r.map some ++ List.replicate (m - r.length) none := by
  unfold fixRow
  split
  · next h1 => rw [h1]; simp
  · rfl

theorem fixRow_getElem? {m : Nat} {r : List Str} (h : r.length ≤ m) (j : Nat) :
    (fixRow m r)[j]? = if j < m then some r[j]? else none := by
  rw [fixRow_eq h, List.getElem?_append]
  simp only [List.length_map, List.getElem?_map]
  by_cases hj : j < r.length
  · rw [if_pos hj, if_pos (by omega), List.getElem?_eq_getElem hj]
    rfl
  · rw [if_neg hj, List.getElem?_replicate]
    by_cases hjm : j < m
    · rw [if_pos (by omega), if_pos hjm, List.getElem?_eq_none (by omega)]
    · rw [if_neg (by omega), if_neg hjm]

/-- **C56 for `view --transpose`**: it shows the transpose, with missing cells filled up, of any table that is not
empty. -/
theorem C56_padded (rows : List (List Str)) (h : rows ≠ []) :
    ∃ T, viewTranspose rows = .ok T ∧ Spec.IsPaddedTranspose rows T := by
  unfold viewTranspose maxRowLength
  cases hm : (rows.map List.length).max? with
  | none => rw [List.max?_eq_none_iff] at hm; simp at hm; exact absurd hm h
  | some m =>
    obtain ⟨h1, h2⟩ := List.max?_eq_some_iff.mp hm
    refine ⟨_, rfl, ?_⟩
    have hle : ∀ r ∈ rows, r.length ≤ m := fun r hr => h2 _ (List.mem_map_of_mem hr)
    have hlen : ∀ r ∈ rows, (fixRow m r).length = m := by
      intro r hr
      have := hle r hr
      rw [fixRow_eq this]
      simp
      omega
    have hrect : Spec.Rect (rows.map (fixRow m)) := by
      intro r hr r' hr'
      simp only [List.mem_map] at hr hr'
      obtain ⟨x, hx, rfl⟩ := hr
      obtain ⟨y, hy, rfl⟩ := hr'
      rw [hlen x hx, hlen y hy]
    intro i j
    rw [zipRows_transpose _ hrect i j]
    unfold Spec.entry
    rw [List.getElem?_map]
    have hex : (∃ r ∈ rows, j < r.length) ↔ j < m := by
      constructor
      · rintro ⟨r, hr, hj⟩
        have := hle r hr
        omega
      · intro hj
        simp only [List.mem_map] at h1
        obtain ⟨r, hr, rfl⟩ := h1
        exact ⟨r, hr, hj⟩
    by_cases hi : i < rows.length
    · rw [List.getElem?_eq_getElem hi]
      simp only [Option.map_some, Option.bind_some]
      rw [fixRow_getElem? (hle _ (List.getElem_mem hi))]
      by_cases hj : j < m
      · rw [if_pos hj, if_pos ⟨hi, hex.mpr hj⟩]
      · rw [if_neg hj, if_neg (fun h => hj (hex.mp h.2))]
    · rw [List.getElem?_eq_none (by omega), if_neg (fun h => hi h.1)]
      rfl

/-- The command shows that table, and without `--transpose` the table itself. -/
theorem C56_view (sys : Sys) (p : Path) (enc : Option Str) (n : Option Int) (w w' : World) (rows : List (List Str))
    (h : readTable sys p none enc n w = (.ok rows, w')) :
    viewCmd sys p enc n false w = (.ok (0, some (rows.map (·.map some))), w') ∧
    (rows ≠ [] → ∃ T, Spec.IsPaddedTranspose rows T ∧ viewCmd sys p enc n true w = (.ok (0, some T), w')) := by
  constructor
  · unfold viewCmd
    rw [h]
    rfl
  · intro hne
    obtain ⟨T, h1, h2⟩ := C56_padded rows hne
    refine ⟨T, h2, ?_⟩
    unfold viewCmd
    rw [h]
    simp only [if_true, h1]

/-- A ragged table. -/
example : viewTranspose [["a".toList, "b".toList], ["c".toList], []] =
    .ok [[some "a".toList, some "c".toList, none], [some "b".toList, none, none]] := by
  decide

/-- **C56 for `standardize --transpose`**, to the standard output: a rectangular table is transposed; of a ragged one,
the columns that every row has. -/
theorem C56_stdout_partial (sys : Sys) (a : StdArgs) (hi : a.inPlace = false) (ht : a.transpose = true)
    (p : Path) (enc : Option Str) (w w' : World) (c : Nat) (hc : c ≠ 1)
    (h : handlePath sys a p none enc w = (.ok c, w')) :
    ∃ rows T out, DetectedRows sys w p enc a.numChars rows ∧ StandardText T out ∧ w'.stdout = w.stdout ++ out ∧
      (Spec.Rect rows → Spec.IsTranspose rows T) ∧
      ∀ i j, (∀ r ∈ rows, j < r.length) → Spec.entry T j i = Spec.entry rows i j := by
  obtain ⟨text, r, w1, h1, h2, hf, hl, hs, h | ⟨d, rfl, h⟩⟩ := handlePath_inv h
  · exact absurd h.2.1 hc
  · unfold deliver at h
    rw [hi] at h
    simp only [Bool.false_eq_true, if_false] at h
    obtain ⟨text', rows, h3, h4, h5, -, -, h6⟩ := toStdout_inv h
    rw [text_files (w := w) (by rw [hf]), h1] at h3
    cases h3
    rw [hl] at h4
    rw [ht] at h5
    refine ⟨rows, zipRows rows, excelText (zipRows rows), ⟨text, d, h1, h2, h4⟩, standardText_excelText _,
      by rw [h5, hs]; rfl, zipRows_transpose rows, ?_⟩
    intro i j hj
    cases hrows : rows with
    | nil => simp [zipRows, Spec.entry]
    | cons x xs =>
      rw [← hrows, entry_zipRows rows (by simp [hrows]), if_pos]
      unfold minWidth
      cases hm : (rows.map List.length).min? with
      | none => rw [List.min?_eq_none_iff] at hm; simp [hrows] at hm
      | some m =>
        obtain ⟨g1, -⟩ := List.min?_eq_some_iff.mp hm
        simp only [List.mem_map] at g1
        obtain ⟨r, hr, rfl⟩ := g1
        exact hj r hr

/-- In place, the file that is written holds the transpose of a rectangular table. -/
theorem C56_in_place_partial (sys : Sys) (a : StdArgs) (hi : a.inPlace = true) (ht : a.transpose = true)
    (p : Path) (o : Option Path) (enc : Option Str) (w w' : World)
    (hrect : ∀ rows, DetectedRows sys w p enc a.numChars rows → Spec.Rect rows)
    (h : handlePath sys a p o enc w = (.ok 2, w')) :
    ∃ rows T out b, DetectedRows sys w p enc a.numChars rows ∧ Spec.IsTranspose rows T ∧ StandardText T out ∧
      Encodes sys (stdTarget a (w.stdEncoding sys p enc)) out b ∧ w'.files p = some b := by
  obtain ⟨-, -, rows, out, b, h1, h2, h3, h4⟩ := C54_two sys a hi p o enc w w' h
  rw [Spec.output, ht] at h2
  exact ⟨rows, zipRows rows, out, b, h1, zipRows_transpose rows (hrect rows h1), h2, h3, h4⟩

/-- Transposing twice gives the table back, if it is rectangular and has a column. -/
theorem C56_twice_partial (rows : List (List Str)) (hr : Spec.Rect rows) (h : ∀ r ∈ rows, r ≠ []) :
    zipRows (zipRows rows) = rows := by
  have key : ∀ A B : List (List Str), (∀ r ∈ A, r ≠ []) → (∀ r ∈ B, r ≠ []) →
      (∀ i j, Spec.entry A i j = Spec.entry B i j) → A = B := by
    intro A B hA hB he
    apply List.ext_getElem?
    intro i
    have hi := he i
    unfold Spec.entry at hi
    cases ha : A[i]? with
    | none =>
      cases hb : B[i]? with
      | none => rfl
      | some r =>
        have h0 := hi 0
        rw [ha, hb] at h0
        cases r with
        | nil => exact absurd rfl (hB [] (List.mem_of_getElem? hb))
        | cons x xs => simp at h0
    | some r =>
      cases hb : B[i]? with
      | none =>
        have h0 := hi 0
        rw [ha, hb] at h0
        cases r with
        | nil => exact absurd rfl (hA [] (List.mem_of_getElem? ha))
        | cons x xs => simp at h0
      | some r' =>
        congr 1
        apply List.ext_getElem?
        intro j
        have := hi j
        rwa [ha, hb, Option.bind_some, Option.bind_some] at this
  have hlen : ∀ (A : List (List Str)) r, r ∈ zipRows A → r.length = A.length := by
    intro A r hr
    have hne : A ≠ [] := by rintro rfl; simp [zipRows] at hr
    rw [zipRows_eq A hne] at hr
    simp only [List.mem_map, List.mem_range] at hr
    obtain ⟨j, hj, rfl⟩ := hr
    have hall : ∀ r ∈ A, j < r.length := fun r hr =>
      Nat.lt_of_lt_of_le hj (min?_getD_le _ _ (List.mem_map_of_mem hr))
    clear hj hne
    induction A with
    | nil => rfl
    | cons r rs ih =>
      have hr : r[j]? = some (r[j]'(hall r (by simp))) := List.getElem?_eq_getElem _
      rw [List.filterMap_cons_some (f := fun x : List Str => x[j]?) hr]
      simp [ih (fun r hr => hall r (by simp [hr]))]
  refine key _ _ ?_ h ?_
  · intro r hr' h0
    have := hlen _ r hr'
    rw [h0] at this
    have hz : zipRows rows = [] := List.length_eq_zero_iff.mp this.symm
    rw [hz] at hr'
    simp [zipRows] at hr'
  · intro i j
    rw [zipRows_transpose _ (zipRows_rect rows) j i, zipRows_transpose rows hr i j]

/-- **C56 fails for `standardize --transpose`** with a ragged table: the last column is lost. -/
theorem C56_violated :
    let w := demoWorld [("f", "a,b,c\nd,e\nf,g,h\n")]
    let r := standardize demoSys { paths := ["f".toList], transpose := true } w
    parseString w.limit ⟨some ",".toList, some [], some [], false⟩ "a,b,c\nd,e\nf,g,h\n".toList =
      ([["a".toList, "b".toList, "c".toList], ["d".toList, "e".toList], ["f".toList, "g".toList, "h".toList]], none) ∧
    r.1 = .ok 0 ∧ r.2.stdout = "a,d,f\r\nb,e,g\r\n".toList := by
  decide +kernel

/-- **C56 fails for `write_table(transpose=True)`** with a ragged table. -/
theorem C56_write_table_violated :
    let r := (writeTable demoSys ⟨[["a".toList], ["b".toList, "c".toList]], true⟩ "f".toList
      (transpose := true) (encoding := some "ascii".toList)) (demoWorld [])
    r.1 = .ok () ∧ r.2.text demoSys "f".toList (some "ascii".toList) = some "a,b\r\n".toList := by
  decide +kernel

/-! ## C67 view shows every file that can be read -/

/-- Without `--transpose`, or for a table that is not empty, the command fails exactly as `read_table` fails, or
reports that there is no dialect. -/
theorem C67_view_partial (sys : Sys) (p : Path) (enc : Option Str) (n : Option Int) (t : Bool) (w : World)
    (h : t = false ∨ (readTable sys p none enc n w).1 ≠ .ok []) :
    match (readTable sys p none enc n w).1 with
    | .ok _ => ∃ T, (viewCmd sys p enc n t w).1 = .ok (0, some T)
    | .error .noDetectionResult => (viewCmd sys p enc n t w).1 = .ok (1, none)
    | .error e => (viewCmd sys p enc n t w).1 = .error e := by
  rcases hr : readTable sys p none enc n w with ⟨e | rows, w'⟩
  · unfold viewCmd
    rw [hr]
    cases e <;> rfl
  · simp only
    obtain ⟨h1, h2⟩ := C56_view sys p enc n w w' rows hr
    cases t with
    | false => exact ⟨_, by rw [h1]⟩
    | true =>
      obtain ⟨T, -, h3⟩ := h2 (by
        rcases h with h | h
        · simp at h
        · rw [hr] at h
          rintro rfl
          exact h rfl)
      exact ⟨T, by rw [h3]⟩

/-- The view command only reads. -/
theorem C67_reads_only (sys : Sys) (p : Path) (enc : Option Str) (n : Option Int) (t : Bool) (w : World) :
    (viewCmd sys p enc n t w).2.files = w.files := by
  have h : Only (fun _ => False) (readTable sys p none enc n) := by
    unfold readTable listOf streamTable
    refine Only.bind (Only.bind ?_ fun e => (only_openText _ sys p e).bind fun text =>
      Only.bind ?_ fun d => (only_liftExcept _ _).bind fun r => (only_getLimit _).bind fun _ => only_pure _ _)
      fun _ => only_liftExcept _ _
    · cases enc
      · exact only_getEncoding _ _ _
      · exact only_pure _ _
    · refine (only_runDetector _ sys _ _ _).bind fun r => ?_
      cases r
      · exact only_raise _ _
      · exact only_pure _ _
  have h' : (readTable sys p none enc n w).2.files = w.files := funext fun q => h w q id
  unfold viewCmd
  rcases hr : readTable sys p none enc n w with ⟨e | rows, w'⟩
  · rw [hr] at h'
    cases e <;> exact h'
  · rw [hr] at h'
    cases t
    · exact h'
    · simp only [if_true]
      cases viewTranspose rows <;> exact h'

set_option synthInstance.maxSize 1000 in
set_option synthInstance.maxHeartbeats 200000 in
/-- **C67 fails**: `view --transpose` of an empty file ends with a `ValueError`, while `view` shows the empty table. -/
theorem C67_violated :
    (viewCmd demoSys "f".toList none none false (demoWorld [("f", "")])).1 = .ok (0, some []) ∧
    (viewCmd demoSys "f".toList none none true (demoWorld [("f", "")])).1 =
      .error (.valueError "max() arg is an empty sequence") := by
  decide +kernel

end Clever.Props
