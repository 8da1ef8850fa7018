import Verif.Proofs.NormalForm

namespace Clever

open Clever.Spec

/-- The records of a row and of what follows are all records of the text. -/
theorem records_row_mem {q : Char} {row t : Str} (h : OkRow q false row)
    (ht : t = [] ∨ ∃ c r, t = c :: r ∧ isNL c = true) :
    (row ≠ [] → row ∈ records q false (row ++ t)) ∧ ∀ r ∈ records q false t, r ≠ [] → r ∈ records q false (row ++ t) := by
  by_cases h0 : row ++ t = []
  · have h1 : row = [] := (List.append_eq_nil_iff.mp h0).1
    have h2 : t = [] := (List.append_eq_nil_iff.mp h0).2
    subst h1; subst h2
    exact ⟨fun h => absurd rfl h, fun r hr _ => hr⟩
  · obtain ⟨rest, hrest⟩ : ∃ rest, (t = [] ∧ rest = []) ∨ records q false t = [] :: rest := by
      rcases ht with rfl | ⟨c, t, rfl, hc⟩
      · exact ⟨[], .inl ⟨rfl, rfl⟩⟩
      · obtain ⟨t', -, h'⟩ := nl_split c t hc
        exact ⟨_, .inr (h' q)⟩
    rw [recs1_spec q false _ h0, recs1_okRow hrest h]
    refine ⟨fun _ => List.mem_cons_self .., fun r hr hr0 => ?_⟩
    rcases hrest with ⟨rfl, -⟩ | hrest
    · simp [records] at hr
    · rw [hrest] at hr
      rcases List.mem_cons.mp hr with h | h
      · exact absurd h hr0
      · exact List.mem_cons_of_mem _ h

theorem records_nl_mem {q c : Char} {t : Str} (hc : isNL c = true) :
    ∀ r ∈ records q false t, r ∈ records q false (c :: t) := by
  intro r hr
  simp only [isNL, Bool.or_eq_true, decide_eq_true_eq] at hc
  rw [records]
  split
  · exact hr
  · rw [if_pos (by rcases hc with h | h <;> simp [h])]
    exact List.mem_cons_of_mem _ hr

theorem records_nls_mem {q : Char} {s t : Str} (hs : ∀ c ∈ s, isNL c = true) :
    ∀ r ∈ records q false t, r ∈ records q false (s ++ t) := by
  induction s with
  | nil => intro r hr; exact hr
  | cons c s ih =>
    intro r hr
    exact records_nl_mem (hs c (by simp)) r (ih (fun x hx => hs x (List.mem_cons_of_mem _ hx)) r hr)

/-- If no row ends inside quotes, every row of `split_file` that is not blank is a record. -/
theorem splitFile_records {q : Char} {s : Str} (h : ∀ row ∈ splitFile s, OkRow q false row) :
    ∀ row ∈ splitFile s, row ≠ [] → row ∈ records q false s := by
  obtain ⟨sep, tail, hs, ht, hsep, hne⟩ := splitFile_join s
  generalize splitFile s = rows at h hs hne
  have tailOk : tail = [] ∨ ∃ c r, tail = c :: r ∧ isNL c = true := by
    cases tail with
    | nil => exact .inl rfl
    | cons c r => exact .inr ⟨c, r, rfl, ht c (by simp)⟩
  have key : ∀ rows : List Str, (sep ≠ [] ∨ ∃ r, rows = [r]) → (∀ row ∈ rows, OkRow q false row) →
      ∀ row ∈ rows, row ≠ [] → row ∈ records q false (joinStr sep rows ++ tail) := by
    intro rows
    induction rows with
    | nil => intro _ _ row hr; simp at hr
    | cons x rows ih =>
      intro hne hok row hr h0
      cases rows with
      | nil =>
        rw [List.mem_singleton] at hr
        subst hr
        rw [joinStr]
        exact (records_row_mem (hok row (by simp)) tailOk).1 h0
      | cons y rows =>
        have hne' : sep ≠ [] := by
          rcases hne with h | ⟨_, h⟩
          · exact h
          · simp at h
        rw [joinStr, List.append_assoc, List.append_assoc]
        have hsep' : sep ++ (joinStr sep (y :: rows) ++ tail) = [] ∨
            ∃ c r, sep ++ (joinStr sep (y :: rows) ++ tail) = c :: r ∧ isNL c = true := by
          cases sep with
          | nil => exact absurd rfl hne'
          | cons c sep => exact .inr ⟨c, _, rfl, hsep c (by simp)⟩
        obtain ⟨m1, m2⟩ := records_row_mem (hok x (by simp)) hsep'
        rcases List.mem_cons.mp hr with rfl | hr
        · exact m1 h0
        · exact m2 _ (records_nls_mem hsep _ (ih (.inl hne') (fun z hz => hok z (List.mem_cons_of_mem _ hz)) row hr h0)) h0
  intro row hr h0
  rw [hs]
  exact key rows hne h row hr h0

/-- Every row of `split_file` that is not blank is parsed into a row with the cells between its delimiters. -/
theorem parse_has_row {limit : Int} (hl : InLong limit) {data : Str} (hnul : NUL ∉ data)
    (hlim : (data.length : Int) ≤ limit) {D Q : Option Char}
    (hok : ∀ row ∈ splitFile data, OkRow (Q.getD NUL) false row) {row : Str} (hr : row ∈ splitFile data) (h0 : row ≠ []) :
    ∃ r ∈ (parseString limit (dialectOf D Q none) data).1,
      r.length = (rawCells (D.getD NUL) (Q.getD NUL) false row).length := by
  rw [parseString_eq _ _ _ _ hl, parseText_spec _ _ _ rfl rfl hnul hlim]
  have := splitFile_records hok row hr h0
  refine ⟨(recordRow (D.getD NUL) (Q.getD NUL) row).map (mkCell mkPlain), ?_, ?_⟩
  · simp only [cfgOf, Spec.parse, List.map_map, List.mem_map, Function.comp_apply]
    exact ⟨row, this, rfl⟩
  · rw [List.length_map]
    exact recordRow_length h0

theorem okRow_init {d q : Char} (hdq : d ≠ q) : ∀ {a : Str} {inQ : Bool}, OkRow q inQ (a ++ [d]) → OkRow q inQ a
  | [], inQ, h => by
    have h2 := h.2
    have : (d == q) = false := by simpa using hdq
    simp only [this, Bool.xor_false, OkRow] at h2
    exact h2
  | c :: a, inQ, h => ⟨h.1, okRow_init hdq h.2⟩

/-- A delimiter at the end, outside quotes, begins an empty cell. -/
theorem rawCells_last {d q : Char} (hdq : d ≠ q) : ∀ {a : Str} {inQ : Bool}, OkRow q inQ a →
    rawCells d q inQ (a ++ [d]) = rawCells d q inQ a ++ [[]]
  | [], inQ, h => by
    simp only [OkRow] at h
    subst h
    simp [rawCells, hdq]
  | c :: a, inQ, h => by
    rw [List.cons_append, rawCells, rawCells]
    split
    · rename_i hc
      have h2 := h.2
      have : (c == q) = false := by simpa using hc.1
      rw [this, hc.2.1] at h2
      rw [rawCells_last hdq (inQ := false) h2]; rfl
    · rw [rawCells_last hdq h.2]
      cases hr : rawCells d q (inQ ^^ (c == q)) a with
      | nil => exact absurd hr (rawCells_ne_nil _ _ _ _)
      | cons x y => rfl

/-- The number of cells of a row: one more than `split_row` finds if the row ends with the delimiter. -/
theorem rawCells_count {d q : Char} (hdq : d ≠ q) (hd : isNL d = false) {row : Str}
    (hcells : ∀ cell ∈ splitRow row [d] [q], OkRow q false cell ∧ cell ≠ []) :
    OkRow q false row ∧ (rawCells d q false row).length =
      (splitRow row [d] [q]).length + if row.getLast? = some d then 1 else 0 := by
  by_cases hlast : row.getLast? = some d
  · have hrow : OkRow q false row := by
      rw [← joinWith_rawCells d q row false]
      refine okRow_join hdq hd fun x hx => ?_
      by_cases hx0 : x = []
      · subst hx0; rfl
      · rcases splitRow_eq hdq row with h1 | ⟨-, h1⟩
        · exact (hcells x (by rw [h1]; exact hx)).1
        · exact (hcells x (by rw [h1]; exact mem_dropEmptyLast hx hx0)).1
    refine ⟨hrow, ?_⟩
    rw [if_pos hlast]
    obtain ⟨a, rfl⟩ : ∃ a, row = a ++ [d] := by
      have hne : row ≠ [] := by rintro rfl; simp at hlast
      rw [List.getLast?_eq_some_getLast hne, Option.some.injEq] at hlast
      exact ⟨row.dropLast, by rw [← hlast, List.dropLast_append_getLast]⟩
    have hraw := rawCells_last hdq (okRow_init hdq hrow)
    rcases splitRow_eq hdq (a ++ [d]) with h1 | ⟨-, h1⟩
    · exact absurd rfl (hcells [] (by rw [h1, hraw]; simp)).2
    · rw [h1, hraw]
      simp [dropEmptyLast]
  · have he := splitRow_of_last hdq hlast
    refine ⟨?_, ?_⟩
    · rw [← joinWith_rawCells d q row false, ← he]
      exact okRow_join hdq hd fun x hx => (hcells x hx).1
    · rw [if_neg hlast, he]; rfl

/-- All rows have the same number of cells exactly if all rows, or none, end with the delimiter. -/
theorem quoted_rectangular {limit : Int} (hl : InLong limit) {data : Str} (hnul : NUL ∉ data)
    (hlim : (data.length : Int) ≤ limit) {d q : Char} (hdq : d ≠ q) (hd : isNL d = false)
    (hs : everyRowSameLength (splitFile data) [d] [q] = true)
    (hcells : ∀ row ∈ splitFile data, ∀ cell ∈ splitRow row [d] [q], OkRow q false cell ∧ cell ≠ []) :
    (∃ k, ∀ r ∈ (parseString limit (dialectOf (some d) (some q) none) data).1, r = [] ∨ r.length = k) ↔
    (∀ row ∈ splitFile data, row.getLast? = some d) ∨ (∀ row ∈ splitFile data, row.getLast? ≠ some d) := by
  obtain ⟨n, hn⟩ := sameLength_spec hs
  have hok : ∀ row ∈ splitFile data, OkRow q false row := fun row hr => (rawCells_count hdq hd (hcells row hr)).1
  have hlen : ∀ row ∈ splitFile data, (rawCells d q false row).length = n + if row.getLast? = some d then 1 else 0 := by
    intro row hr
    rw [(rawCells_count hdq hd (hcells row hr)).2, (hn row hr).2]
  constructor
  · rintro ⟨k, hk⟩
    have hrow : ∀ row ∈ splitFile data, (rawCells d q false row).length = k := by
      intro row hr
      have h0 : row ≠ [] := by
        rintro rfl
        exact absurd (hn [] hr).1 (by simp [isInfixOf])
      obtain ⟨r, hr', hrl⟩ := parse_has_row hl hnul hlim (D := some d) (Q := some q) hok hr h0
      have hpos : (rawCells d q false row).length ≠ 0 := by
        exact fun h => rawCells_ne_nil _ _ _ _ (List.length_eq_zero_iff.mp h)
      rcases hk r hr' with rfl | h
      · exact absurd hrl.symm hpos
      · rw [← h]; exact hrl.symm
    by_cases hall : ∀ row ∈ splitFile data, row.getLast? ≠ some d
    · exact .inr hall
    · left
      obtain ⟨r0, hr0, hd0⟩ : ∃ row ∈ splitFile data, row.getLast? = some d := by
        apply Classical.byContradiction
        intro h
        exact hall fun row hr e => h ⟨row, hr, e⟩
      intro row hr
      apply Classical.byContradiction
      intro hne
      have h1 := hlen r0 hr0
      have h2 := hlen row hr
      rw [hrow r0 hr0, if_pos hd0] at h1
      rw [hrow row hr, if_neg hne] at h2
      omega
  · rintro (h | h)
    · refine ⟨n + 1, parse_lengths hl hnul hlim hok fun row hr _ => ?_⟩
      have := hlen row hr
      rw [if_pos (h row hr)] at this
      exact this
    · refine ⟨n, parse_lengths hl hnul hlim hok fun row hr _ => ?_⟩
      have := hlen row hr
      rw [if_neg (h row hr)] at this
      exact this

end Clever
