import Verif.Proofs.MaskedAbstraction
import Verif.Props.Patterns

/-!
# C119: row patterns of texts with quotes
-/

namespace Clever.Props

open Clever Spec

/-! ## C119 -/

theorem limitedRows_ok {limit : Int} {d q : Char} {rs : List Str} (h : (limitedRows limit d q rs).2 = none) :
    (limitedRows limit d q rs).1 = rs.map (recordRow d q) := by
  induction rs with
  | nil => rfl
  | cons r rs ih =>
    rw [limitedRows] at h ⊢
    split at h
    · rename_i hf
      rw [if_pos hf, List.map_cons, ih h]
    · cases h

theorem length_recordRow {d q : Char} {r : Str} (h : r ≠ []) : (recordRow d q r).length = (rawCells d q false r).length := by
  rw [recordRow, if_neg h]
  have hne := rawCells_ne d q false r
  simp only
  split
  · cases hg : (rawCells d q false r).getLast? with
    | none => exact absurd (List.getLast?_eq_none_iff.1 hg) hne
    | some x =>
      have : 0 < (rawCells d q false r).length := List.length_pos_iff.2 hne
      simp
      omega
  · simp

/-- **C119.**  For a dialect with a quote character and without escape character, and a text in which the quotes are
balanced: the row patterns are, in order, those of the non-blank rows that the parser returns for the same data.
Delimiters and line breaks between quotes do not count. -/
theorem C119_patterns_agree (limit : Int) (hl : InLong limit) (d q : Char) (hd : isNL d = false) (hq : isNL q = false)
    (hdq : d ≠ q) (hq0 : q ≠ NUL) (t : Str) (hnul : NUL ∉ t) (hne : t ≠ [])
    (hhd : ∀ c, t.head? = some c → isNL c = false) (heven : t.count q % 2 = 0) (rows : List (List Str))
    (hparse : parseString limit (dialectOf (some d) (some q) none) t = (rows, none)) :
    ∃ A, makeAbstraction t (dialectOf (some d) (some q) none) = .ok A ∧
      splitOn 'R' A = (rows.filter (· ≠ [])).map (fun r => rowPattern r.length) := by
  refine ⟨abstraction d q NUL t, ?_, ?_⟩
  · apply makeAbstraction_of <;> rfl
  · have hrows : rows = ((records q false t).map (recordRow d q)).map (·.map Prod.fst) := by
      rw [parseString_eq _ _ _ _ hl, parseText_limited _ _ _ rfl rfl hnul] at hparse
      simp only [cfgOf, Option.getD_some, Option.getD_none, Prod.mk.injEq, Option.map_eq_none_iff] at hparse
      obtain ⟨h1, h2⟩ := hparse
      rw [limitedRows_ok h2] at h1
      exact h1.symm
    have h := rows_quoted hd hq hdq hq0 t hnul hne hhd heven
    rw [splitChar_eq] at h
    rw [h, hrows]
    clear h hrows hparse
    induction records q false t with
    | nil => rfl
    | cons r rs ih =>
      by_cases h : r = []
      · subst h
        simpa [recordRow] using ih
      · have hlen := length_recordRow (d := d) (q := q) h
        have hpos : 0 < (rawCells d q false r).length := List.length_pos_iff.2 (rawCells_ne d q false r)
        have hne' : (recordRow d q r).map Prod.fst ≠ [] := by
          intro h0
          rw [List.map_eq_nil_iff] at h0
          rw [h0] at hlen
          simp at hlen
          omega
        rw [List.filter_cons_of_pos (by simpa using h), List.map_cons, List.map_cons, List.map_cons,
          List.filter_cons_of_pos (by simpa using hne'), List.map_cons, ih]
        congr 1
        rw [pat_eq, List.length_map, hlen]
        congr 1
        omega

/-- Delimiters, line breaks and doubled quotes between quotes. -/
example : parseString 10 (dialectOf (some ',') (some '"') none) "a,\"b,\n\"\"c\"\r\n\n\"\",d\"e,f\"g,\n".toList =
      ([["a".toList, "b,\n\"c".toList], [], [[], "d\"e,f\"g".toList, []]], none) ∧
    makeAbstraction "a,\"b,\n\"\"c\"\r\n\n\"\",d\"e,f\"g,\n".toList (dialectOf (some ',') (some '"') none) =
      .ok "CDCRCDCDC".toList := by decide

/-- Balanced quotes are needed: after an open quote the abstraction counts delimiters that the parser does not. -/
theorem C119_balance_needed :
    parseString 10 (dialectOf (some ',') (some '"') none) "a,\"b,c".toList = ([["a".toList, "b,c".toList]], none) ∧
    ∃ A, makeAbstraction "a,\"b,c".toList (dialectOf (some ',') (some '"') none) = .ok A ∧
      (splitOn 'R' A).map (fun r => (splitOn 'D' r).length) = [3] :=
  ⟨by decide, _, rfl, by decide⟩

/-- With an escape character the two may differ: an escaped line break belongs to the cell for the parser and ends the
row in the abstraction. -/
theorem C119_escapes_differ :
    parseString 10 (dialectOf (some ',') none (some '\\')) "a\\\nb".toList = ([["a\nb".toList]], none) ∧
    makeAbstraction "a\\\nb".toList (dialectOf (some ',') none (some '\\')) = .ok "CRC".toList := by decide

end Clever.Props
