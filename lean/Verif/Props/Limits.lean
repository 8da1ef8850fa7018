import Verif.Proofs.ReadBack
import Verif.Proofs.CellChars

/-!
# The field size limit: C65, additions to C01 and C02; the characters of cells: C66
-/

namespace Clever.Props

/-- **C65.**  Lowering the field size limit never changes what is read: the parser gives the same, or it stops after
some of the same rows with the error for the lower limit. -/
theorem C65_lower_limit (low high : Int) (h1 : InLong low) (h2 : InLong high) (h : low ≤ high) (d : SimpleDialect)
    (t : Str) :
    parseString low d t = parseString high d t ∨
    (parseString low d t).2 = some (.parse (.fieldLimit low)) ∧
      ∃ more, (parseString high d t).1 = (parseString low d t).1 ++ more := by
  rcases parseString_lim h1 h2 h d t with h3 | ⟨h3, more, h4⟩
  · exact .inl h3
  · exact .inr ⟨h3, more, h4.symm⟩

/-- Both cases occur. -/
example :
    let d : SimpleDialect := ⟨some ",".toList, some "\"".toList, some [], false⟩
    parseString 3 d "a,b\nc\n".toList = parseString 100 d "a,b\nc\n".toList ∧
    parseString 3 d "a,b\nlong\nc\n".toList = ([["a".toList, "b".toList]], some (.parse (.fieldLimit 3))) ∧
    parseString 100 d "a,b\nlong\nc\n".toList =
      ([["a".toList, "b".toList], ["long".toList], ["c".toList]], none) := by
  decide +kernel

/-- **C01, for any limit**: what is read back is the table that was written, or an error for the limit. -/
theorem C01_any_limit (limit : Int) (hl : InLong limit) (rows : List (List Str))
    (hn : ∀ row ∈ rows, ∀ s ∈ row, NUL ∉ s) :
    ∃ wd text, mkWriter (.name "excel") = .ok wd ∧ wd.writeRows rows = (text, none) ∧
      (readText limit (.name "excel") {} text = .ok rows ∨
       readText limit (.name "excel") {} text = .error (.parse (.fieldLimit limit))) :=
  ⟨excelWriter, _, mkWriter_excel, Prod.ext rfl (writeRows_ok (by decide) rfl rows), excel_read_back limit hl rows hn⟩

/-- **C02, for any limit.** -/
theorem C02_any_limit_partial (limit : Int) (hl : InLong limit) (d q : Char) (e : Option Char)
    (hd : d ≠ NUL ∧ isNL d = false) (hq : q ≠ NUL ∧ isNL q = false) (hdq : d ≠ q)
    (he : ∀ c, e = some c → c ≠ NUL ∧ isNL c = false ∧ c ≠ d ∧ c ≠ q)
    (rows : List (List Str)) (hn : ∀ row ∈ rows, ∀ s ∈ row, NUL ∉ s) :
    ∃ wd text, mkWriter (.simple (dialectOf (some d) (some q) e)) = .ok wd ∧
      wd.writeRows rows = (text, none) ∧
      (readText limit (.simple (dialectOf (some d) (some q) e)) {} text = .ok rows ∨
       readText limit (.simple (dialectOf (some d) (some q) e)) {} text = .error (.parse (.fieldLimit limit))) := by
  have hw : ((simpleWriter d (some q) e).writeRows rows).2 = none :=
    writeRows_ok (by simp [simpleWriter]) rfl rows
  refine ⟨_, ((simpleWriter d (some q) e).writeRows rows).1, mkWriter_simple d (some q) e false,
    by rw [← hw], ?_⟩
  refine read_back_any limit hl (fun l => ?_) _ (makeSimpleDialect_dialectOf _ _ _ _) rows hw hn
    (fun _ _ _ _ h => by simp [simpleWriter] at h)
  constructor <;> simp [simpleWriter, cfgOf, hd, hq, hdq, Ne.symm hdq]
  all_goals
    cases e with
    | none => simp [NUL]
    | some c => have := he c rfl; simp_all

/-- **C66.**  Every character of a cell occurs in the text, except perhaps a newline (which an escape character at
the end of a text gives); no cell contains NUL. -/
theorem C66_cell_characters (limit : Int) (d : SimpleDialect) (t : Str) :
    ∀ r ∈ (parseString limit d t).1, ∀ x ∈ r, ∀ c ∈ x, c ≠ NUL ∧ (c ∈ t ∨ c = '\n') := by
  intro r hr x hx c hc
  rcases parseString_chars limit d t r hr x hx c hc with h | h
  · exact ⟨h.2, .inl h.1⟩
  · subst h; exact ⟨by simp [NUL], .inr rfl⟩

/-- The newline occurs. -/
example :
    parseString 99 ⟨some ",".toList, some "\"".toList, some "\\".toList, false⟩ "\"a\\".toList =
      ([["a\n".toList]], none) := by
  decide +kernel

end Clever.Props
