import Verif.Proofs.Forms

/-!
# C121: what the normal forms accept

The forms are stated as grammars (`Spec/NormalForms`): how the lines are put together from a table, not how they are
taken apart.
-/

namespace Clever.Props

open Clever Clever.Spec

/-- `is_form_1`. -/
theorem C121_form1 (d q : Char) (hdq : d ≠ q) (rows : List Str) : isForm1 rows [d] [q] = true ↔ Form1 d q rows :=
  isForm1_iff hdq rows

/-- `is_form_2` without quote character. -/
theorem C121_form2 (d : Char) (rows : List Str) : isForm2 rows [d] [] = true ↔ Form2 d rows := isForm2_iff d rows

/-- `is_form_3`. -/
theorem C121_form3 (d q : Char) (hq : q = '"' ∨ q = '\'') (hdq : d ≠ q) (rows : List Str) :
    isForm3 rows [d] [q] = true ↔ Form3 d q rows := isForm3_iff hq hdq rows

/-- `is_form_4`. -/
theorem C121_form4 (q : Option Char) (rows : List Str) : isForm4 rows q.toList = true ↔ Form4 q rows := by
  cases q with
  | none => exact isForm4_iff_plain rows
  | some q => exact isForm4_iff_quoted q rows

/-- `is_form_5`. -/
theorem C121_form5 (d q : Char) (hq : q = '"' ∨ q = '\'') (hdq : d ≠ q) (rows : List Str) :
    isForm5 rows [d] [q] = true ↔ Form5 d q rows := isForm5_iff hq hdq rows

/-- `split_file`. -/
theorem C121_lines (data : Str) : LinesOf data (splitFile data) := linesOf_splitFile data

/-- The result of `detect_dialect_normal`: the first of the fifteen candidates whose condition the lines meet, unless a
potential escape character comes before a delimiter or a quote. -/
theorem C121_detect (env : PyEnv) (data : Str) (dia : SimpleDialect) : detectDialectNormal env data none = some dia ↔
    ¬ EscapeBefore env.category data ∧ ∃ pre P post, normalCandidates = pre ++ (dia, P) :: post ∧ P (splitFile data) ∧
      ∀ x ∈ pre, ¬ x.2 (splitFile data) := by
  have hfirst := formTests_first (splitFile data)
  unfold firstForm at hfirst
  unfold detectDialectNormal
  simp only [Option.getD_none]
  by_cases he : EscapeBefore env.category data
  · rw [if_pos ((escape_iff env data).mpr he)]
    constructor
    · intro h; cases h
    · intro h; exact absurd he h.1
  · rw [if_neg (fun h => he ((escape_iff env data).mp h)), hfirst, firstCandidate, Option.map_eq_some_iff]
    constructor
    · rintro ⟨⟨dia', P⟩, h, rfl⟩
      rw [List.find?_eq_some_iff_append] at h
      obtain ⟨hp, pre, post, e, hpre⟩ := h
      exact ⟨he, pre, P, post, e, by simpa using hp, fun x hx => by simpa using hpre x hx⟩
    · rintro ⟨_, pre, P, post, e, hp, hpre⟩
      refine ⟨(dia, P), ?_, rfl⟩
      rw [List.find?_eq_some_iff_append]
      exact ⟨by simpa using hp, pre, post, e, fun x hx => by simpa using hpre x hx⟩

/-- There is no normal form exactly if there is such an escape character or no candidate is met. -/
theorem C121_none (env : PyEnv) (data : Str) : detectDialectNormal env data none = none ↔
    EscapeBefore env.category data ∨ ∀ x ∈ normalCandidates, ¬ x.2 (splitFile data) := by
  have hfirst := formTests_first (splitFile data)
  unfold firstForm at hfirst
  unfold detectDialectNormal
  simp only [Option.getD_none]
  by_cases he : EscapeBefore env.category data
  · rw [if_pos ((escape_iff env data).mpr he)]
    exact ⟨fun _ => .inl he, fun _ => rfl⟩
  · rw [if_neg (fun h => he ((escape_iff env data).mp h)), hfirst, firstCandidate, Option.map_eq_none_iff,
      List.find?_eq_none]
    simp only [decide_eq_true_eq, he, false_or]

/-- A line of form 1 or 3 may end with a delimiter, and a quoted cell of form 3 may contain quotes that are not doubled:
the forms accept lines that the parser reads otherwise (see `C42_violated`). -/
example : Form1 ',' '"' ["\"a\",\"b\",".toList] ∧ isForm1 ["\"a\",\"b\",".toList] [','] ['"'] = true :=
  ⟨⟨by simp, 2, Nat.le_refl 2, fun row hr => ⟨["a".toList, "b".toList], rfl, by decide, .inr (by
    rw [List.mem_singleton.mp hr]; decide)⟩⟩, by decide⟩

example : Form3 ';' '\'' ["x;'a;b'".toList, "'p'q'r';y".toList] :=
  (C121_form3 ';' '\'' (.inr rfl) (by decide) _).mp (by decide)

/-- Some files: form 2, form 3, form 5, form 4 with quotes, and one with an escape. -/
example : detectDialectNormal asciiEnv "a,b\r\nc,d\r\n".toList none = some (mkDialect [','] [] []) ∧
    detectDialectNormal asciiEnv "a,\"b c\"\n\"d\",e".toList none = some (mkDialect [','] ['"'] []) ∧
    detectDialectNormal asciiEnv "'a;b'\n'c;d'".toList none = some (mkDialect [';'] ['\''] []) ∧
    detectDialectNormal asciiEnv "'a b'\n'c'".toList none = some (mkDialect [] ['\''] []) ∧
    detectDialectNormal asciiEnv "a\\,b\nc,d".toList none = none := by decide +kernel

example : EscapeBefore asciiEnv.category "a\\,b\nc,d".toList :=
  ⟨"a".toList, '\\', ',', "b\nc,d".toList, rfl, by decide +kernel, by decide, by decide⟩

end Clever.Props
