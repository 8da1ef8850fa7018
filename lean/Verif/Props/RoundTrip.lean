import Verif.Proofs.WriterApi

/-!
# Properties C01 - C03: what the writer writes is read back
-/

set_option linter.unusedSimpArgs false

namespace Clever.Props

open Clever

/-! ## C01 Excel write/read round trip -/

/-- **C01.**  Any table of NUL-free strings that leave room for two quotes within the field size
limit: the writer writes it without an error, and the reader returns exactly that table. -/
theorem C01_excel_round_trip (limit : Int) (hl : InLong limit) (rows : List (List Str))
    (hn : ∀ row ∈ rows, ∀ s ∈ row, NUL ∉ s)
    (hfit : ∀ row ∈ rows, ∀ s ∈ row, (s.length + 2 : Int) ≤ limit) :
    ∃ wd text, mkWriter (.name "excel") = .ok wd ∧ wd.writeRows rows = (text, none) ∧
      readText limit (.name "excel") {} text = .ok rows := by
  have hw : (excelWriter.writeRows rows).2 = none := writeRows_ok (by decide) rfl rows
  refine ⟨excelWriter, (excelWriter.writeRows rows).1, mkWriter_excel, ?_, ?_⟩
  · rw [← hw]
  · refine read_back limit hl ?_ _ makeSimpleDialect_excel rows hw hn (fun _ _ _ _ h => by
      simp [excelWriter] at h) hfit
    constructor <;> simp [excelWriter, cfgOf, isNL, NUL]

/-- A case with commas, quotes, newlines, a lone empty cell and an empty row: what is written. -/
example : excelWriter.writeRows
      [["a,b".toList, "\"c\"".toList, "d\r".toList, [], "\n".toList], [[]], [], [[], []]] =
    ("\"a,b\",\"\"\"c\"\"\",\"d\r\",,\"\n\"\r\n\"\"\r\n\r\n,\r\n".toList, none) := by decide

/-- And the hypotheses hold for that table with the default limit. -/
example : ∃ wd text, mkWriter (.name "excel") = .ok wd ∧
    wd.writeRows [["a,b".toList, "\"c\"".toList, "d\r".toList, [], "\n".toList], [[]], [], [[], []]] =
      (text, none) ∧
    readText 131072 (.name "excel") {} text =
      .ok [["a,b".toList, "\"c\"".toList, "d\r".toList, [], "\n".toList], [[]], [], [[], []]] :=
  C01_excel_round_trip _ (by decide) _ (by decide) (by decide)

/-! ## C02 Write/read round trip for a custom dialect -/

/-- **C02.**  The same for every dialect with distinct delimiter and quotechar, with or without an
escapechar, provided that none of them is a newline or NUL and that the dialect is not strict (for
strict dialects see `C02_strict_violated`). -/
theorem C02_round_trip_partial (limit : Int) (hl : InLong limit) (d q : Char) (e : Option Char)
    (hd : d ≠ NUL ∧ isNL d = false) (hq : q ≠ NUL ∧ isNL q = false) (hdq : d ≠ q)
    (he : ∀ c, e = some c → c ≠ NUL ∧ isNL c = false ∧ c ≠ d ∧ c ≠ q)
    (rows : List (List Str)) (hn : ∀ row ∈ rows, ∀ s ∈ row, NUL ∉ s)
    (hfit : ∀ row ∈ rows, ∀ s ∈ row, (s.length + 2 : Int) ≤ limit) :
    ∃ wd text, mkWriter (.simple (dialectOf (some d) (some q) e)) = .ok wd ∧
      wd.writeRows rows = (text, none) ∧
      readText limit (.simple (dialectOf (some d) (some q) e)) {} text = .ok rows := by
  have hw : ((simpleWriter d (some q) e).writeRows rows).2 = none :=
    writeRows_ok (by simp [simpleWriter]) rfl rows
  refine ⟨_, ((simpleWriter d (some q) e).writeRows rows).1, mkWriter_simple d (some q) e false,
    by rw [← hw], ?_⟩
  refine read_back limit hl ?_ _ (makeSimpleDialect_dialectOf _ _ _ _) rows hw hn
    (fun _ _ _ _ h => by simp [simpleWriter] at h) hfit
  constructor <;> simp [simpleWriter, cfgOf, hd, hq, hdq, Ne.symm hdq]
  · exact fun c hc => (he c hc).1
  · exact fun c hc => (he c hc).2.1
  · exact fun c hc => (he c hc).2.2.1
  · exact fun h => (he q h).2.2.2 rfl

/-- A case: a dialect with an escapechar, and cells full of special characters. -/
example : (simpleWriter ';' (some '\'') (some '\\')).writeRows
      [["it's".toList, "a\\b".toList, ";".toList]] =
    ("'it''s';a\\\\b;';'\n".toList, none) := by decide

example : ∃ wd text, mkWriter (.simple (dialectOf (some ';') (some '\'') (some '\\'))) = .ok wd ∧
    wd.writeRows [["it's".toList, "a\\b".toList, ";".toList]] = (text, none) ∧
    readText 131072 (.simple (dialectOf (some ';') (some '\'') (some '\\'))) {} text =
      .ok [["it's".toList, "a\\b".toList, ";".toList]] :=
  C02_round_trip_partial _ (by decide) ';' '\'' (some '\\') (by decide) (by decide) (by decide)
    (by decide) _ (by decide) (by decide)

/-- With `strict=True` the property fails: a cell that needs quotes cannot be read back. -/
theorem C02_strict_violated :
    mkWriter (.simple (dialectOf (some ',') (some '"') none true)) =
        .ok (simpleWriter ',' (some '"') none) ∧
      (simpleWriter ',' (some '"') none).writeRows [["a,b".toList]] = ("\"a,b\"\n".toList, none) ∧
      readText 131072 (.simple (dialectOf (some ',') (some '"') none true)) {} "\"a,b\"\n".toList =
        .error (.parse (.expectedAfter ',' '"')) := by
  refine ⟨mkWriter_simple _ _ _ _, by decide, ?_⟩
  rw [readText_of _ (by decide) _ _ _ _ _ _ (makeSimpleDialect_dialectOf _ _ _ _)]
  decide

/-- With a newline as the escapechar the property fails as well: the cell `"\n"` is written as two
newlines. -/
theorem C02_newline_escapechar_violated :
    mkWriter (.simple (dialectOf (some ',') (some '"') (some '\n'))) =
        .ok (simpleWriter ',' (some '"') (some '\n')) ∧
      (simpleWriter ',' (some '"') (some '\n')).writeRows [["a\nb".toList]] =
        ("a\n\nb\n".toList, none) ∧
      readText 131072 (.simple (dialectOf (some ',') (some '"') (some '\n'))) {} "a\n\nb\n".toList =
        .ok [["a".toList], [], ["b".toList]] := by
  refine ⟨mkWriter_simple _ _ _ _, by decide, ?_⟩
  rw [readText_of _ (by decide) _ _ _ _ _ _ (makeSimpleDialect_dialectOf _ _ _ _)]
  decide

/-! ## C03 Write/read round trip without a quote character -/

/-- **C03**, violated: the writer escapes a double quote although the dialect has no quotechar, and
the reader keeps the escape character. -/
theorem C03_quote_violated :
    mkWriter (.simple (dialectOf (some ',') none (some '\\'))) =
        .ok (simpleWriter ',' none (some '\\')) ∧
      (simpleWriter ',' none (some '\\')).writeRow ["a\"b".toList] = .ok "a\\\"b\n".toList ∧
      readText 131072 (.simple (dialectOf (some ',') none (some '\\'))) {} "a\\\"b\n".toList =
        .ok [["a\\\"b".toList]] := by
  refine ⟨mkWriter_simple _ _ _ _, by decide, ?_⟩
  rw [readText_of _ (by decide) _ _ _ _ _ _ (makeSimpleDialect_dialectOf _ _ _ _)]
  decide

/-- What the writer without quotes accepts can be read back, if the quotes are as in C03. -/
theorem unquoted_cellOK {d : Char} {e : Option Char} {rows : List (List Str)} {text : Str}
    (hw : (simpleWriter d none e).writeRows rows = (text, none))
    (hquote : e = none ∨ d = '"' ∨ e = some '"' ∨ ∀ row ∈ rows, ∀ s ∈ row, '"' ∉ s) :
    ∀ row ∈ rows, ∀ s ∈ row, CellOK (simpleWriter d none e) s := by
  have hchars : ∀ row ∈ rows, ∀ s ∈ row, e = none → ∀ c ∈ s,
      (simpleWriter d none e).special c = false := by
    have h1 : ∀ s x, e = none → (simpleWriter d none e).writeChars s = .ok x →
        ∀ c ∈ s, (simpleWriter d none e).special c = false := by
      intro s x he' h
      induction s generalizing x with
      | nil => simp
      | cons c cs ih =>
        obtain ⟨x₁, b₁, x₂, b₂, h1, h2, _, _⟩ := writeChars_cons h
        intro a ha
        rcases List.mem_cons.1 ha with rfl | ha
        · cases hs : (simpleWriter d none e).special a with
          | false => rfl
          | true =>
            simp only [WDialect.writeChar, hs] at h1
            simp [simpleWriter, WDialect.escaped, he', Except.map] at h1
        · exact ih _ h2 a ha
    have h2 : ∀ s x, e = none → (simpleWriter d none e).writeField s = .ok x →
        ∀ c ∈ s, (simpleWriter d none e).special c = false := by
      intro s x he' h
      simp only [WDialect.writeField, bind, Except.bind] at h
      cases hy : (simpleWriter d none e).writeChars s with
      | error e => simp [hy] at h
      | ok y => exact h1 s y he' hy
    have h3 : ∀ row x, e = none → (simpleWriter d none e).writeFields row = .ok x →
        ∀ s ∈ row, ∀ c ∈ s, (simpleWriter d none e).special c = false := by
      intro row
      induction row with
      | nil => simp
      | cons s row ih =>
        intro x he' h s' hs'
        cases row with
        | nil =>
          simp at hs'
          subst hs'
          exact h2 s' x he' h
        | cons t row =>
          simp only [WDialect.writeFields, bind, Except.bind, pure, Except.pure] at h
          cases hx : (simpleWriter d none e).writeField s with
          | error e => simp [hx] at h
          | ok x₁ =>
            cases hy : (simpleWriter d none e).writeFields (t :: row) with
            | error e => simp [hx, hy] at h
            | ok y =>
              rcases List.mem_cons.1 hs' with rfl | hs'
              · exact h2 _ _ he' hx
              · exact ih _ he' hy s' hs'
    have h4 : ∀ rows t, (simpleWriter d none e).writeRows rows = (t, none) →
        ∀ row ∈ rows, ∃ x, (simpleWriter d none e).writeRow row = .ok x := by
      intro rows
      induction rows with
      | nil => simp
      | cons r rs ih =>
        intro t h row hrow
        simp only [WDialect.writeRows] at h
        cases hx : (simpleWriter d none e).writeRow r with
        | error e => simp [hx] at h
        | ok x =>
          simp only [hx, Prod.mk.injEq] at h
          rcases List.mem_cons.1 hrow with rfl | hrow
          · exact ⟨x, hx⟩
          · exact ih _ (Prod.ext rfl h.2) row hrow
    intro row hrow s hs he'
    obtain ⟨x, hx⟩ := h4 rows text hw row hrow
    simp only [WDialect.writeRow, bind, Except.bind] at hx
    cases hy : (simpleWriter d none e).writeFields row with
    | error e => simp [hy] at hx
    | ok y => exact h3 row y he' hy s hs
  intro row hrow s hs _ c hc hcq
  simp only [simpleWriter, Option.getD_none, Option.some.injEq] at hcq
  subst hcq
  rcases hquote with h | h | h | h
  · have := hchars row hrow s hs h '"' hc
    simp [WDialect.special, simpleWriter] at this
  · exact Or.inl h.symm
  · exact Or.inr h
  · exact absurd hc (h row hrow s hs)

/-- **C03**, the part that holds: whatever is accepted is read back, unless the dialect has an
escapechar and a cell contains a double quote (that is not itself the delimiter or the
escapechar). -/
theorem C03_round_trip_partial (limit : Int) (hl : InLong limit) (d : Char) (e : Option Char)
    (hd : d ≠ NUL ∧ isNL d = false)
    (he : ∀ c, e = some c → c ≠ NUL ∧ isNL c = false ∧ c ≠ d)
    (wd : WDialect) (hwd : mkWriter (.simple (dialectOf (some d) none e)) = .ok wd)
    (rows : List (List Str)) (text : Str) (hw : wd.writeRows rows = (text, none))
    (hn : ∀ row ∈ rows, ∀ s ∈ row, NUL ∉ s)
    (hquote : e = none ∨ d = '"' ∨ e = some '"' ∨ ∀ row ∈ rows, ∀ s ∈ row, '"' ∉ s)
    (hfit : ∀ row ∈ rows, ∀ s ∈ row, (s.length + 2 : Int) ≤ limit) :
    readText limit (.simple (dialectOf (some d) none e)) {} text = .ok rows := by
  rw [mkWriter_simple] at hwd
  simp only [Except.ok.injEq] at hwd
  subst hwd
  have := read_back (wd := simpleWriter d none e) (d := some d) (q := none) (e := e) limit hl ?_ _
    (makeSimpleDialect_dialectOf _ _ _ _) rows (by rw [hw]) hn ?_ hfit
  · rw [hw] at this; exact this
  · constructor <;> simp [simpleWriter, cfgOf, hd]
    · exact fun c hc => (he c hc).1
    · exact fun c hc => (he c hc).2.1
    · exact fun c hc => (he c hc).2.2
  · exact unquoted_cellOK hw hquote

/-- A case: escaped delimiters, newlines and escapes. -/
example : readText 131072 (.simple (dialectOf (some ',') none (some '\\'))) {}
    ((simpleWriter ',' none (some '\\')).writeRows
      [["a,b".toList, "\r\n".toList, "\\".toList], [], [[], []]]).1 =
    .ok [["a,b".toList, "\r\n".toList, "\\".toList], [], [[], []]] :=
  C03_round_trip_partial _ (by decide) ',' (some '\\') (by decide) (by decide) _
    (mkWriter_simple _ _ _ _) _ _ (by decide) (by decide) (by decide) (by decide)

/-- What the writer refuses: exactly the row with one empty cell, and without an escapechar the rows
with a character that would need an escape.  The exception is always `clevercsv.Error` and nothing
is written for the row. -/
theorem C03_writer_refuses (d : Char) (e : Option Char) (row : List Str) :
    (∃ x, (simpleWriter d none e).writeRow row = .ok x) ∨
    ((∃ msg, (simpleWriter d none e).writeRow row = .error (.writer msg)) ∧
      (row = [[]] ∨
        (e = none ∧ ∃ s ∈ row, ∃ c ∈ s, c = d ∨ c = '"' ∨ c = '\n' ∨ c = '\r'))) := by
  have h1 : ∀ s, (∃ p, (simpleWriter d none e).writeChars s = .ok p) ∨
      ((∃ msg, (simpleWriter d none e).writeChars s = .error (.writer msg)) ∧ e = none ∧
        ∃ c ∈ s, c = d ∨ c = '"' ∨ c = '\n' ∨ c = '\r') := by
    intro s
    induction s with
    | nil => exact Or.inl ⟨_, rfl⟩
    | cons c cs ih =>
      by_cases hs : (simpleWriter d none e).special c = false
      · have hc : (simpleWriter d none e).writeChar c = .ok ([c], false) := by
          simp [WDialect.writeChar, hs]
        rcases ih with ⟨p, hp⟩ | ⟨⟨m, hm⟩, h2, c', h3, h4⟩
        · left; simp [WDialect.writeChars, hc, hp, bind, Except.bind, pure, Except.pure]
        · right
          exact ⟨⟨m, by simp [WDialect.writeChars, hc, hm, bind, Except.bind]⟩, h2, c', by simp [h3], h4⟩
      · have hs' : (simpleWriter d none e).special c = true := by simpa using hs
        cases e with
        | some e =>
          have hc : (simpleWriter d none (some e)).writeChar c = .ok ([e, c], false) := by
            simp only [WDialect.writeChar, hs']
            simp [simpleWriter, WDialect.escaped, Except.map]
          rcases ih with ⟨p, hp⟩ | ⟨⟨m, hm⟩, h2, _⟩
          · left; simp [WDialect.writeChars, hc, hp, bind, Except.bind, pure, Except.pure]
          · simp at h2
        | none =>
          right
          have hc : (simpleWriter d none none).writeChar c =
              .error (.writer "need to escape, but no escapechar set") := by
            simp only [WDialect.writeChar, hs']
            simp [simpleWriter, WDialect.escaped, Except.map]
          refine ⟨⟨_, by simp [WDialect.writeChars, hc, bind, Except.bind]; rfl⟩, rfl, c, by simp, ?_⟩
          simp [WDialect.special, simpleWriter] at hs'
          rcases hs' with (((h | h) | h) | h) | h
          · exact Or.inl h
          · exact Or.inr (Or.inl h.symm)
          · exact Or.inr (Or.inr (Or.inl h))
          · exact Or.inr (Or.inr (Or.inr h))
          · exact Or.inr (Or.inr (Or.inl h))
  have h2 : ∀ s, (∃ p, (simpleWriter d none e).writeField s = .ok p) ∨
      ((∃ msg, (simpleWriter d none e).writeField s = .error (.writer msg)) ∧ e = none ∧
        ∃ c ∈ s, c = d ∨ c = '"' ∨ c = '\n' ∨ c = '\r') := by
    intro s
    rcases h1 s with ⟨p, hp⟩ | ⟨⟨m, hm⟩, h⟩
    · left; simp [WDialect.writeField, hp, bind, Except.bind, pure, Except.pure]
    · right; exact ⟨⟨m, by simp [WDialect.writeField, hm, bind, Except.bind]⟩, h⟩
  have h3 : ∀ row, (∃ p, (simpleWriter d none e).writeFields row = .ok p) ∨
      ((∃ msg, (simpleWriter d none e).writeFields row = .error (.writer msg)) ∧ e = none ∧
        ∃ s ∈ row, ∃ c ∈ s, c = d ∨ c = '"' ∨ c = '\n' ∨ c = '\r') := by
    intro row
    induction row with
    | nil => exact Or.inl ⟨_, rfl⟩
    | cons s row ih =>
      cases row with
      | nil =>
        rcases h2 s with h | ⟨hm, he, h⟩
        · exact Or.inl h
        · exact Or.inr ⟨hm, he, s, by simp, h⟩
      | cons t row =>
        rcases h2 s with ⟨x, hx⟩ | ⟨⟨m, hm⟩, he, h⟩
        · rcases ih with ⟨y, hy⟩ | ⟨⟨m, hm⟩, he, s', hs', h⟩
          · left; simp [WDialect.writeFields, hx, hy, bind, Except.bind, pure, Except.pure]
          · right
            exact ⟨⟨m, by simp [WDialect.writeFields, hx, hm, bind, Except.bind]⟩, he, s',
              by simp at hs' ⊢; grind, h⟩
        · right
          exact ⟨⟨m, by simp [WDialect.writeFields, hm, bind, Except.bind]⟩, he, s, by simp, h⟩
  rcases h3 row with ⟨x, hx⟩ | ⟨⟨m, hm⟩, h⟩
  · by_cases hxe : x = [] ∧ row ≠ []
    · right
      obtain ⟨rfl, hr⟩ := hxe
      cases row with
      | nil => simp at hr
      | cons s row =>
        obtain ⟨rfl, rfl⟩ := writeFields_nil hx
        refine ⟨⟨"single empty field record must be quoted", ?_⟩, Or.inl rfl⟩
        simp only [WDialect.writeRow, hx, bind, Except.bind]
        simp [simpleWriter]
    · left
      simp only [WDialect.writeRow, hx, bind, Except.bind, hxe, if_false]
      exact ⟨_, rfl⟩
  · right
    exact ⟨⟨m, by simp [WDialect.writeRow, hm, bind, Except.bind]⟩, Or.inr h⟩

example : (simpleWriter ',' none none).writeRow ["a,b".toList] =
    .error (.writer "need to escape, but no escapechar set") := by decide

/-- A dialect without a delimiter cannot be written at all. -/
theorem C03_no_delimiter (q e : Option Char) (strict : Bool) :
    ∃ msg, mkWriter (.simple (dialectOf none q e strict)) = .error (.typeError msg) := by
  cases q <;> cases e <;> exact ⟨_, rfl⟩

end Clever.Props
