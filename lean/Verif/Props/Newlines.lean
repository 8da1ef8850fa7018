import Verif.Proofs.NewlineCells
import Verif.Model.Detect

/-!
# C98, C99: newline conventions

`recode nl t` is the text `t` with each line feed replaced by `nl`, which is a carriage return or a carriage return and
a line feed.  The text `t` itself contains no carriage return.
-/

namespace Clever.Props

open Clever Spec

/-! ## C98 Parsing and the newline convention -/

/-- **C98** is false: an escapechar before the line break.  With line feeds the two lines are one row, with carriage
returns as well; with both, the row ends between the two characters of the line break. -/
theorem C98_escaped_violated :
    let D := dialectOf (some ',') (some '"') (some '\\')
    let t := "a\\\nb,c\n".toList
    parseString 100 D t = ([["a\nb".toList, "c".toList]], none) ∧
    parseString 100 D (recode ['\r'] t) = ([["a\rb".toList, "c".toList]], none) ∧
    parseString 100 D (recode ['\r', '\n'] t) = ([["a\r".toList], ["b".toList, "c".toList]], none) := by
  refine ⟨?_, ?_, ?_⟩ <;> decide +kernel

/-- **C98** is false: an escapechar at the end of the text, in quotes, gives a line feed whatever the convention. -/
theorem C98_end_violated :
    let D := dialectOf (some ',') (some '"') (some '\\')
    let t := "\"a\n\\".toList
    parseString 100 D t = ([["a\n\n".toList]], none) ∧
    parseString 100 D (recode ['\r'] t) = ([["a\r\n".toList]], none) := by
  refine ⟨?_, ?_⟩ <;> decide +kernel

/-- **C98** is false: a line break in a cell counts twice against the field size limit. -/
theorem C98_limit_violated :
    let D := dialectOf (some ',') (some '"') none
    let t := "\"a\n\"\n".toList
    parseString 4 D t = ([["a\n".toList]], none) ∧
    (parseString 4 D (recode ['\r', '\n'] t)).2 = some (.parse (.fieldLimit 4)) := by
  refine ⟨?_, ?_⟩ <;> decide +kernel

/-- **C98** as far as it holds: if no line of the text ends with the escapechar (or with NUL, if there is none), the rows
of the converted text are those of the text, with the line breaks in the cells converted, and the error is the same.  For
carriage returns this holds with any limit, for both characters if the text fits the limit. -/
theorem C98_parse_partial (nl : Str) (hn : IsNewline nl) (limit : Int) (hl : InLong limit) (d q e : Option Char)
    (strict : Bool) (t : Str) (hr : '\r' ∉ t) (hd : d ≠ some '\n' ∧ d ≠ some '\r') (hq : q ≠ some '\n' ∧ q ≠ some '\r')
    (he : e ≠ some '\n' ∧ e ≠ some '\r') (hesc : ¬ LineEndsWith (e.getD NUL) t)
    (hlim : nl = ['\r'] ∨ ((recode nl t).length : Int) ≤ limit) :
    parseString limit (dialectOf d q e strict) (recode nl t) =
      ((parseString limit (dialectOf d q e strict) t).1.map (·.map (recode nl)),
        (parseString limit (dialectOf d q e strict) t).2) := by
  have key : ∀ o : Option Char, o ≠ some '\n' ∧ o ≠ some '\r' → isNL (o.getD NUL) = false := by
    intro o ho
    cases o with
    | none => decide
    | some c =>
      have h1 : c ≠ '\n' := fun h => ho.1 (by rw [h])
      have h2 : c ≠ '\r' := fun h => ho.2 (by rw [h])
      simp [isNL, h1, h2]
  rw [parseString_eq d q e strict hl, parseString_eq d q e strict hl,
    parseText_recode (f := recode nl) hn (key d hd) (key q hq) (key e he) (fun s b => rfl) t hr hesc hlim]
  rfl

/-- The same for cells with the information whether they were quoted. -/
theorem C98_parse_quoted_partial (nl : Str) (hn : IsNewline nl) (limit : Int) (hl : InLong limit) (d q e : Option Char)
    (strict : Bool) (t : Str) (hr : '\r' ∉ t) (hd : d ≠ some '\n' ∧ d ≠ some '\r') (hq : q ≠ some '\n' ∧ q ≠ some '\r')
    (he : e ≠ some '\n' ∧ e ≠ some '\r') (hesc : ¬ LineEndsWith (e.getD NUL) t)
    (hlim : nl = ['\r'] ∨ ((recode nl t).length : Int) ≤ limit) :
    parseStringQuoted limit (dialectOf d q e strict) (recode nl t) =
      ((parseStringQuoted limit (dialectOf d q e strict) t).1.map (·.map fun c => (recode nl c.1, c.2)),
        (parseStringQuoted limit (dialectOf d q e strict) t).2) := by
  have key : ∀ o : Option Char, o ≠ some '\n' ∧ o ≠ some '\r' → isNL (o.getD NUL) = false := by
    intro o ho
    cases o with
    | none => decide
    | some c =>
      have h1 : c ≠ '\n' := fun h => ho.1 (by rw [h])
      have h2 : c ≠ '\r' := fun h => ho.2 (by rw [h])
      simp [isNL, h1, h2]
  rw [parseStringQuoted_eq d q e strict hl, parseStringQuoted_eq d q e strict hl,
    parseText_recode (f := fun c : Str × Bool => (recode nl c.1, c.2)) hn (key d hd) (key q hq) (key e he)
      (fun s b => rfl) t hr hesc hlim]
  rfl

/-- A case of `C98_parse_partial`: line breaks in a quoted cell, an escaped quote, a blank line, and no line break at the
end. -/
example : parseString 100 (dialectOf (some ',') (some '"') (some '\\'))
      "x,\"a\r\n\\\"b\"\r\n\r\ny,z".toList =
    ([["x".toList, "a\r\n\"b".toList], [], ["y".toList, "z".toList]], none) := by
  have h := C98_parse_partial ['\r', '\n'] (.inr rfl) 100 (by decide) (some ',') (some '"') (some '\\') false
    "x,\"a\n\\\"b\"\n\ny,z".toList (by decide) (by decide) (by decide) (by decide) (by decide)
    (.inr (by decide))
  have e1 : recode ['\r', '\n'] "x,\"a\n\\\"b\"\n\ny,z".toList = "x,\"a\r\n\\\"b\"\r\n\r\ny,z".toList := by decide
  rw [e1] at h
  rw [h]
  decide +kernel

/-! ## C99 Detection and the newline convention -/

/-- **C99** is false: a blank line at the end.  `strip_trailing_crnl` removes the two line feeds, and the text has normal
form 2; of `"\r\n\r\n"` it leaves the first pair, and the text has no normal form. -/
theorem C99_blank_line_violated :
    let t := "1 2 3,4\n1 2 3,4\n\n".toList
    (detect asciiEnv .forward 100000 t).result = .ok (some (mkDialect [','] [] [])) ∧
    (detect asciiEnv .forward 100000 t).method_ = some .normal ∧
    (detect asciiEnv .forward 100000 (recode ['\r', '\n'] t)).result = .ok (some (mkDialect [' '] [] [])) ∧
    (detect asciiEnv .forward 100000 (recode ['\r', '\n'] t)).method_ = some .consistency := by
  refine ⟨?_, ?_, ?_, ?_⟩ <;> decide +kernel

/-- **C99** is false: an escapechar before a line break. -/
theorem C99_escaped_violated :
    let t := "a,b\\\nc,d\\,e\n".toList
    (detect asciiEnv .forward 100000 t).result = .ok (some (mkDialect [','] [] [])) ∧
    (detect asciiEnv .forward 100000 (recode ['\r', '\n'] t)).result = .ok (some (mkDialect [','] [] ['\\'])) := by
  refine ⟨?_, ?_⟩ <;> decide +kernel

/-- **C99** is false: a line feed may separate a currency sign from the number, two characters may not, so that the
quoted cell has no known type. -/
theorem C99_type_violated :
    let t := "\"$\n5\",\"x;y\"\n\"$\n5\",\"x;z\"\n".toList
    (detect asciiEnv .forward 100000 t).result = .ok (some (mkDialect [','] ['"'] [])) ∧
    (detect asciiEnv .forward 100000 (recode ['\r', '\n'] t)).result = .ok (some (mkDialect ['$'] [] [])) := by
  refine ⟨?_, ?_⟩ <;> decide +kernel

/-- **C99** as far as it holds.  Three conditions exclude the examples above: for `"\r\n"`, the text does not end with a
blank line; for each candidate dialect, no line ends with its escapechar (or with NUL, if it has none); and the cells of
each candidate are of a known type in both conventions, or in neither.  Then the result (dialect or exception) and
the method are the same, whatever the method asked for. -/
theorem C99_detect_partial (env : PyEnv) (hasc : env.Ascii) (nl : Str) (hn : IsNewline nl) (ord : SetOrder)
    (limit : Int) (t : Str) (ds : Option (List Str)) (method : DetectionMethod) (skip : Bool) (hr : '\r' ∉ t)
    (hl : InLong ((recode nl t).length + 1)) (hds : ∀ l, ds = some l → ['\n'] ∉ l ∧ ['\r'] ∉ l)
    (hend : nl = ['\r'] ∨ method = .consistency ∨ ¬ ['\n', '\n'] <:+ t)
    (hesc : ∀ x ∈ getDialects env ord t ds, ∀ e, x.escapechar = some e → ¬ LineEndsWith (e.head?.getD NUL) t)
    (hcells : ∀ x ∈ getDialects env ord t ds, ∀ row ∈ (parseStringQuoted (t.length + 1) x t).1, ∀ c ∈ row,
      isKnownType env (recode nl c.1) c.2 = isKnownType env c.1 c.2) :
    (detect env ord limit (recode nl t) ds method skip).result = (detect env ord limit t ds method skip).result ∧
    (detect env ord limit (recode nl t) ds method skip).method_ = (detect env ord limit t ds method skip).method_ := by
  have hcon := consistency_recode hasc hn hr hl hds ord (some 100000) skip limit limit
    (fun x hx => ⟨hesc x hx, hcells x hx⟩)
  unfold detect
  simp only
  split
  · rename_i hm
    have hend' : nl = ['\r'] ∨ ¬ ['\n', '\n'] <:+ t := by
      rcases hend with h | h | h
      · exact .inl h
      · subst h; simp at hm
      · exact .inr h
    rw [detectDialectNormal_recode hasc hn hr hend' hds]
    split
    · exact ⟨rfl, rfl⟩
    · exact ⟨hcon, rfl⟩
  · exact ⟨hcon, rfl⟩

/-- A case of `C99_detect_partial`: quoted cells with line breaks, of which the consistency measure makes free text. -/
example : (detect asciiEnv .forward 100000 "\"a\r\nb\",1\r\n\"c;\r\nd\",2\r\n".toList).result =
    .ok (some (mkDialect [','] ['"'] [])) := by
  have h := (C99_detect_partial asciiEnv asciiEnv_ascii ['\r', '\n'] (.inr rfl) .forward 100000
    "\"a\nb\",1\n\"c;\nd\",2\n".toList none .auto true (by decide) (by decide) (by simp) (.inr (.inr (by decide)))
    (by
      have : ∀ x ∈ getDialects asciiEnv .forward "\"a\nb\",1\n\"c;\nd\",2\n".toList none, x.escapechar = some [] := by
        decide +kernel
      intro x hx e he
      rw [this x hx] at he
      cases he
      decide)
    (by decide +kernel)).1
  have e1 : recode ['\r', '\n'] "\"a\nb\",1\n\"c;\nd\",2\n".toList =
      "\"a\r\nb\",1\r\n\"c;\r\nd\",2\r\n".toList := by decide
  rw [e1] at h
  rw [h]
  decide +kernel

/-- **C99** for texts in which no candidate gives a cell with a line break. -/
theorem C99_single_line_partial (env : PyEnv) (hasc : env.Ascii) (nl : Str) (hn : IsNewline nl) (ord : SetOrder)
    (limit : Int) (t : Str) (ds : Option (List Str)) (method : DetectionMethod) (skip : Bool) (hr : '\r' ∉ t)
    (hl : InLong ((recode nl t).length + 1)) (hds : ∀ l, ds = some l → ['\n'] ∉ l ∧ ['\r'] ∉ l)
    (hend : nl = ['\r'] ∨ method = .consistency ∨ ¬ ['\n', '\n'] <:+ t)
    (hesc : ∀ x ∈ getDialects env ord t ds, ∀ e, x.escapechar = some e → ¬ LineEndsWith (e.head?.getD NUL) t)
    (hcells : ∀ x ∈ getDialects env ord t ds, ∀ row ∈ (parseStringQuoted (t.length + 1) x t).1, ∀ c ∈ row, '\n' ∉ c.1) :
    (detect env ord limit (recode nl t) ds method skip).result = (detect env ord limit t ds method skip).result ∧
    (detect env ord limit (recode nl t) ds method skip).method_ = (detect env ord limit t ds method skip).method_ :=
  C99_detect_partial env hasc nl hn ord limit t ds method skip hr hl hds hend hesc
    fun x hx row hrow c hc => by rw [recode_id (hcells x hx row hrow c hc)]

/-- **C99** with conditions on the text alone: it contains no quotechar, no line ends with a character that may be an
escapechar, or with NUL, and for `"\r\n"` there is no blank line at the end. -/
theorem C99_unquoted_partial (env : PyEnv) (hasc : env.Ascii) (nl : Str) (hn : IsNewline nl) (ord : SetOrder)
    (limit : Int) (t : Str) (ds : Option (List Str)) (method : DetectionMethod) (skip : Bool) (hr : '\r' ∉ t)
    (hl : InLong ((recode nl t).length + 1)) (hds : ∀ l, ds = some l → ['\n'] ∉ l ∧ ['\r'] ∉ l)
    (hend : nl = ['\r'] ∨ method = .consistency ∨ ¬ ['\n', '\n'] <:+ t)
    (hq : ∀ c ∈ ['\'', '"', '~', '`'], c ∉ t)
    (hesc : ∀ c, LineEndsWith c t → c ≠ NUL ∧ isPotentialEscapechar env c = false) :
    (detect env ord limit (recode nl t) ds method skip).result = (detect env ord limit t ds method skip).result ∧
    (detect env ord limit (recode nl t) ds method skip).method_ = (detect env ord limit t ds method skip).method_ := by
  have hcand : ∀ x ∈ getDialects env ord t ds, ∃ d e : Option Char, x = dialectOf d none e ∧
      isNL (e.getD NUL) = false ∧ ¬ LineEndsWith (e.getD NUL) t := by
    intro x hx
    obtain ⟨d, q, e, rfl, h1, h2, h3, -⟩ := mem_getDialects.1 hx
    have hq0 : q = [] := by
      rcases mem_getQuotechars.1 h2 with rfl | ⟨c, hc, hc', -⟩
      · rfl
      · rcases mem_filterUrls hc with rfl | hc
        · simp [defaultQuoteChars] at hc'
        · exact absurd hc (hq c hc')
    subst hq0
    have hd : ∃ d' : Option Char, d = d'.toList := by
      rcases mem_getDelimiters.1 h1 with rfl | ⟨c, -, -, rfl⟩
      exacts [⟨none, rfl⟩, ⟨some c, rfl⟩]
    obtain ⟨d', rfl⟩ := hd
    rcases mem_escapeInsertions.1 h3 with rfl | ⟨u, c, n, v, -, rfl, hc, -⟩
    · exact ⟨d', none, rfl, by decide, fun h => (hesc NUL h).1 rfl⟩
    · refine ⟨d', some c, rfl, ?_, fun h => by rw [(hesc c h).2] at hc; cases hc⟩
      cases hnl : isNL c with
      | false => exact hnl
      | true => rw [potential_notNl hasc hnl] at hc; cases hc
  refine C99_single_line_partial env hasc nl hn ord limit t ds method skip hr hl hds hend ?_ ?_
  · intro x hx e he
    obtain ⟨d, e', rfl, -, h⟩ := hcand x hx
    cases he
    cases e' <;> exact h
  · intro x hx row hrow c hc
    obtain ⟨d, e', rfl, h1, h2⟩ := hcand x hx
    exact parseStringQuoted_noNl hr h1 h2 row hrow c hc

/-- A case of `C99_unquoted_partial`: carriage returns, a URL, an escaped delimiter and a blank line at the end. -/
example : (detect asciiEnv .forward 100000 "a;http://x.yz/b,c\rd\\;e;f\r\r".toList).result =
    (detect asciiEnv .forward 100000 "a;http://x.yz/b,c\nd\\;e;f\n\n".toList).result := by
  have h := (C99_unquoted_partial asciiEnv asciiEnv_ascii ['\r'] (.inl rfl) .forward 100000
    "a;http://x.yz/b,c\nd\\;e;f\n\n".toList none .auto true (by decide) (by decide) (by simp) (.inl rfl)
    (by decide) (by
      have : ∀ c ∈ "a;http://x.yz/b,c\nd\\;e;f\n\n".toList, LineEndsWith c "a;http://x.yz/b,c\nd\\;e;f\n\n".toList →
          c ≠ NUL ∧ isPotentialEscapechar asciiEnv c = false := by decide
      rintro c ⟨a, b, h, hb⟩
      exact this c (by rw [h]; simp) ⟨a, b, h, hb⟩)).1
  exact h

end Clever.Props
