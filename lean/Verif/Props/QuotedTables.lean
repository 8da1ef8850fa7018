import Verif.Proofs.QuotedIO
import Verif.Props.PlainTables

/-!
# Properties C91 - C93: tables with quoted cells, from detection to the commands

A table with quoted cells (`Spec.QuotedTable`) has at least two columns; its cells stand in quotes, with quotes in them
doubled, or are made of plain characters.  Cells in quotes may contain delimiters.  Like C73 - C76 for plain tables, these
theorems follow such a table through detection, reading, writing and standardizing, without any dialect being given.
-/

namespace Clever.Props

open Clever Spec

variable {T : List (List (Bool × Str))}

/-! ## C91 The dialect of a table with quoted cells is detected -/

/-- **C91.**  The dialect of a table with quoted cells written with one of the delimiters comma, semicolon, bar and tab and
one of the two quote characters, with any of the three line ends, is found by `detect`: that delimiter, that quote
character, no escape character.  The last line may lack its line end. -/
theorem C91_detect (env : PyEnv) (ord : SetOrder) (limit : Int) (q : Char) (hq : q ∈ ['"', '\'']) (h : QuotedTable q T)
    (d : Char) (hd : d ∈ [',', ';', '|', '\t']) (nl : Str) (hnl : IsLineEnd nl) (text : Str)
    (ht : text = quotedText d q nl T ∨ text ++ nl = quotedText d q nl T) (hesc : NoEscapes env text) (skip : Bool) :
    detect env ord limit text none .auto skip = ⟨.ok (some (dialectOf (some d) (some q) none)), some .normal, limit⟩ := by
  have hd' : PlainDelim d := by simpa [PlainDelim] using hd
  have hq' : PlainQuote q := by simpa [PlainQuote] using hq
  have hcalm := noEscapes_calm hesc
  obtain ⟨tail, h1, rfl⟩ := quotedText_lines h ht
  unfold detect
  rw [h.wtable.normal hq' hd' hnl h1 hcalm (h.holds hq' hd')]
  rfl

/-- The cells of a table with quoted cells are found by the parser in that dialect, together with the flags. -/
theorem C91_parse (limit : Int) (hl : InLong limit) (q : Char) (hq : q ∈ ['"', '\'']) (h : QuotedTable q T)
    (hlen : ∀ r ∈ T, ∀ x ∈ r, (x.2.length : Int) + 2 ≤ limit) (d : Char) (hd : d ∈ [',', ';', '|', '\t']) (nl : Str)
    (hnl : IsLineEnd nl) (text : Str) (ht : text = quotedText d q nl T ∨ text ++ nl = quotedText d q nl T) :
    parseStringQuoted limit (dialectOf (some d) (some q) none) text = (T.map (·.map fun x => (x.2, x.1)), none) :=
  (h.parse_flags hl hlen (by simpa [PlainDelim] using hd) (by simpa [PlainQuote] using hq) hnl ht).1

/-- The table of the examples: quoted cells with delimiters, a quote and an umlaut, and plain cells. -/
def demoQuoted : List (List (Bool × Str)) :=
  [[(true, "a,b".toList), (false, "1 2".toList)], [(false, "x".toList), (true, "say \"hi\"; ü".toList)]]

/-- A concrete case with cells of both kinds. -/
theorem demoQuoted_table : QuotedTable '"' demoQuoted := by
  refine ⟨by decide, by decide, ?_, ?_, by decide, by decide, .inr ⟨by decide, by decide⟩⟩
  · unfold Rect; decide
  · unfold PlainChar; decide

/-- A concrete case with all cells in quotes, one of them empty, and only one row. -/
theorem demoQuoted_all : QuotedTable '\'' [[(true, "a,b".toList), (true, []), (true, "\"".toList)]] := by
  refine ⟨by decide, by decide, ?_, ?_, by decide, by decide, .inl (by decide)⟩
  · unfold Rect; decide
  · unfold PlainChar; decide

/-- The text of the first table with semicolons. -/
example : quotedText ';' '"' ['\n'] demoQuoted = "\"a,b\";1 2\nx;\"say \"\"hi\"\"; ü\"\n".toList := by decide

example : (detect asciiEnv .forward 131072 "\"a,b\";1 2\nx;\"say \"\"hi\"\"; ü\"\n".toList).result =
    .ok (some (dialectOf (some ';') (some '"') none)) :=
  congrArg Detection.result (C91_detect asciiEnv .forward 131072 '"' (by decide) demoQuoted_table ';' (by decide)
    ['\n'] (.inl rfl) _ (.inl (by decide)) (by decide) true)

example : (detect asciiEnv .forward 131072 "'a,b'\t''\t'\"'".toList).result =
    .ok (some (dialectOf (some '\t') (some '\'') none)) :=
  congrArg Detection.result (C91_detect asciiEnv .forward 131072 '\'' (by decide) demoQuoted_all '\t' (by decide)
    ['\n'] (.inl rfl) _ (.inr (by decide)) (by decide) true)

/-! ## C92 Tables with quoted cells are read back without naming the dialect -/

/-- Reading a file with a table with quoted cells, without a dialect. -/
theorem C92_read (sys : Sys) (hs : Quiet sys) (w : World) (hl : InLong w.limit) (p : Path) (enc : Option Str) (q : Char)
    (hq : q ∈ ['"', '\'']) (h : QuotedTable q T) (hlen : ∀ r ∈ T, ∀ x ∈ r, (x.2.length : Int) + 2 ≤ w.limit)
    (d : Char) (hd : d ∈ [',', ';', '|', '\t']) (nl : Str) (hnl : IsLineEnd nl) (text : Str)
    (ht : w.text sys p (w.encodingFor sys p enc) = some text)
    (htext : text = quotedText d q nl T ∨ text ++ nl = quotedText d q nl T) (hesc : NoEscapes sys.env text) :
    ∃ w', (readTable sys p none enc none) w = (.ok (values T), w') ∧ Same w w' := by
  have hres : (detect sys.env sys.order w.limit (detectionPart text none)).result =
      .ok (some (dialectOf (some d) (some q) none)) :=
    congrArg Detection.result (C91_detect sys.env sys.order w.limit q hq h d hd nl hnl text htext hesc true)
  obtain ⟨w', h1, h2, h3⟩ := C51_table_detected sys hs w p enc text ht none
  refine ⟨w', ?_, h3 ⟨_, hres⟩⟩
  rw [(C51_read_is_stream ..).1, h1, hres]
  simp only [(h.parse_flags hl hlen (by simpa [PlainDelim] using hd) (by simpa [PlainQuote] using hq) hnl htext).2]

/-- **C92.**  A table written with `write_table` in a dialect with one of the delimiters comma, semicolon, bar and tab, one
of the two quote characters, doubled quotes, no escape character and minimal quoting or quoting of all cells is what
`read_table` reads without being told the dialect, if the cells with the quotes that the writer gives them make up a
table with quoted cells, fit the field size limit, and no punctuation looks like an escape character. -/
theorem C92_round_trip (sys : Sys) (hs : Quiet sys) (w : World) (hl : InLong w.limit) (p : Path) (enc : Str) (c : Codec)
    (hc : sys.codec (some enc) = some c) (T : Iter (List Str)) (arg : DialectArg) (wd : WDialect) (q : Char)
    (hwd : mkWriter arg = .ok wd) (hw : QuotingWriter wd q) (h : QuotedTable q (flagged wd q T.items))
    (hlen : ∀ r ∈ T.items, ∀ s ∈ r, (s.length : Int) + 2 ≤ w.limit)
    (hfit : Represents c (quotedText wd.delimiter q wd.lineterminator (flagged wd q T.items)))
    (hesc : NoEscapes sys.env (quotedText wd.delimiter q wd.lineterminator (flagged wd q T.items))) :
    ∃ w' w'', (writeTable sys T p arg (encoding := some enc)) w = (.ok (), w') ∧
      (∀ q, q ≠ p → w'.files q = w.files q) ∧
      (readTable sys p none (some enc) none) w' = (.ok T.items, w'') := by
  have hne : T.items ≠ [] := fun h0 => h.rows (by rw [h0]; rfl)
  have hcols : ∀ r ∈ T.items, 2 ≤ r.length := by
    intro r hr
    simpa using h.columns _ (List.mem_map_of_mem hr)
  have hrect : Rect T.items := by
    intro r hr r' hr'
    simpa using h.rect _ (List.mem_map_of_mem hr) _ (List.mem_map_of_mem hr')
  obtain ⟨parts, hgen, hflat⟩ := hw.text hcols
  rw [← hflat] at hfit hesc
  obtain ⟨w', h1, h2, h3, h4, -⟩ := writeText_ok hs p (some enc) c hc parts hfit w
  have h2' : w'.text sys p (w'.encodingFor sys p (some enc)) = some parts.flatten := h2
  obtain ⟨w'', h5, -⟩ := C92_read sys hs w' (by rw [h4]; exact hl) p (some enc) q hw.quote h (by
      intro r hr x hx
      obtain ⟨r, hr1, rfl⟩ := List.mem_map.mp hr
      obtain ⟨s, hs1, rfl⟩ := List.mem_map.mp hx
      rw [h4]
      exact hlen r hr1 s hs1) wd.delimiter hw.delimiter _ hw.lineEnd _ h2' (.inl hflat) hesc
  rw [values_flagged] at h5
  refine ⟨w', w'', ?_, h3, h5⟩
  unfold writeTable
  have hf : T.falsy = false := by
    unfold Iter.falsy
    cases hi : T.items with
    | nil => exact absurd hi hne
    | cons a l => simp
  rw [hf]
  simp only [Bool.false_eq_true, if_false]
  rw [if_neg (by rw [ragged_iff]; simpa using hrect)]
  rw [← h1, hwd, ← hgen]
  rfl

/-- The writer of the default dialect. -/
theorem excel_quoting : QuotingWriter excelWriter '"' :=
  ⟨by decide, rfl, by decide, rfl, rfl, .inr rfl, .inl rfl⟩

/-- The dialects that are found by detection. -/
theorem simple_quoting (d q : Char) (hd : d ∈ [',', ';', '|', '\t']) (hq : q ∈ ['"', '\'']) :
    mkWriter (.simple (dialectOf (some d) (some q) none)) = .ok (simpleWriter d (some q) none) ∧
    QuotingWriter (simpleWriter d (some q) none) q :=
  ⟨mkWriter_simple .., ⟨hd, rfl, hq, rfl, rfl, .inl rfl, .inl rfl⟩⟩

/-- A dialect class that puts all cells in quotes. -/
theorem all_quoting : ∃ d : CsvDialect, d.quoting = .all ∧ mkWriter (.pyClass d) = .ok { excelWriter with quoting := .all } ∧
    QuotingWriter { excelWriter with quoting := .all } '"' :=
  ⟨⟨some [','], some ['"'], none, true, false, some ['\r', '\n'], .all, none⟩, rfl, rfl,
    ⟨by decide, rfl, by decide, rfl, rfl, .inr rfl, .inr rfl⟩⟩

/-- A concrete case in the default dialect. -/
example : let T : Iter (List Str) := ⟨[["a,b".toList, "1 2".toList], ["x".toList, "say \"hi\"".toList]], true⟩
    QuotedTable '"' (flagged excelWriter '"' T.items) ∧
    quotedText ',' '"' ['\r', '\n'] (flagged excelWriter '"' T.items) =
      "\"a,b\",1 2\r\nx,\"say \"\"hi\"\"\"\r\n".toList ∧
    let r := (writeTable demoSys T "f".toList (encoding := some "ascii".toList)) (demoWorld [])
    (readTable demoSys "f".toList none (some "ascii".toList) none r.2).1 = .ok T.items := by
  refine ⟨⟨by decide, by decide, ?_, ?_, by decide, by decide, .inr ⟨by decide, by decide⟩⟩, by decide,
    by decide +kernel⟩
  · unfold Rect; decide
  · unfold PlainChar; decide

/-! ## C93 Standardizing tables with quoted cells -/

theorem excelText_quoted {T : List (List Str)} (hc : ∀ r ∈ T, 2 ≤ r.length) :
    excelText T = quotedText ',' '"' ['\r', '\n'] (flagged excelWriter '"' T) := by
  obtain ⟨parts, h1, h2⟩ := excel_quoting.text hc
  rw [← (excel_writeGen T).1, h1]
  exact h2

/-- The standard text of a table with at least two columns: commas, `\r\n`, and quotes around the cells that contain
commas, quotes or line breaks. -/
theorem C93_standard_text {T : List (List Str)} (hc : ∀ r ∈ T, 2 ≤ r.length) (out : Str) :
    StandardText T out ↔ out = quotedText ',' '"' ['\r', '\n'] (flagged excelWriter '"' T) := by
  rw [← excelText_quoted hc]
  constructor
  · exact standardText_eq
  · rintro rfl
    exact ⟨excelWriter, mkWriter_excel, Prod.ext rfl (writeRows_ok (by decide) rfl T)⟩

theorem quoted_detectedRows {sys : Sys} {w : World} (hl : InLong w.limit) {p : Path} {enc : Option Str} {q : Char}
    (hq : q ∈ ['"', '\'']) (h : QuotedTable q T) (hlen : ∀ r ∈ T, ∀ x ∈ r, (x.2.length : Int) + 2 ≤ w.limit) {d : Char}
    (hd : d ∈ [',', ';', '|', '\t']) {nl : Str} (hnl : IsLineEnd nl) {text : Str}
    (ht : w.text sys p (w.stdEncoding sys p enc) = some text)
    (htext : text = quotedText d q nl T ∨ text ++ nl = quotedText d q nl T) (hesc : NoEscapes sys.env text)
    (rows : List (List Str)) : DetectedRows sys w p enc none rows ↔ rows = values T := by
  have hres : (detect sys.env sys.order w.limit (detectionPart text none)).result =
      .ok (some (dialectOf (some d) (some q) none)) :=
    congrArg Detection.result (C91_detect sys.env sys.order w.limit q hq h d hd nl hnl text htext hesc true)
  have hparse := (h.parse_flags hl hlen (by simpa [PlainDelim] using hd) (by simpa [PlainQuote] using hq) hnl htext).2
  constructor
  · rintro ⟨text', d', h1, h2, h3⟩
    rw [ht] at h1
    cases h1
    rw [hres] at h2
    cases h2
    rw [hparse] at h3
    cases h3
    rfl
  · rintro rfl
    exact ⟨text, _, ht, hres, hparse⟩

theorem values_columns {q : Char} (h : QuotedTable q T) : ∀ r ∈ values T, 2 ≤ r.length := by
  intro r hr
  obtain ⟨r, hr1, rfl⟩ := List.mem_map.mp hr
  simpa using h.columns r hr1

/-- **C93 (standard output).**  `standardize` prints the standard text of the values of the cells, and the exit code
is 0. -/
theorem C93_stdout (sys : Sys) (hs : Quiet sys) (a : StdArgs) (hi : a.inPlace = false) (htr : a.transpose = false)
    (hn : a.numChars = none) (w : World) (hl : InLong w.limit) (p : Path) (enc : Option Str) (q : Char)
    (hq : q ∈ ['"', '\'']) (h : QuotedTable q T) (hlen : ∀ r ∈ T, ∀ x ∈ r, (x.2.length : Int) + 2 ≤ w.limit) (d : Char)
    (hd : d ∈ [',', ';', '|', '\t']) (nl : Str) (hnl : IsLineEnd nl) (text : Str)
    (ht : w.text sys p (w.stdEncoding sys p enc) = some text)
    (htext : text = quotedText d q nl T ∨ text ++ nl = quotedText d q nl T) (hesc : NoEscapes sys.env text) :
    ∃ w', handlePath sys a p none enc w = (.ok 0, w') ∧
      w'.stdout = w.stdout ++ quotedText ',' '"' ['\r', '\n'] (flagged excelWriter '"' (values T)) ∧
      w'.files = w.files := by
  have hres : (detect sys.env sys.order w.limit (detectionPart text a.numChars)).result =
      .ok (some (dialectOf (some d) (some q) none)) := by
    rw [hn]
    exact congrArg Detection.result (C91_detect sys.env sys.order w.limit q hq h d hd nl hnl text htext hesc true)
  have hparse := (h.parse_flags hl hlen (by simpa [PlainDelim] using hd) (by simpa [PlainQuote] using hq) hnl htext).2
  obtain ⟨w1, hf, hl1, hs1, h1⟩ := handlePath_ok hs a none ht hres
  have ht1 : w1.text sys p (w.stdEncoding sys p enc) = some text := by
    rw [text_files (w := w) (by rw [hf]), ht]
  obtain ⟨w', h2⟩ := toStdout_ok hs (t := false) (validate_dialectOf _ _ _ _) ht1 (by rw [hl1]; exact hparse)
  obtain ⟨text', rows, h3, h4, h5, -, -, h6⟩ := toStdout_inv h2
  rw [ht1] at h3
  cases h3
  rw [hl1, hparse] at h4
  cases h4
  refine ⟨w', ?_, ?_, by rw [h6, hf]⟩
  · rw [h1]
    unfold deliver
    rw [hi, htr]
    simpa using h2
  · rw [h5, hs1, ← excelText_quoted (values_columns h)]
    rfl

/-- **C93 (in place).**  `standardize --in-place` leaves the standard text of the values of the cells: the file is replaced
by that (exit code 2), or has the SHA1 sum of it already (exit code 0).  Other files stay as they are. -/
theorem C93_in_place (sys : Sys) (hs : Quiet sys) (a : StdArgs) (hi : a.inPlace = true) (htr : a.transpose = false)
    (hn : a.numChars = none) (w : World) (hl : InLong w.limit) (p : Path)
    (hfresh : w.files (sys.tempName w.files) = none) (enc : Option Str) (q : Char)
    (hq : q ∈ ['"', '\'']) (h : QuotedTable q T) (hlen : ∀ r ∈ T, ∀ x ∈ r, (x.2.length : Int) + 2 ≤ w.limit) (d : Char)
    (hd : d ∈ [',', ';', '|', '\t']) (nl : Str) (hnl : IsLineEnd nl) (text : Str)
    (ht : w.text sys p (w.stdEncoding sys p enc) = some text)
    (htext : text = quotedText d q nl T ∨ text ++ nl = quotedText d q nl T) (hesc : NoEscapes sys.env text) (b : Bytes)
    (henc : Encodes sys (stdTarget a (w.stdEncoding sys p enc))
      (quotedText ',' '"' ['\r', '\n'] (flagged excelWriter '"' (values T))) b) :
    ∃ w', (∀ q, q ≠ p → w'.files q = w.files q) ∧
      ((handlePath sys a p none enc w = (.ok 2, w') ∧ w'.files p = some b ∧ w.files p ≠ some b) ∨
       (handlePath sys a p none enc w = (.ok 0, w') ∧ w'.files = w.files ∧
         ∃ old, w.files p = some old ∧ sys.sha1 old = sys.sha1 b)) := by
  have hcols := values_columns h
  have hrows : ∀ rows, DetectedRows sys w p enc a.numChars rows ↔ rows = values T := by
    rw [hn]
    exact quoted_detectedRows hl hq h hlen hd hnl ht htext hesc
  have henc_unique : ∀ b' out, StandardText (Spec.output a.transpose (values T)) out →
      Encodes sys (stdTarget a (w.stdEncoding sys p enc)) out b' → b' = b := by
    intro b' out h1 h2
    rw [htr] at h1
    rw [(C93_standard_text hcols out).mp h1] at h2
    have e1 := encoded_of_encodes h2
    rw [encoded_of_encodes henc] at e1
    exact (Option.some.inj e1).symm
  obtain ⟨c, w', h1, h2⟩ := C52_completes sys hs a p none (by simp) enc w (values T) ((hrows _).mpr rfl) hfresh
    ⟨_, b, by rw [htr]; exact (C93_standard_text hcols _).mpr rfl, henc⟩
  refine ⟨w', ?_⟩
  rcases h2 with rfl | rfl
  · obtain ⟨h3, rows, out, b', old, h4, h5, h6, h7, h8, -⟩ := C54_zero sys a hi p none enc w w' h1
    refine ⟨fun q _ => by rw [h3], .inr ⟨h1, h3, old, h7, ?_⟩⟩
    rw [(hrows rows).mp h4] at h5
    rw [h8, henc_unique b' out h5 h6]
  · obtain ⟨h3, h4, rows, out, b', h5, h6, h7, h8⟩ := C54_two sys a hi p none enc w w' h1
    rw [(hrows rows).mp h5] at h6
    have hb := henc_unique b' out h6 h7
    subst hb
    exact ⟨h3, .inl ⟨h1, h8, fun h9 => h4 (by rw [h8, h9])⟩⟩

/-- A concrete case: standardizing a table with semicolons in place; the second time, nothing changes. -/
example :
    let a : StdArgs := { paths := ["f".toList], inPlace := true }
    let r := handlePath demoSys a "f".toList none none (demoWorld [("f", "'a;b';'x'\n'c,d';'\"'\n")])
    let r' := handlePath demoSys a "f".toList none none r.2
    r.1 = .ok 2 ∧
    r.2.text demoSys "f".toList (some "ascii".toList) = some "a;b,x\r\n\"c,d\",\"\"\"\"\r\n".toList ∧
    r'.1 = .ok 0 := by
  decide +kernel

end Clever.Props
