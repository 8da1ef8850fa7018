import Verif.Proofs.Columns
import Verif.Props.TableCommands

/-!
# C117: files with a single column, and files whose rows are in quotes as a whole

The normal forms 4 and 5 of `detect_dialect_normal`, from detection to the commands.
-/

namespace Clever.Spec

/-- A line of the standard text of a single column: cells that are empty or contain a comma are in quotes.  (The cells
considered here contain no quotes and no line breaks.) -/
def standardLine (s : Str) : Str := if s = [] ∨ ',' ∈ s then '"' :: (s ++ ['"']) else s

/-- The standard text of a single column. -/
def standardColumn (L : List Str) : Str := L.flatMap fun s => standardLine s ++ ['\r', '\n']

end Clever.Spec

namespace Clever.Props

open Clever Clever.Spec

variable {q : Option Char} {L : List Str}

/-- **C117, detection.**  The dialect of a column of words is found by `detect`: no delimiter, no escape character, and the
quote character in which the words stand. -/
theorem C117_detect (env : PyEnv) (ha : env.Ascii) (ord : SetOrder) (limit : Int) (h : WordColumn q L) (nl : Str)
    (hnl : IsLineEnd nl) (text : Str) (ht : text = columnText q nl L ∨ text ++ nl = columnText q nl L) (skip : Bool) :
    detect env ord limit text none .auto skip = ⟨.ok (some (dialectOf none q none)), some .normal, limit⟩ := by
  have hL : L ≠ [] := by rintro rfl; simpa using h.rows
  obtain ⟨tail, h1, rfl⟩ := columnText_lines hL ht
  unfold detect
  rw [h.normal ha hnl h1]
  rfl

/-- **C117, parsing.**  In that dialect each line is a row with one cell, the word. -/
theorem C117_parse (limit : Int) (hl : InLong limit) (h : WordColumn q L) (nl : Str) (hnl : IsLineEnd nl)
    (hlen : ∀ s ∈ L, ((columnLine q s).length : Int) ≤ limit) (text : Str)
    (ht : text = columnText q nl L ∨ text ++ nl = columnText q nl L) :
    parseString limit (dialectOf none q none) text = (L.map ([·]), none) := by
  have hL : L ≠ [] := by rintro rfl; simpa using h.rows
  obtain ⟨tail, h1, rfl⟩ := columnText_lines hL ht
  exact h.parse hl hnl h1 hlen

/-- Reading a file of which the dialect and the rows are known. -/
theorem read_known (sys : Sys) (hs : Quiet sys) (w : World) (p : Path) (enc : Option Str) (text : Str)
    (ht : w.text sys p (w.encodingFor sys p enc) = some text) {D Q : Option Char} {rows : List (List Str)}
    (hres : (detect sys.env sys.order w.limit text none .auto true).result = .ok (some (dialectOf D Q none)))
    (hparse : parseString w.limit (dialectOf D Q none) text = (rows, none)) :
    ∃ w', (readTable sys p none enc none) w = (.ok rows, w') ∧ Same w w' := by
  have hres' : (detect sys.env sys.order w.limit (detectionPart text none)).result =
      .ok (some (dialectOf D Q none)) := hres
  obtain ⟨w', h1, h2, h3⟩ := C51_table_detected sys hs w p enc text ht none
  refine ⟨w', ?_, h3 ⟨_, hres'⟩⟩
  rw [(C51_read_is_stream ..).1, h1, hres']
  simp only [hparse]

/-- Standardizing a file of which the dialect and the rows are known. -/
theorem stdout_known (sys : Sys) (hs : Quiet sys) (a : StdArgs) (hi : a.inPlace = false) (htr : a.transpose = false)
    (hn : a.numChars = none) (w : World) (p : Path) (enc : Option Str) (text : Str)
    (ht : w.text sys p (w.stdEncoding sys p enc) = some text) {D Q : Option Char} {rows : List (List Str)}
    (hres : (detect sys.env sys.order w.limit text none .auto true).result = .ok (some (dialectOf D Q none)))
    (hparse : parseString w.limit (dialectOf D Q none) text = (rows, none)) :
    ∃ w', handlePath sys a p none enc w = (.ok 0, w') ∧ w'.stdout = w.stdout ++ excelText rows ∧ w'.files = w.files := by
  have hres' : (detect sys.env sys.order w.limit (detectionPart text a.numChars)).result =
      .ok (some (dialectOf D Q none)) := by rw [hn]; exact hres
  obtain ⟨w1, hf, hl1, hs1, h1⟩ := handlePath_ok hs a none ht hres'
  have ht1 : w1.text sys p (w.stdEncoding sys p enc) = some text := by
    rw [text_files (w := w) (by rw [hf]), ht]
  obtain ⟨w', h2⟩ := toStdout_ok hs (t := false) (validate_dialectOf _ _ _ _) ht1 (by rw [hl1]; exact hparse)
  obtain ⟨text', rows', h3, h4, h5, -, -, h6⟩ := toStdout_inv h2
  rw [ht1] at h3
  cases h3
  rw [hl1, hparse] at h4
  cases h4
  refine ⟨w', ?_, ?_, by rw [h6, hf]⟩
  · rw [h1]
    unfold deliver
    rw [hi, htr]
    simpa using h2
  · rw [h5, hs1]
    rfl

/-- The standard text of a column. -/
theorem excelText_column (hc : ∀ s ∈ L, ∀ c ∈ s, c ≠ '"' ∧ isNL c = false) :
    excelText (L.map ([·])) = standardColumn L := by
  unfold excelText standardColumn
  induction L with
  | nil => rfl
  | cons s L ih =>
    have ih := ih fun s hs => hc s (List.mem_cons_of_mem _ hs)
    have hrow : excelWriter.writeRow [s] = .ok (standardLine s ++ ['\r', '\n']) := by
      have hs := hc s (by simp)
      have hf : excelWriter.writeFields [s] = .ok (written '"' (inQuotes excelWriter '"' s, s)) := by
        rw [WDialect.writeFields, excel_quoting.field]
      have hin : inQuotes excelWriter '"' s = decide (',' ∈ s) := by
        have : inQuotes excelWriter '"' s = s.any fun c => c = ',' || c = '"' || c = '\n' || c = '\r' := by
          simp [inQuotes, excelWriter]
          rfl
        rw [this, Bool.eq_iff_iff, List.any_eq_true, decide_eq_true_eq]
        constructor
        · rintro ⟨c, hcs, h⟩
          obtain ⟨h1, h2⟩ := hs c hcs
          have hn : c ≠ '\n' := by rintro rfl; revert h2; decide
          have hr : c ≠ '\r' := by rintro rfl; revert h2; decide
          simp [h1, hn, hr] at h
          exact h ▸ hcs
        · intro h
          exact ⟨_, h, by simp⟩
      have hd : doubled '"' s = s := doubled_not_mem fun hm => (hs _ hm).1 rfl
      rw [hin] at hf
      cases s with
      | nil => rfl
      | cons c s =>
        by_cases hm : ',' ∈ c :: s
        · simp only [hm, decide_true, written, if_true, hd] at hf
          have hst : standardLine (c :: s) = '"' :: (c :: s ++ ['"']) := if_pos (.inr hm)
          simp only [WDialect.writeRow, hf, hst, bind, Except.bind, pure, Except.pure]
          rfl
        · simp only [hm, decide_false, written, Bool.false_eq_true, if_false] at hf
          have hst : standardLine (c :: s) = c :: s := if_neg (by simpa using hm)
          simp only [WDialect.writeRow, hf, hst, bind, Except.bind, pure, Except.pure]
          rfl
    simp only [List.map_cons, WDialect.writeRows, hrow, List.flatMap_cons, ih]

/-- **C117, reading.** -/
theorem C117_read (sys : Sys) (hs : Quiet sys) (ha : sys.env.Ascii) (w : World) (hl : InLong w.limit) (p : Path)
    (enc : Option Str) (h : WordColumn q L) (hlen : ∀ s ∈ L, ((columnLine q s).length : Int) ≤ w.limit) (nl : Str)
    (hnl : IsLineEnd nl) (text : Str) (ht : w.text sys p (w.encodingFor sys p enc) = some text)
    (htext : text = columnText q nl L ∨ text ++ nl = columnText q nl L) :
    ∃ w', (readTable sys p none enc none) w = (.ok (L.map ([·])), w') ∧ Same w w' :=
  read_known sys hs w p enc text ht
    (congrArg Detection.result (C117_detect sys.env ha sys.order w.limit h nl hnl text htext true))
    (C117_parse w.limit hl h nl hnl hlen text htext)

/-- **C117, the detect command.** -/
theorem C117_detect_command (sys : Sys) (hs : Quiet sys) (ha : sys.env.Ascii) (pr : Printer) (w : World) (p : Path)
    (enc : Option Str) (h : WordColumn q L) (nl : Str) (hnl : IsLineEnd nl) (text : Str)
    (ht : w.text sys p (w.stdEncoding sys p enc) = some text)
    (htext : text = columnText q nl L ∨ text ++ nl = columnText q nl L) (noSkip : Bool) :
    ∃ w', detectCmd sys pr p enc none false noSkip .default w = (.ok 0, w') ∧ w'.files = w.files ∧ w'.limit = w.limit ∧
      w'.stdout = w.stdout ++ report none q :=
  detectCmd_quiet hs pr none (by simp) h.quote noSkip ht
    (congrArg Detection.result (C117_detect sys.env ha sys.order w.limit h nl hnl text htext (!noSkip)))

/-- **C117, the view command.** -/
theorem C117_view (sys : Sys) (hs : Quiet sys) (ha : sys.env.Ascii) (w : World) (hl : InLong w.limit) (p : Path)
    (enc : Option Str) (h : WordColumn q L) (hlen : ∀ s ∈ L, ((columnLine q s).length : Int) ≤ w.limit) (nl : Str)
    (hnl : IsLineEnd nl) (text : Str) (ht : w.text sys p (w.encodingFor sys p enc) = some text)
    (htext : text = columnText q nl L ∨ text ++ nl = columnText q nl L) :
    (viewCmd sys p enc none false w).1 = .ok (0, some (L.map fun s => [some s])) := by
  obtain ⟨w', h1, -⟩ := C117_read sys hs ha w hl p enc h hlen nl hnl text ht htext
  rw [(C56_view sys p enc none w w' _ h1).1, List.map_map]
  rfl

/-- **C117, the standardize command.** -/
theorem C117_standardize (sys : Sys) (hs : Quiet sys) (ha : sys.env.Ascii) (a : StdArgs) (hi : a.inPlace = false)
    (htr : a.transpose = false) (hn : a.numChars = none) (w : World) (hl : InLong w.limit) (p : Path) (enc : Option Str)
    (h : WordColumn q L) (hlen : ∀ s ∈ L, ((columnLine q s).length : Int) ≤ w.limit) (nl : Str)
    (hnl : IsLineEnd nl) (text : Str) (ht : w.text sys p (w.stdEncoding sys p enc) = some text)
    (htext : text = columnText q nl L ∨ text ++ nl = columnText q nl L) :
    ∃ w', handlePath sys a p none enc w = (.ok 0, w') ∧ w'.stdout = w.stdout ++ standardColumn L ∧
      w'.files = w.files := by
  rw [← excelText_column fun s hs c hc => ?_]
  · exact stdout_known sys hs a hi htr hn w p enc text ht
      (congrArg Detection.result (C117_detect sys.env ha sys.order w.limit h nl hnl text htext true))
      (C117_parse w.limit hl h nl hnl hlen text htext)
  · have := h.char hs hc
    exact ⟨form4_not this (by decide), (form4_plain this).1⟩

/-- Concrete cases: bare words, and quoted ones with spaces and an empty one. -/
theorem demoWords : WordColumn none ["id".toList, "x_1".toList, "3.5".toList] :=
  ⟨by decide, by decide, by decide, by unfold ColumnChar; decide⟩

theorem demoQuotedWords : WordColumn (some '\'') ["first name".toList, [], "A-1".toList] :=
  ⟨by decide, by decide, by decide, by unfold ColumnChar; decide⟩

example : columnText (some '\'') ['\n'] ["first name".toList, [], "A-1".toList] = "'first name'\n''\n'A-1'\n".toList := by
  decide

example :
    let w := demoWorld [("f", "id\nx_1\n3.5\n"), ("g", "'first name'\n''\n'A-1'\n")]
    let a : StdArgs := { paths := [] }
    (detectCmd demoSys demoPrinter "f".toList none none false false .default w).2.stdout =
      "Detected: SimpleDialect('', '', '')\n".toList ∧
    (readTable demoSys "f".toList none none none w).1 = .ok [["id".toList], ["x_1".toList], ["3.5".toList]] ∧
    (handlePath demoSys a "g".toList none none w).2.stdout = "first name\r\n\"\"\r\nA-1\r\n".toList := by
  decide +kernel

/-! ## Rows in quotes as a whole -/

variable {T : List (List Str)}

/-- **C117, rows in quotes as a whole.**  If each row of a plain table is put in quotes, the delimiter and the quote
character are detected. -/
theorem C117_whole_detect (env : PyEnv) (ord : SetOrder) (limit : Int) (h : PlainTable T) (htwo : 2 ≤ T.length) (d : Char)
    (hd : d ∈ [',', ';', '|', '\t']) (q : Char) (hq : q ∈ ['"', '\'']) (nl : Str) (hnl : IsLineEnd nl) (text : Str)
    (ht : text = wholeRowText d q nl T ∨ text ++ nl = wholeRowText d q nl T) (hesc : NoEscapes env text) (skip : Bool) :
    detect env ord limit text none .auto skip = ⟨.ok (some (dialectOf (some d) (some q) none)), some .normal, limit⟩ := by
  have hcalm := noEscapes_calm hesc
  obtain ⟨tail, h1, rfl⟩ := columnText_lines (by simpa using h.rows) ht
  unfold detect
  rw [h.whole_normal htwo (by simpa [PlainDelim] using hd) (by simpa [PlainQuote] using hq) hnl h1 hcalm]
  rfl

/-- In that dialect each row is a single cell: the delimiters are inside the quotes. -/
theorem C117_whole_parse (limit : Int) (hl : InLong limit) (h : PlainTable T) (d : Char)
    (hd : d ∈ [',', ';', '|', '\t']) (q : Char) (hq : q ∈ ['"', '\'']) (nl : Str) (hnl : IsLineEnd nl)
    (hlen : ∀ r ∈ T, ((joinWith d r).length : Int) + 2 ≤ limit) (text : Str)
    (ht : text = wholeRowText d q nl T ∨ text ++ nl = wholeRowText d q nl T) :
    parseString limit (dialectOf (some d) (some q) none) text = (T.map fun r => [joinWith d r], none) := by
  obtain ⟨tail, h1, rfl⟩ := columnText_lines (by simpa using h.rows) ht
  exact h.whole_parse (by simpa [PlainDelim] using hd) (by simpa [PlainQuote] using hq) hl hnl h1 hlen

/-- So `read_table` returns a table with one column. -/
theorem C117_whole_read (sys : Sys) (hs : Quiet sys) (w : World) (hl : InLong w.limit) (p : Path) (enc : Option Str)
    (h : PlainTable T) (htwo : 2 ≤ T.length) (d : Char) (hd : d ∈ [',', ';', '|', '\t']) (q : Char)
    (hq : q ∈ ['"', '\'']) (hlen : ∀ r ∈ T, ((joinWith d r).length : Int) + 2 ≤ w.limit) (nl : Str)
    (hnl : IsLineEnd nl) (text : Str) (ht : w.text sys p (w.encodingFor sys p enc) = some text)
    (htext : text = wholeRowText d q nl T ∨ text ++ nl = wholeRowText d q nl T) (hesc : NoEscapes sys.env text) :
    ∃ w', (readTable sys p none enc none) w = (.ok (T.map fun r => [joinWith d r]), w') ∧ Same w w' :=
  read_known sys hs w p enc text ht
    (congrArg Detection.result (C117_whole_detect sys.env sys.order w.limit h htwo d hd q hq nl hnl text htext hesc true))
    (C117_whole_parse w.limit hl h d hd q hq nl hnl hlen text htext)

/-- And `standardize` prints a single column: the rows as they were, in double quotes if the delimiter is the comma and
without quotes if it is not. -/
theorem C117_whole_standardize (sys : Sys) (hs : Quiet sys) (a : StdArgs) (hi : a.inPlace = false)
    (htr : a.transpose = false) (hn : a.numChars = none) (w : World) (hl : InLong w.limit) (p : Path) (enc : Option Str)
    (h : PlainTable T) (htwo : 2 ≤ T.length) (d : Char) (hd : d ∈ [',', ';', '|', '\t']) (q : Char)
    (hq : q ∈ ['"', '\'']) (hlen : ∀ r ∈ T, ((joinWith d r).length : Int) + 2 ≤ w.limit) (nl : Str)
    (hnl : IsLineEnd nl) (text : Str) (ht : w.text sys p (w.stdEncoding sys p enc) = some text)
    (htext : text = wholeRowText d q nl T ∨ text ++ nl = wholeRowText d q nl T) (hesc : NoEscapes sys.env text) :
    ∃ w', handlePath sys a p none enc w = (.ok 0, w') ∧ w'.files = w.files ∧
      w'.stdout = w.stdout ++
        (if d = ',' then wholeRowText ',' '"' ['\r', '\n'] T else tableText d ['\r', '\n'] T) := by
  have hd' : PlainDelim d := by simpa [PlainDelim] using hd
  obtain ⟨w', h1, h2, h3⟩ := stdout_known sys hs a hi htr hn w p enc text ht
    (congrArg Detection.result (C117_whole_detect sys.env sys.order w.limit h htwo d hd q hq nl hnl text htext hesc true))
    (C117_whole_parse w.limit hl h d hd q hq nl hnl hlen text htext)
  refine ⟨w', h1, h3, ?_⟩
  have he : (T.map fun r => [joinWith d r]) = (T.map (joinWith d)).map ([·]) := by rw [List.map_map]; rfl
  rw [h2, he, excelText_column fun s hs c hc => ?_]
  · congr 1
    have hm : ∀ r ∈ T, joinWith d r ≠ [] ∧ (',' ∈ joinWith d r ↔ d = ',') := by
      intro r hr
      have hdm := delim_mem_joinWith (d := d) (h.columns r hr)
      refine ⟨List.ne_nil_of_mem hdm, fun hc => ?_, fun hc => hc ▸ hdm⟩
      rcases h.line_char (List.mem_map_of_mem hr) hc with h' | h'
      · exact h'.symm
      · exact absurd h' (by decide)
    unfold standardColumn wholeRowText columnText tableText
    by_cases hc : d = ','
    · subst hc
      rw [if_pos rfl]
      refine flatMap_congr_mem fun s hs => ?_
      obtain ⟨r, hr, rfl⟩ := List.mem_map.mp hs
      rw [standardLine, if_pos (.inr ((hm r hr).2.mpr rfl))]
      rfl
    · rw [if_neg hc, List.flatMap_map]
      refine flatMap_congr_mem fun r hr => ?_
      rw [standardLine, if_neg]
      rintro (h' | h')
      · exact (hm r hr).1 h'
      · exact hc ((hm r hr).2.mp h')
  · refine ⟨?_, h.line_nl hd' hs hc⟩
    rintro rfl
    rcases h.line_char hs hc with h' | h'
    · rcases hd' with rfl | rfl | rfl | rfl <;> revert h' <;> decide
    · revert h'; decide

/-- A table. -/
def demoWhole : List (List Str) := [["a".toList, "b".toList], ["1".toList, "2".toList]]

/-- A concrete case. -/
example : PlainTable demoWhole ∧ wholeRowText ';' '"' ['\n'] demoWhole = "\"a;b\"\n\"1;2\"\n".toList ∧
    NoEscapes asciiEnv "\"a;b\"\n\"1;2\"\n".toList ∧
    let w := demoWorld [("f", "\"a;b\"\n\"1;2\"\n"), ("g", "'a,b'\n'1,2'\n")]
    let a : StdArgs := { paths := [] }
    (detect asciiEnv .forward 131072 "\"a;b\"\n\"1;2\"\n".toList).result = .ok (some (dialectOf (some ';') (some '"') none)) ∧
    (readTable demoSys "f".toList none none none w).1 = .ok [["a;b".toList], ["1;2".toList]] ∧
    (handlePath demoSys a "f".toList none none w).2.stdout = "a;b\r\n1;2\r\n".toList ∧
    (handlePath demoSys a "g".toList none none w).2.stdout = "\"a,b\"\r\n\"1,2\"\r\n".toList := by
  refine ⟨⟨by decide, by decide, ?_, ?_, by decide⟩, by decide, by decide, by decide +kernel⟩
  · unfold Rect; decide
  · unfold PlainChar; decide

end Clever.Props
