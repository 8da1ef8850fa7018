import Verif.Proofs.PlainIO
import Verif.Props.Standardize

/-!
# Properties C73 - C76: plain tables, from detection to the commands

A plain table (`Spec.PlainTable`) has at least two columns of cells made of letters, digits and a few other
characters.  These theorems follow such a table through detection, reading, writing and standardizing, without
any dialect being given.
-/

namespace Clever.Props

open Clever Spec

/-! ## C73 The dialect of a plain table is detected -/

/-- **C73.**  The dialect of a plain table written with one of the delimiters comma, semicolon, bar and tab, with any of
the three line ends, is found by `detect`: that delimiter, no quote character, no escape character.  The last line
may lack its line end.  Missing for the full property: cells outside the last column that end in `/` or `@`
(`C73_violated`). -/
theorem C73_detect_partial (env : PyEnv) (ha : env.Ascii) (ord : SetOrder) (limit : Int) (T : List (List Str))
    (h : PlainTable T) (d : Char) (hd : d ∈ [',', ';', '|', '\t']) (nl : Str) (hnl : IsLineEnd nl) (text : Str)
    (ht : text = tableText d nl T ∨ text ++ nl = tableText d nl T) (skip : Bool) :
    detect env ord limit text none .auto skip = ⟨.ok (some (dialectOf (some d) none none)), some .normal, limit⟩ := by
  obtain ⟨tail, h1, rfl⟩ := tableText_lines h ht
  have hd' : PlainDelim d := by simpa [PlainDelim] using hd
  unfold detect
  rw [h.normal ha hd' hnl h1]
  rfl

/-- A concrete case. -/
example : PlainTable ["name".toList :: ["e mail".toList], ["x".toList, []], [[], "1.5%/".toList]] := by
  refine ⟨by simp, by decide, ?_, ?_, by decide⟩
  · unfold Rect; decide
  · unfold PlainChar; decide

/-- The text of that table with semicolons. -/
example : (detect asciiEnv .forward 131072 "name;e mail\nx;\n;1.5%/".toList).result =
    .ok (some (dialectOf (some ';') none none)) :=
  congrArg Detection.result (C73_detect_partial asciiEnv asciiEnv_ascii .forward 131072
    ["name".toList :: ["e mail".toList], ["x".toList, []], [[], "1.5%/".toList]]
    ⟨by simp, by decide, by unfold Rect; decide, by unfold PlainChar; decide, by decide⟩ ';' (by decide) ['\n']
    (.inl rfl) _ (.inr (by decide)) true)

/-- **C73 is violated** for cells that end in `@`: it is taken for an escape character, and nothing is detected. -/
theorem C73_violated :
    (∀ r ∈ [["a@".toList, "b".toList], ["c@".toList, "d".toList]], ∀ s ∈ r, ∀ c ∈ s, PlainChar c) ∧
    tableText ',' ['\n'] [["a@".toList, "b".toList], ["c@".toList, "d".toList]] = "a@,b\nc@,d\n".toList ∧
    (detect asciiEnv .forward 131072 "a@,b\nc@,d\n".toList).result = .ok none := by
  refine ⟨by unfold PlainChar; decide, by decide, by decide +kernel⟩

/-! ## C74 Plain tables are read back without naming the dialect -/

/-- Reading a file with a plain table, without a dialect. -/
theorem C74_read (sys : Sys) (hq : Quiet sys) (ha : sys.env.Ascii) (w : World) (hl : InLong w.limit) (p : Path)
    (enc : Option Str) (T : List (List Str)) (h : PlainTable T)
    (hlen : ∀ r ∈ T, ∀ s ∈ r, (s.length : Int) ≤ w.limit) (d : Char) (hd : d ∈ [',', ';', '|', '\t']) (nl : Str)
    (hnl : IsLineEnd nl) (text : Str) (ht : w.text sys p (w.encodingFor sys p enc) = some text)
    (htext : text = tableText d nl T ∨ text ++ nl = tableText d nl T) :
    ∃ w', (readTable sys p none enc none) w = (.ok T, w') ∧ Same w w' := by
  have hd' : PlainDelim d := by simpa [PlainDelim] using hd
  have hdet := C73_detect_partial sys.env ha sys.order w.limit T h d hd nl hnl text htext true
  have hres : (detect sys.env sys.order w.limit (detectionPart text none)).result =
      .ok (some (dialectOf (some d) none none)) := congrArg Detection.result hdet
  obtain ⟨w', h1, h2, h3⟩ := C51_table_detected sys hq w p enc text ht none
  refine ⟨w', ?_, h3 ⟨_, hres⟩⟩
  rw [(C51_read_is_stream ..).1, h1, hres]
  simp only [h.parse hl hlen hd' hnl htext]

/-- **C74.**  A plain table whose cells fit the field size limit, written with `write_table` in any dialect with one of
the delimiters comma, semicolon, bar and tab, `\n` or `\r\n` as line terminator, minimal or no quoting, and without a
quote or escape character that occurs in the cells, is what `read_table` reads without being told the dialect. -/
theorem C74_round_trip (sys : Sys) (hq : Quiet sys) (ha : sys.env.Ascii) (w : World) (hl : InLong w.limit) (p : Path)
    (enc : Str) (c : Codec) (hc : sys.codec (some enc) = some c) (T : Iter (List Str)) (h : PlainTable T.items)
    (hlen : ∀ r ∈ T.items, ∀ s ∈ r, (s.length : Int) ≤ w.limit) (arg : DialectArg) (wd : WDialect)
    (hwd : mkWriter arg = .ok wd) (hw : PlainWriter wd T.items)
    (hfit : Represents c (tableText wd.delimiter wd.lineterminator T.items)) :
    ∃ w' w'', (writeTable sys T p arg (encoding := some enc)) w = (.ok (), w') ∧
      (∀ q, q ≠ p → w'.files q = w.files q) ∧
      (readTable sys p none (some enc) none) w' = (.ok T.items, w'') := by
  obtain ⟨w', h1, h2, h3, h4, -⟩ := write_plain hq p (some enc) c hc h hw hfit w
  have h2' : w'.text sys p (w'.encodingFor sys p (some enc)) =
      some (tableText wd.delimiter wd.lineterminator T.items) := h2
  obtain ⟨w'', h5, -⟩ := C74_read sys hq ha w' (by rw [h4]; exact hl) p (some enc) T.items h
    (by rw [h4]; exact hlen) wd.delimiter hw.delimiter _ hw.lineEnd _ h2' (.inl rfl)
  refine ⟨w', w'', ?_, h3, h5⟩
  unfold writeTable
  have hf : T.falsy = false := by
    unfold Iter.falsy
    cases hi : T.items with
    | nil => exact absurd hi h.rows
    | cons a l => simp
  rw [hf]
  simp only [Bool.false_eq_true, if_false]
  rw [if_neg (by rw [ragged_iff]; simpa using h.rect)]
  rw [← h1, hwd]
  rfl

/-- With the default dialect of `write_table`. -/
theorem C74_excel (sys : Sys) (hq : Quiet sys) (ha : sys.env.Ascii) (w : World) (hl : InLong w.limit) (p : Path)
    (enc : Str) (c : Codec) (hc : sys.codec (some enc) = some c) (T : Iter (List Str)) (h : PlainTable T.items)
    (hlen : ∀ r ∈ T.items, ∀ s ∈ r, (s.length : Int) ≤ w.limit) (hfit : TableFits c T.items) :
    ∃ w' w'', (writeTable sys T p (encoding := some enc)) w = (.ok (), w') ∧
      (∀ q, q ≠ p → w'.files q = w.files q) ∧
      (readTable sys p none (some enc) none) w' = (.ok T.items, w'') := by
  refine C74_round_trip sys hq ha w hl p enc c hc T h hlen (.name "excel") excelWriter mkWriter_excel
    ⟨by decide, .inr rfl, .inl rfl, ?_⟩ (hfit _ ?_)
  · intro r hr s hs ch hch
    have hne : ch ≠ '"' := elementary_ne (h.elementary hr hs hch) (by decide)
    exact ⟨fun he => hne (Option.some.inj he).symm, by simp [excelWriter]⟩
  · intro ch hch
    obtain ⟨r, hr, hm⟩ := List.mem_flatMap.mp hch
    rcases List.mem_append.mp hm with hm | hm
    · rcases mem_joinWith hm with rfl | ⟨s, hs, hm⟩
      · exact .inl (by unfold excelChar; decide)
      · exact .inr ⟨r, hr, s, hs, hm⟩
    · refine .inl ?_
      have : ch = '\r' ∨ ch = '\n' := by simpa [excelWriter] using hm
      rcases this with rfl | rfl <;> (unfold excelChar; decide)

/-- A concrete case: a table with empty cells, as a list, in the default dialect and in a dialect with bars. -/
example : let T : Iter (List Str) := ⟨[["a".toList, []], [[], "1 (%)".toList]], true⟩
    let r := (writeTable demoSys T "f".toList (encoding := some "ascii".toList)) (demoWorld [])
    let r' := (writeTable demoSys T "f".toList (.simple (dialectOf (some '|') none none))
      (encoding := some "ascii".toList)) (demoWorld [])
    r.2.text demoSys "f".toList none = some "a,\r\n,1 (%)\r\n".toList ∧
    (readTable demoSys "f".toList none (some "ascii".toList) none r.2).1 = .ok T.items ∧
    r'.2.text demoSys "f".toList none = some "a|\n|1 (%)\n".toList ∧
    (readTable demoSys "f".toList none (some "ascii".toList) none r'.2).1 = .ok T.items := by
  decide +kernel

/-- Tables that are not plain need not come back: a column of texts with semicolons is read as two columns. -/
theorem C74_other_tables :
    let T : Iter (List Str) := ⟨[["a;b".toList], ["c;d".toList]], true⟩
    let r := (writeTable demoSys T "f".toList (encoding := some "ascii".toList)) (demoWorld [])
    r.1 = .ok () ∧
    (readTable demoSys "f".toList none (some "ascii".toList) none r.2).1 =
      .ok [["a".toList, "b".toList], ["c".toList, "d".toList]] := by
  decide +kernel

/-! ## C75 Plain dictionaries are read back without naming the dialect -/

/-- **C75.**  Dictionaries with the same distinct keys in the same order, which with their values make up a plain table,
written with `write_dicts` in a dialect as in C74, are what `read_dicts` returns without being told the dialect. -/
theorem C75_round_trip (sys : Sys) (hq : Quiet sys) (ha : sys.env.Ascii) (w : World) (hl : InLong w.limit) (p : Path)
    (enc : Str) (c : Codec) (hc : sys.codec (some enc) = some c) (items : Iter (List (Str × Str))) (keys : List Str)
    (hkn : keys.Nodup) (hne : items.items ≠ []) (hkeys : ∀ d ∈ items.items, d.map Prod.fst = keys)
    (h : PlainTable (keys :: items.items.map (·.map Prod.snd)))
    (hlen : ∀ r ∈ keys :: items.items.map (·.map Prod.snd), ∀ s ∈ r, (s.length : Int) ≤ w.limit)
    (arg : DialectArg) (wd : WDialect) (hwd : mkWriter arg = .ok wd)
    (hw : PlainWriter wd (keys :: items.items.map (·.map Prod.snd)))
    (hfit : Represents c (tableText wd.delimiter wd.lineterminator (keys :: items.items.map (·.map Prod.snd)))) :
    ∃ w' w'', (writeDicts sys items p arg (encoding := some enc)) w = (.ok (), w') ∧
      (∀ q, q ≠ p → w'.files q = w.files q) ∧
      (readDicts sys p none (some enc) none) w' =
        (.ok (items.items.map fun d => d.map fun kv => (some kv.1, DVal.cell kv.2)), w'') := by
  obtain ⟨w', h1, h2, h3, h4, -⟩ := write_plain hq p (some enc) c hc h hw hfit w
  generalize htext : tableText wd.delimiter wd.lineterminator (keys :: items.items.map (·.map Prod.snd)) = text at h2
  have h2' : w'.text sys p (w'.encodingFor sys p (some enc)) = some text := h2
  have hdet := C73_detect_partial sys.env ha sys.order w'.limit _ h wd.delimiter hw.delimiter _ hw.lineEnd text
    (.inl htext.symm) true
  have hres : (detect sys.env sys.order w'.limit (detectionPart text none)).result =
      .ok (some (dialectOf (some wd.delimiter) none none)) := congrArg Detection.result hdet
  obtain ⟨w'', h5, -, -⟩ := C51_dicts_detected sys hq w' p (some enc) text h2' none
  refine ⟨w', w'', ?_, h3, ?_⟩
  · unfold writeDicts
    have hf : items.falsy = false := by
      unfold Iter.falsy
      cases hi : items.items with
      | nil => exact absurd hi hne
      | cons a l => simp
    have hmk : (mkDictWriter keys (arg := arg)) = .ok ⟨keys, [], "raise".toList, wd⟩ := by
      simp only [mkDictWriter, hwd, bind, Except.bind, pure, Except.pure]
      rfl
    rw [hf]
    simp only [Bool.false_eq_true, if_false]
    cases hi : items.items with
    | nil => exact absurd hi hne
    | cons first rest =>
      simp only
      rw [hkeys first (by simp [hi]), hmk, ← hi, ← h1]
      have : ∀ c : Codec, (do
          let w ← liftExcept (Except.ok (⟨keys, [], "raise".toList, wd⟩ : DictWriter))
          writeGen sys p c (w.writeAll items.items) : Act Unit) =
          writeGen sys p c (wd.writeGen (keys :: items.items.map (·.map Prod.snd))) := by
        intro c
        funext w
        rw [act_bind_ok (liftExcept_apply _ w), dictWriter_writeAll hkn hkeys]
      simp only [this]
  · rw [(C51_read_is_stream ..).2, h5, hres]
    simp only [h.parse (limit := w'.limit) (by rw [h4]; exact hl) (by rw [h4]; exact hlen) hw.delim hw.lineEnd
      (.inl htext.symm)]
    rw [rowDicts_back ?_ hkn hkeys]
    have := h.columns keys (by simp)
    intro h0
    rw [h0] at this
    simp at this

/-- A concrete case. -/
example : let items : Iter (List (Str × Str)) := ⟨[[("k".toList, "1".toList), ("v".toList, [])],
      [("k".toList, "2".toList), ("v".toList, "a-b".toList)]], false⟩
    let r := (writeDicts demoSys items "f".toList (encoding := some "ascii".toList)) (demoWorld [])
    r.1 = .ok () ∧ r.2.text demoSys "f".toList none = some "k,v\r\n1,\r\n2,a-b\r\n".toList ∧
    (readDicts demoSys "f".toList none (some "ascii".toList) none r.2).1 =
      .ok (items.items.map fun d => d.map fun kv => (some kv.1, DVal.cell kv.2)) := by
  decide +kernel

/-! ## C76 Standardizing plain tables -/

theorem excelWriter_plain {T : List (List Str)} (h : PlainTable T) : PlainWriter excelWriter T := by
  refine ⟨by decide, .inr rfl, .inl rfl, fun r hr s hs ch hch => ?_⟩
  have hne : ch ≠ '"' := elementary_ne (h.elementary hr hs hch) (by decide)
  exact ⟨fun he => hne (Option.some.inj he).symm, by simp [excelWriter]⟩

theorem excelText_plain {T : List (List Str)} (h : PlainTable T) : excelText T = tableText ',' ['\r', '\n'] T := by
  rw [← (excel_writeGen T).1, writeGen_plain h.columns ((excelWriter_plain h).writes h)]
  rw [tableText, List.flatMap_def]
  rfl

/-- The standard text of a plain table has commas and `\r\n`. -/
theorem C76_standard_text {T : List (List Str)} (h : PlainTable T) (out : Str) :
    StandardText T out ↔ out = tableText ',' ['\r', '\n'] T := by
  rw [← excelText_plain h]
  constructor
  · exact standardText_eq
  · rintro rfl
    exact ⟨excelWriter, mkWriter_excel, Prod.ext rfl (writeRows_ok (by decide) rfl T)⟩

theorem plain_detectedRows {sys : Sys} (ha : sys.env.Ascii) {w : World} (hl : InLong w.limit)
    {p : Path} {enc : Option Str} {T : List (List Str)} (h : PlainTable T)
    (hlen : ∀ r ∈ T, ∀ s ∈ r, (s.length : Int) ≤ w.limit) {d : Char} (hd : d ∈ [',', ';', '|', '\t']) {nl : Str}
    (hnl : IsLineEnd nl) {text : Str} (ht : w.text sys p (w.stdEncoding sys p enc) = some text)
    (htext : text = tableText d nl T ∨ text ++ nl = tableText d nl T) (rows : List (List Str)) :
    DetectedRows sys w p enc none rows ↔ rows = T := by
  have hd' : PlainDelim d := by simpa [PlainDelim] using hd
  have hres : (detect sys.env sys.order w.limit (detectionPart text none)).result =
      .ok (some (dialectOf (some d) none none)) :=
    congrArg Detection.result (C73_detect_partial sys.env ha sys.order w.limit T h d hd nl hnl text htext true)
  have hparse := h.parse hl hlen hd' hnl htext
  constructor
  · rintro ⟨text', d', h1, h2, h3⟩
    rw [ht] at h1
    cases h1
    rw [hres] at h2
    cases h2
    rw [hparse] at h3
    cases h3
    rfl
  · rintro rfl
    exact ⟨text, _, ht, hres, hparse⟩

/-- **C76 (standard output).**  `standardize` prints the table with commas and `\r\n` line ends, and the exit code is 0. -/
theorem C76_stdout (sys : Sys) (hq : Quiet sys) (ha : sys.env.Ascii) (a : StdArgs) (hi : a.inPlace = false)
    (htr : a.transpose = false) (hn : a.numChars = none) (w : World) (hl : InLong w.limit) (p : Path)
    (enc : Option Str) (T : List (List Str)) (h : PlainTable T)
    (hlen : ∀ r ∈ T, ∀ s ∈ r, (s.length : Int) ≤ w.limit) (d : Char) (hd : d ∈ [',', ';', '|', '\t']) (nl : Str)
    (hnl : IsLineEnd nl) (text : Str) (ht : w.text sys p (w.stdEncoding sys p enc) = some text)
    (htext : text = tableText d nl T ∨ text ++ nl = tableText d nl T) :
    ∃ w', handlePath sys a p none enc w = (.ok 0, w') ∧
      w'.stdout = w.stdout ++ tableText ',' ['\r', '\n'] T ∧ w'.files = w.files := by
  have hd' : PlainDelim d := by simpa [PlainDelim] using hd
  have hres : (detect sys.env sys.order w.limit (detectionPart text a.numChars)).result =
      .ok (some (dialectOf (some d) none none)) := by
    rw [hn]
    exact congrArg Detection.result (C73_detect_partial sys.env ha sys.order w.limit T h d hd nl hnl text htext true)
  have hparse := h.parse hl hlen hd' hnl htext
  obtain ⟨w1, hf, hl1, hs, h1⟩ := handlePath_ok hq a none ht hres
  have ht1 : w1.text sys p (w.stdEncoding sys p enc) = some text := by
    rw [text_files (w := w) (by rw [hf]), ht]
  obtain ⟨w', h2⟩ := toStdout_ok hq (t := false) (validate_dialectOf _ _ _ _) ht1 (by rw [hl1]; exact hparse)
  obtain ⟨text', rows, h3, h4, h5, -, -, h6⟩ := toStdout_inv h2
  rw [ht1] at h3
  cases h3
  rw [hl1, hparse] at h4
  cases h4
  refine ⟨w', ?_, ?_, by rw [h6, hf]⟩
  · rw [h1]
    unfold deliver
    rw [hi, htr]
    simpa using h2
  · rw [h5, hs, ← excelText_plain h]
    rfl

/-- **C76 (in place).**  `standardize --in-place` leaves the table with commas and `\r\n` line ends: the file is replaced
by that (exit code 2), or has the SHA1 sum of it already (exit code 0).  Other files stay as they are. -/
theorem C76_in_place (sys : Sys) (hq : Quiet sys) (ha : sys.env.Ascii) (a : StdArgs) (hi : a.inPlace = true)
    (htr : a.transpose = false) (hn : a.numChars = none) (w : World) (hl : InLong w.limit) (p : Path)
    (hfresh : w.files (sys.tempName w.files) = none)
    (enc : Option Str) (T : List (List Str)) (h : PlainTable T)
    (hlen : ∀ r ∈ T, ∀ s ∈ r, (s.length : Int) ≤ w.limit) (d : Char) (hd : d ∈ [',', ';', '|', '\t']) (nl : Str)
    (hnl : IsLineEnd nl) (text : Str) (ht : w.text sys p (w.stdEncoding sys p enc) = some text)
    (htext : text = tableText d nl T ∨ text ++ nl = tableText d nl T) (b : Bytes)
    (henc : Encodes sys (stdTarget a (w.stdEncoding sys p enc)) (tableText ',' ['\r', '\n'] T) b) :
    ∃ w', (∀ q, q ≠ p → w'.files q = w.files q) ∧
      ((handlePath sys a p none enc w = (.ok 2, w') ∧ w'.files p = some b ∧ w.files p ≠ some b) ∨
       (handlePath sys a p none enc w = (.ok 0, w') ∧ w'.files = w.files ∧
         ∃ old, w.files p = some old ∧ sys.sha1 old = sys.sha1 b)) := by
  have hrows : ∀ rows, DetectedRows sys w p enc a.numChars rows ↔ rows = T := by
    rw [hn]
    exact plain_detectedRows ha hl h hlen hd hnl ht htext
  have henc_unique : ∀ b' out, StandardText (Spec.output a.transpose T) out →
      Encodes sys (stdTarget a (w.stdEncoding sys p enc)) out b' → b' = b := by
    intro b' out h1 h2
    rw [htr] at h1
    rw [(C76_standard_text h out).mp h1] at h2
    have e1 := encoded_of_encodes h2
    rw [encoded_of_encodes henc] at e1
    exact (Option.some.inj e1).symm
  obtain ⟨c, w', h1, h2⟩ := C52_completes sys hq a p none (by simp) enc w T ((hrows T).mpr rfl) hfresh
    ⟨_, b, by rw [htr]; exact (C76_standard_text h _).mpr rfl, henc⟩
  refine ⟨w', ?_⟩
  rcases h2 with rfl | rfl
  · obtain ⟨h3, rows, out, b', old, h4, h5, h6, h7, h8, -⟩ := C54_zero sys a hi p none enc w w' h1
    refine ⟨fun q _ => by rw [h3], .inr ⟨h1, h3, old, h7, ?_⟩⟩
    rw [(hrows rows).mp h4] at h5
    rw [h8, henc_unique b' out h5 h6]
  · obtain ⟨h3, h4, rows, out, b', h5, h6, h7, h8⟩ := C54_two sys a hi p none enc w w' h1
    rw [(hrows rows).mp h5] at h6
    have hb := henc_unique b' out h6 h7
    subst hb
    exact ⟨h3, .inl ⟨h1, h8, fun h9 => h4 (by rw [h8, h9])⟩⟩

/-- A concrete case: standardizing a table with bars in place; the second time, nothing changes. -/
example :
    let a : StdArgs := { paths := ["f".toList], inPlace := true }
    let r := handlePath demoSys a "f".toList none none (demoWorld [("f", "a|b\n1|\n")])
    let r' := handlePath demoSys a "f".toList none none r.2
    r.1 = .ok 2 ∧ r.2.text demoSys "f".toList (some "ascii".toList) = some "a,b\r\n1,\r\n".toList ∧
    r'.1 = .ok 0 := by
  decide +kernel

end Clever.Props
