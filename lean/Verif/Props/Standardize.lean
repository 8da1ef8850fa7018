import Verif.Proofs.StandardizeLive
import Verif.Proofs.ExactFit

/-!
# Properties of the standardize command: C52, C53, C54 and C55
-/

namespace Clever.Props

open Spec (StandardText Encodes ReadsAs DetectedRows Ran BadArgs)

theorem standardText_excelText (rows : List (List Str)) : StandardText rows (excelText rows) :=
  ⟨excelWriter, mkWriter_excel, Prod.ext rfl (writeRows_ok (by decide) rfl rows)⟩

theorem standardText_eq {rows : List (List Str)} {out : Str} (h : StandardText rows out) : out = excelText rows := by
  obtain ⟨wd, h1, h2⟩ := h
  rw [mkWriter_excel] at h1
  cases h1
  unfold excelText
  rw [h2]

theorem encodes_of {sys : Sys} {enc : Option Str} {text : Str} {b : Bytes} (h : encoded sys enc text = some b) :
    Encodes sys enc text b := encoded_some h

theorem encoded_of_encodes {sys : Sys} {enc : Option Str} {text : Str} {b : Bytes} (h : Encodes sys enc text b) :
    encoded sys enc text = some b := by
  obtain ⟨c, s, h1, h2⟩ := h
  exact encoded_of h1 h2

theorem readsAs_of_parse {limit : Int} {d : SimpleDialect} {t : Str} {rows : List (List Str)}
    (h : parseString limit d t = (rows, none)) : ReadsAs limit (excelText rows) rows := by
  have hn : ∀ row ∈ rows, ∀ s ∈ row, NUL ∉ s := by
    have := parseString_noNul limit d t
    rw [h] at this
    exact this
  obtain ⟨h1, -, h2⟩ := excel_exact limit (parseString_inLong (d := d) (t := t) (by rw [h])) rows
  exact ⟨h1.2, fun h => h2 h hn⟩

/-! ## C52 standardize preserves the table -/

/-- To the standard output: whatever else happens, if the command does not report a failure it has printed a text
that has exactly the rows of the input. -/
theorem C52_stdout_partial (sys : Sys) (a : StdArgs) (hi : a.inPlace = false) (ht : a.transpose = false)
    (p : Path) (enc : Option Str) (w w' : World) (c : Nat) (hc : c ≠ 1)
    (h : handlePath sys a p none enc w = (.ok c, w')) :
    ∃ rows out, DetectedRows sys w p enc a.numChars rows ∧ ReadsAs w.limit out rows ∧
      w'.stdout = w.stdout ++ out ∧ w'.files = w.files := by
  obtain ⟨text, r, w1, h1, h2, hf, hl, hs, h | ⟨d, rfl, h⟩⟩ := handlePath_inv h
  · exact absurd h.2.1 hc
  · unfold deliver at h
    rw [hi] at h
    simp only [Bool.false_eq_true, if_false] at h
    obtain ⟨text', rows, h3, h4, h5, -, -, h6⟩ := toStdout_inv h
    rw [text_files (w := w) (by rw [hf]), h1] at h3
    cases h3
    rw [hl] at h4
    rw [ht] at h5
    exact ⟨rows, excelText rows, ⟨text, d, h1, h2, h4⟩, readsAs_of_parse h4, by rw [h5, hs]; rfl, by rw [h6, hf]⟩

/-- To another file. -/
theorem C52_file_partial (sys : Sys) (a : StdArgs) (hi : a.inPlace = false) (ht : a.transpose = false)
    (p o : Path) (hpo : p ≠ o) (enc : Option Str) (w w' : World) (c : Nat) (hc : c ≠ 1)
    (h : handlePath sys a p (some o) enc w = (.ok c, w')) :
    ∃ rows out b, DetectedRows sys w p enc a.numChars rows ∧ ReadsAs w.limit out rows ∧
      Encodes sys (stdTarget a (w.stdEncoding sys p enc)) out b ∧ w'.files o = some b ∧
      (∀ q, q ≠ o → w'.files q = w.files q) ∧ w'.stdout = w.stdout := by
  obtain ⟨text, r, w1, h1, h2, hf, hl, hs, h | ⟨d, rfl, h⟩⟩ := handlePath_inv h
  · exact absurd h.2.1 hc
  · unfold deliver at h
    rw [hi] at h
    simp only [Bool.false_eq_true, if_false] at h
    obtain ⟨text', rows, b, h3, h4, h5, h6, -, -, h7, h8⟩ := toFile_inv hpo h
    rw [text_files (w := w) (by rw [hf]), h1] at h3
    cases h3
    rw [hl] at h4
    rw [ht] at h5
    refine ⟨rows, excelText rows, b, ⟨text, d, h1, h2, h4⟩, readsAs_of_parse h4, encodes_of h5, h7, ?_, by rw [h6, hs]⟩
    intro q hq
    rw [h8 q hq, hf]

/-- In place: with exit code 2 the file has been replaced; with exit code 0 it has not, since it has the SHA1 sum of
the output. -/
theorem C52_in_place_partial (sys : Sys) (a : StdArgs) (hi : a.inPlace = true) (ht : a.transpose = false)
    (p : Path) (o : Option Path) (enc : Option Str) (w w' : World) (c : Nat) (hc : c ≠ 1)
    (h : handlePath sys a p o enc w = (.ok c, w')) :
    ∃ rows out b, DetectedRows sys w p enc a.numChars rows ∧ ReadsAs w.limit out rows ∧
      Encodes sys (stdTarget a (w.stdEncoding sys p enc)) out b ∧
      (w'.files p = some b ∨ w'.files p = w.files p ∧ ∃ old, w.files p = some old ∧ sys.sha1 old = sys.sha1 b) ∧
      (∀ q, q ≠ p → w'.files q = w.files q) ∧ w'.stdout = w.stdout := by
  obtain ⟨text, r, w1, h1, h2, hf, hl, hs, h | ⟨d, rfl, h⟩⟩ := handlePath_inv h
  · exact absurd h.2.1 hc
  · unfold deliver at h
    rw [hi] at h
    simp only [if_true] at h
    obtain ⟨old, ho⟩ := text_some h1
    obtain ⟨text', rows, b, h3, h4, h5, h6, -, h7⟩ := inPlace_inv (by rw [hf]; exact ho) h
    rw [text_files (w := w) (by rw [hf]), h1] at h3
    cases h3
    rw [hl] at h4
    rw [ht] at h5
    refine ⟨rows, excelText rows, b, ⟨text, d, h1, h2, h4⟩, readsAs_of_parse h4, encodes_of h5, ?_, ?_, by rw [h6, hs]⟩
    · rcases h7 with ⟨-, h7, h8⟩ | ⟨-, -, h7, -⟩
      · exact .inr ⟨by rw [h8, hf], old, ho, h7⟩
      · exact .inl h7
    · rcases h7 with ⟨-, -, h8⟩ | ⟨-, -, -, h8⟩
      · intro q _; rw [h8 q, hf]
      · intro q hq; rw [h8 q hq, hf]

/-- When nothing fails, a file with detectable rows is standardized: the command reports no failure. -/
theorem C52_completes (sys : Sys) (hq : Quiet sys) (a : StdArgs) (p : Path) (output : Option Path)
    (hpo : output ≠ some p) (enc : Option Str) (w : World) (rows : List (List Str))
    (hrows : DetectedRows sys w p enc a.numChars rows)
    (hfresh : w.files (sys.tempName w.files) = none)
    (henc : ∃ out b, StandardText (if a.transpose then zipRows rows else rows) out ∧
      Encodes sys (stdTarget a (w.stdEncoding sys p enc)) out b) :
    ∃ c w', handlePath sys a p output enc w = (.ok c, w') ∧ (c = 0 ∨ c = 2) := by
  obtain ⟨text, d, h1, h2, h3⟩ := hrows
  obtain ⟨out, b, h4, h5⟩ := henc
  have h6 : encoded sys (stdTarget a (w.stdEncoding sys p enc)) (excelText (shown a.transpose rows)) = some b := by
    rw [show shown a.transpose rows = if a.transpose then zipRows rows else rows from rfl, ← standardText_eq h4]
    exact encoded_of_encodes h5
  have hv : d.validate = .ok () := (C40_valid _ _ _ _ _ _ _ _ (by simp) h2).1
  obtain ⟨w1, hf, hl, hs, h7⟩ := handlePath_ok hq a output h1 h2
  have h1' : w1.text sys p (w.stdEncoding sys p enc) = some text := by
    rw [text_files (w := w) (by rw [hf]), h1]
  rw [← hl] at h3
  obtain ⟨old, ho⟩ := text_some h1'
  have : ∃ c w', deliver sys a p output d (w.stdEncoding sys p enc) (stdTarget a (w.stdEncoding sys p enc)) w1 =
      (.ok c, w') := by
    unfold deliver
    split
    · exact inPlace_ok hq (by rw [hf]; exact hfresh) hv h1' h3 h6
    · split
      · obtain ⟨w', h⟩ := toStdout_ok hq (t := a.transpose) hv h1' h3
        exact ⟨0, w', h⟩
      · rename_i o
        obtain ⟨w', h⟩ := toFile_ok hq (t := a.transpose) (o := o) (fun h => hpo (by rw [h])) hv h1' h3 h6
        exact ⟨0, w', h⟩
  obtain ⟨c, w', h8⟩ := this
  exact ⟨c, w', h7.trans h8, deliver_codes ho h8⟩

/-- A file separated by semicolons. -/
example :
    let r := handlePath demoSys { paths := ["f".toList] } "f".toList none none (demoWorld [("f", "1,5;2\n2,5;3\n")])
    r.1 = .ok 0 ∧ r.2.stdout = "\"1,5\",2\r\n\"2,5\",3\r\n".toList ∧
    readText 131072 (.name "excel") {} r.2.stdout =
      .ok [["1,5".toList, "2".toList], ["2,5".toList, "3".toList]] := by
  decide +kernel

/-- ... and in place. -/
example :
    let r := handlePath demoSys { paths := ["f".toList], inPlace := true } "f".toList none none
      (demoWorld [("f", "1,5;2\n2,5;3\n")])
    r.1 = .ok 2 ∧ r.2.text demoSys "f".toList (some "ascii".toList) = some "\"1,5\",2\r\n\"2,5\",3\r\n".toList ∧
    r.2.files "tmp".toList = none := by
  decide +kernel

/-- **C52 fails at the field size limit.**  A cell with a comma that is as long as the limit allows can be read
without quotes, but not with the quotes that the command adds. -/
theorem C52_violated :
    let w := { demoWorld [("f", "1,5;2\n2,5;3\n")] with limit := 3 }
    let r := handlePath demoSys { paths := ["f".toList] } "f".toList none none w
    r.1 = .ok 0 ∧
    parseString 3 ⟨some ";".toList, some [], some [], false⟩ "1,5;2\n2,5;3\n".toList =
      ([["1,5".toList, "2".toList], ["2,5".toList, "3".toList]], none) ∧
    r.2.stdout = "\"1,5\",2\r\n\"2,5\",3\r\n".toList ∧
    readText 3 (.name "excel") {} r.2.stdout = .error (.parse (.fieldLimit 3)) := by
  decide +kernel

/-! ## C53 standardize is idempotent -/

theorem excelReader_standard {limit : Int} {rows rows' : List (List Str)} (hl : InLong limit)
    (hn : ∀ row ∈ rows, ∀ s ∈ row, NUL ∉ s)
    (h : readText limit (.name "excel") {} (excelText rows) = .ok rows') : rows' = rows := by
  rcases excel_read_back limit hl rows hn with h1 | h1
  · exact Except.ok.inj (h.symm.trans h1)
  · exact absurd (h.symm.trans h1) (by simp)

/-- Reading a standardized text in the excel dialect, if it succeeds, and writing what was read gives the same text,
whatever the input was. -/
theorem C53_text (limit : Int) (d : SimpleDialect) (input out : Str) (rows rows' : List (List Str))
    (hp : parseString limit d input = (rows, none)) (ho : StandardText rows out)
    (hr : readText limit (.name "excel") {} out = .ok rows') : StandardText rows' out := by
  have h := standardText_eq ho
  subst h
  have hn : ∀ row ∈ rows, ∀ s ∈ row, NUL ∉ s := by
    have := parseString_noNul limit d input
    rw [hp] at this
    exact this
  rw [excelReader_standard (parseString_inLong (d := d) (t := input) (by rw [hp])) hn hr]
  exact ho

/-- The excel dialect as the detector returns it. -/
def excelSimple : SimpleDialect := ⟨some ",".toList, some "\"".toList, some [], false⟩

theorem parse_excelSimple (limit : Int) (text : Str) :
    (parseString limit excelSimple text).toList = readText limit (.name "excel") {} text := by
  have h1 : ∀ d e : SimpleDialect, d.delimiter = e.delimiter → d.quotechar = e.quotechar →
      (setChar "escapechar" d.escapechar = setChar "escapechar" e.escapechar) → d.strict = e.strict →
      parseString limit d text = parseString limit e text := by
    intro d e h1 h2 h3 h4
    unfold parseString parseData SimpleDialect.cfg mkCfg
    rw [h1, h2, h3, h4]
  rw [h1 excelSimple (dialectOf (some ',') (some '"') none) rfl rfl rfl rfl]
  simp only [readText, mkReader, makeSimpleDialect_excel, bind, Except.bind, pure, Except.pure, readAll_eq]
  rfl

/-- To the standard output: standardizing a standardized file in the excel dialect prints the text of the file. -/
theorem C53_stdout (sys : Sys) (limit : Int) (d : SimpleDialect) (input out : Str) (rows : List (List Str))
    (hp : parseString limit d input = (rows, none)) (ho : StandardText rows out)
    (p : Path) (enc : Option Str) (w w' : World) (c : Nat) (hl : InLong w.limit)
    (ht : w.text sys p enc = some out) (h : toStdout sys false p excelSimple enc w = (.ok c, w')) :
    c = 0 ∧ w'.stdout = w.stdout ++ out ∧ w'.files = w.files := by
  have he := standardText_eq ho
  subst he
  have hn : ∀ row ∈ rows, ∀ s ∈ row, NUL ∉ s := by
    have := parseString_noNul limit d input
    rw [hp] at this
    exact this
  obtain ⟨text, rows', h1, h2, h3, -, h4, h5⟩ := toStdout_inv h
  rw [ht] at h1
  cases h1
  have hr : readText w.limit (.name "excel") {} (excelText rows) = .ok rows' := by
    rw [← parse_excelSimple, h2]
    rfl
  rw [excelReader_standard hl hn hr] at h3
  exact ⟨h4, h3, h5⟩

/-- In place: standardizing a standardized file in the excel dialect changes nothing and exits with 0. -/
theorem C53_in_place (sys : Sys) (limit : Int) (d : SimpleDialect) (input out : Str) (rows : List (List Str))
    (hp : parseString limit d input = (rows, none)) (ho : StandardText rows out)
    (p : Path) (enc target : Option Str) (w w' : World) (c : Nat) (hl : InLong w.limit) (old : Bytes)
    (hf : w.files p = some old) (ht : w.text sys p enc = some out) (he : Encodes sys target out old)
    (h : inPlace sys false p excelSimple enc target w = (.ok c, w')) :
    c = 0 ∧ ∀ q, w'.files q = w.files q := by
  have heq := standardText_eq ho
  subst heq
  have hn : ∀ row ∈ rows, ∀ s ∈ row, NUL ∉ s := by
    have := parseString_noNul limit d input
    rw [hp] at this
    exact this
  obtain ⟨text, rows', b, h1, h2, h3, -, -, h4⟩ := inPlace_inv hf h
  rw [ht] at h1
  cases h1
  have hr : readText w.limit (.name "excel") {} (excelText rows) = .ok rows' := by
    rw [← parse_excelSimple, h2]
    rfl
  rw [excelReader_standard hl hn hr] at h3
  have h5 := encoded_of_encodes he
  have h6 : b = old := Option.some.inj (h3.symm.trans h5)
  subst h6
  rcases h4 with ⟨h6, -, h7⟩ | ⟨-, h7, -⟩
  · exact ⟨h6, h7⟩
  · exact absurd rfl h7

/-- A case: the output of the first run is detected as excel, and the second run exits with 0. -/
example :
    let a : StdArgs := { paths := ["f".toList], inPlace := true }
    let r := handlePath demoSys a "f".toList none none (demoWorld [("f", "1,5;2\n2,5;3\n")])
    let r' := handlePath demoSys a "f".toList none none r.2
    r.1 = .ok 2 ∧ r'.1 = .ok 0 ∧ r'.2.files "f".toList = r.2.files "f".toList := by
  decide +kernel

/-! ## C61 Running the command twice is not idempotent -/

/-- **C61 fails.**  The command detects a dialect anew, so that the second run may take the table apart. -/
theorem C61_violated :
    let a : StdArgs := { paths := ["f".toList], inPlace := true }
    let r := handlePath demoSys a "f".toList none none (demoWorld [("f", "\"a;b\"\n\"c;d\"\n")])
    let r' := handlePath demoSys a "f".toList none none r.2
    r.1 = .ok 2 ∧ r.2.text demoSys "f".toList (some "ascii".toList) = some "a;b\r\nc;d\r\n".toList ∧
    r'.1 = .ok 2 ∧ r'.2.text demoSys "f".toList (some "ascii".toList) = some "a,b\r\nc,d\r\n".toList := by
  decide +kernel

/-! ## C54 In-place standardize is safe and its exit code truthful -/

/-- Exit code 0: no file has changed, and the file has the SHA1 sum of the standardized text: without a collision,
it holds that text. -/
theorem C54_zero (sys : Sys) (a : StdArgs) (hi : a.inPlace = true) (p : Path) (o : Option Path) (enc : Option Str)
    (w w' : World) (h : handlePath sys a p o enc w = (.ok 0, w')) :
    w'.files = w.files ∧
    ∃ rows out b old, DetectedRows sys w p enc a.numChars rows ∧ StandardText (Spec.output a.transpose rows) out ∧
      Encodes sys (stdTarget a (w.stdEncoding sys p enc)) out b ∧ w.files p = some old ∧
      sys.sha1 old = sys.sha1 b ∧ ((∀ x y, sys.sha1 x = sys.sha1 y → x = y) → old = b) := by
  obtain ⟨text, r, w1, h1, h2, hf, hl, hs, h | ⟨d, rfl, h⟩⟩ := handlePath_inv h
  · exact absurd h.2.1 (by simp)
  · unfold deliver at h
    rw [hi] at h
    simp only [if_true] at h
    obtain ⟨old, ho⟩ := text_some h1
    obtain ⟨text', rows, b, h3, h4, h5, h6, -, ⟨-, h7, h8⟩ | ⟨h7, -⟩⟩ := inPlace_inv (by rw [hf]; exact ho) h
    · rw [text_files (w := w) (by rw [hf]), h1] at h3
      cases h3
      rw [hl] at h4
      exact ⟨by funext q; rw [h8, hf], rows, _, b, old, ⟨text, d, h1, h2, h4⟩, standardText_excelText _,
        encodes_of h5, ho, h7, fun hinj => hinj _ _ h7⟩
    · simp at h7

/-- Exit code 2: the file holds the standardized text, which differs from what it held before; no other file has
changed. -/
theorem C54_two (sys : Sys) (a : StdArgs) (hi : a.inPlace = true) (p : Path) (o : Option Path) (enc : Option Str)
    (w w' : World) (h : handlePath sys a p o enc w = (.ok 2, w')) :
    (∀ q, q ≠ p → w'.files q = w.files q) ∧ w'.files p ≠ w.files p ∧
    ∃ rows out b, DetectedRows sys w p enc a.numChars rows ∧ StandardText (Spec.output a.transpose rows) out ∧
      Encodes sys (stdTarget a (w.stdEncoding sys p enc)) out b ∧ w'.files p = some b := by
  obtain ⟨text, r, w1, h1, h2, hf, hl, hs, h | ⟨d, rfl, h⟩⟩ := handlePath_inv h
  · exact absurd h.2.1 (by simp)
  · unfold deliver at h
    rw [hi] at h
    simp only [if_true] at h
    obtain ⟨old, ho⟩ := text_some h1
    obtain ⟨text', rows, b, h3, h4, h5, h6, -, ⟨h7, -⟩ | ⟨-, h7, h8, h9⟩⟩ := inPlace_inv (by rw [hf]; exact ho) h
    · simp at h7
    · rw [text_files (w := w) (by rw [hf]), h1] at h3
      cases h3
      rw [hl] at h4
      refine ⟨fun q hq => by rw [h9 q hq, hf], ?_, rows, _, b, ⟨text, d, h1, h2, h4⟩, standardText_excelText _,
        encodes_of h5, h8⟩
      rw [h8, ho]
      intro h10
      cases h10
      exact h7 rfl

/-- Exit code 1, in any mode: no dialect was detected, and nothing has changed. -/
theorem C54_one (sys : Sys) (a : StdArgs) (p : Path) (o : Option Path) (enc : Option Str)
    (w w' : World) (h : handlePath sys a p o enc w = (.ok 1, w')) :
    w'.files = w.files ∧ w'.stdout = w.stdout ∧ w'.limit = w.limit ∧
    ∃ text, w.text sys p (w.stdEncoding sys p enc) = some text ∧
      (detect sys.env sys.order w.limit (Spec.detectionPart text a.numChars)).result = .ok none := by
  obtain ⟨text, r, w1, h1, h2, hf, hl, hs, ⟨rfl, -, rfl⟩ | ⟨d, rfl, h⟩⟩ := handlePath_inv h
  · exact ⟨hf, hs, hl, text, h1, h2⟩
  · obtain ⟨old, ho⟩ := text_some h1
    rcases deliver_codes (by rw [hf]; exact ho) h with h | h <;> simp at h

/-- Any failure: the file is unchanged, or else it is being replaced by a copy of the complete output, which the
temporary file still holds; the latter only if that is on another file system.  Other files are unchanged. -/
theorem C54_failure (sys : Sys) (a : StdArgs) (hi : a.inPlace = true) (p : Path) (o : Option Path) (enc : Option Str)
    (w w' : World) (e : PyExc) (h : handlePath sys a p o enc w = (.error e, w')) :
    (∀ q, q ≠ p → q ≠ sys.tempName w.files → w'.files q = w.files q) ∧
    (w'.files p = w.files p ∨
      sys.crossDevice = true ∧ ∃ rows out b, DetectedRows sys w p enc a.numChars rows ∧
        StandardText (Spec.output a.transpose rows) out ∧
        Encodes sys (stdTarget a (w.stdEncoding sys p enc)) out b ∧ w'.files (sys.tempName w.files) = some b) := by
  rcases handlePath_error h with hf | ⟨text, d, w1, h1, h2, hf, hl, hs, h⟩
  · rw [hf]
    exact ⟨fun _ _ _ => rfl, .inl rfl⟩
  · unfold deliver at h
    rw [hi] at h
    simp only [if_true] at h
    obtain ⟨old, ho⟩ := text_some h1
    obtain ⟨h3, h4⟩ := inPlace_error (by rw [hf]; exact ho) h
    rw [hf] at h3 h4
    refine ⟨h3, ?_⟩
    rcases h4 with h4 | ⟨h4, text', rows, b, h5, h6, h7, h8⟩
    · exact .inl h4
    · rw [text_files (w := w) (by rw [hf]), h1] at h5
      cases h5
      rw [hl] at h6
      exact .inr ⟨h4, rows, _, b, ⟨text, d, h1, h2, h6⟩, standardText_excelText _, encodes_of h7, h8⟩

/-- On the same file system, any failure leaves the file as it was. -/
theorem C54_failure_same_device (sys : Sys) (hdev : sys.crossDevice = false) (a : StdArgs) (hi : a.inPlace = true)
    (p : Path) (o : Option Path) (enc : Option Str) (w w' : World) (e : PyExc)
    (h : handlePath sys a p o enc w = (.error e, w')) :
    ∀ q, q ≠ sys.tempName w.files → w'.files q = w.files q := by
  obtain ⟨h1, h2 | ⟨h2, -⟩⟩ := C54_failure sys a hi p o enc w w' e h
  · intro q hq
    by_cases hqp : q = p
    · rw [hqp, h2]
    · exact h1 q hqp hq
  · rw [hdev] at h2; simp at h2

/-- Failures while writing, for every operation in turn: the file is as it was. -/
example :
    ∀ k < 12,
      let r := handlePath { demoSys with fault := fun i => if i = k then some 3 else none }
        { paths := ["f".toList], inPlace := true } "f".toList none none (demoWorld [("f", "1,5;2\n2,5;3\n")])
      (r.1 = .error .osError ∧ r.2.files "f".toList = (demoWorld [("f", "1,5;2\n2,5;3\n")]).files "f".toList) ∨
      (9 ≤ k ∧ r.1 = .ok 2) := by
  decide +kernel

/-! ## C61 (continued) -/

/-- **C61 holds when the second run reads the same rows** (and writes in the same encoding): it changes nothing. -/
theorem C61_same_rows_partial (sys : Sys) (a : StdArgs) (hi : a.inPlace = true) (p : Path) (o o' : Option Path)
    (enc : Option Str) (w w' w'' : World) (c c' : Nat) (hc : c ≠ 1)
    (h : handlePath sys a p o enc w = (.ok c, w')) (h' : handlePath sys a p o' enc w' = (.ok c', w''))
    (henc : stdTarget a (w'.stdEncoding sys p enc) = stdTarget a (w.stdEncoding sys p enc))
    (hsame : ∀ rows rows', DetectedRows sys w p enc a.numChars rows → DetectedRows sys w' p enc a.numChars rows' →
      rows' = rows) :
    w''.files = w'.files ∧ (c' = 0 ∨ c' = 1) := by
  rcases handlePath_codes h' with rfl | rfl | rfl
  · exact ⟨(C54_zero sys a hi p o' enc w' w'' h').1, .inl rfl⟩
  · exact ⟨(C54_one sys a p o' enc w' w'' h').1, .inr rfl⟩
  · exfalso
    obtain ⟨-, h1, rows', out', b', h2, h3, h4, h5⟩ := C54_two sys a hi p o' enc w' w'' h'
    obtain ⟨text, r, w1, h6, h7, hf, hl, hs, h8 | ⟨d, rfl, h8⟩⟩ := handlePath_inv h'
    · exact absurd h8.2.1 (by decide)
    unfold deliver at h8
    rw [hi] at h8
    simp only [if_true] at h8
    obtain ⟨old, ho⟩ := text_some h6
    obtain ⟨text', rows2, b2, g1, g2, g3, -, -, ⟨g4, -⟩ | ⟨-, g4, -, -⟩⟩ := inPlace_inv (by rw [hf]; exact ho) h8
    · simp at g4
    rw [text_files (w := w') (by rw [hf]), h6] at g1
    cases g1
    rw [hl] at g2
    have hd : DetectedRows sys w' p enc a.numChars rows2 := ⟨text, d, h6, h7, g2⟩
    rcases handlePath_codes h with rfl | rfl | rfl
    · obtain ⟨k0, rows, out, b, old0, k1, k2, k3, k4, k5, -⟩ := C54_zero sys a hi p o enc w w' h
      rw [hsame rows rows2 k1 hd, henc] at g3
      have hb := encoded_of_encodes k3
      rw [standardText_eq k2] at hb
      have : b2 = b := Option.some.inj (g3.symm.trans hb)
      rw [k0, k4] at ho
      cases ho
      rw [this] at g4
      exact g4 k5
    · exact hc rfl
    · obtain ⟨-, -, rows, out, b, k1, k2, k3, k4⟩ := C54_two sys a hi p o enc w w' h
      rw [hsame rows rows2 k1 hd, henc] at g3
      have hb := encoded_of_encodes k3
      rw [standardText_eq k2] at hb
      have : b2 = b := Option.some.inj (g3.symm.trans hb)
      rw [k4] at ho
      cases ho
      rw [this] at g4
      exact g4 rfl

/-- **C61 holds when the excel dialect is detected**: in particular, if the first run has altered the file, the
encoding can decode what it encodes, and the second run detects the excel dialect, it changes nothing. -/
theorem C61_excel_partial (sys : Sys) (a : StdArgs) (hi : a.inPlace = true) (ht : a.transpose = false)
    (p : Path) (o o' : Option Path) (enc : Option Str) (w w' w'' : World) (c' : Nat)
    (h : handlePath sys a p o enc w = (.ok 2, w')) (h' : handlePath sys a p o' enc w' = (.ok c', w''))
    (henc : w'.stdEncoding sys p enc = stdTarget a (w.stdEncoding sys p enc))
    (htarget : stdTarget a (w'.stdEncoding sys p enc) = stdTarget a (w.stdEncoding sys p enc))
    (hround : ∀ text b, Encodes sys (w'.stdEncoding sys p enc) text b →
      ∃ k, sys.codec (w'.stdEncoding sys p enc) = some k ∧ k.decode b = some text)
    (hexcel : ∀ text, w'.text sys p (w'.stdEncoding sys p enc) = some text →
      (detect sys.env sys.order w'.limit (Spec.detectionPart text a.numChars)).result = .ok (some excelSimple)) :
    c' = 0 ∧ w''.files = w'.files := by
  have hsame : ∀ rows rows', DetectedRows sys w p enc a.numChars rows → DetectedRows sys w' p enc a.numChars rows' →
      rows' = rows := by
    intro rows rows' hr hr'
    obtain ⟨-, -, rows0, out, b, k1, k2, k3, k4⟩ := C54_two sys a hi p o enc w w' h
    obtain ⟨text, d, t1, t2, t3⟩ := hr
    obtain ⟨text0, d0, t4, t5, t6⟩ := k1
    rw [t1] at t4
    cases t4
    rw [t2] at t5
    cases t5
    rw [t3] at t6
    cases t6
    rw [Spec.output, ht] at k2
    simp only [Bool.false_eq_true, if_false] at k2
    have hout := standardText_eq k2
    subst hout
    rw [← henc] at k3
    obtain ⟨k, hk, hdec⟩ := hround _ _ k3
    have hw : w'.text sys p (w'.stdEncoding sys p enc) = some (excelText rows) := by
      unfold World.text
      rw [k4, hk]
      exact hdec
    obtain ⟨text', d', u1, u2, u3⟩ := hr'
    rw [hw] at u1
    cases u1
    rw [hexcel _ hw] at u2
    cases u2
    have hn : ∀ row ∈ rows, ∀ s ∈ row, NUL ∉ s := by
      have := parseString_noNul w.limit d text
      rw [t3] at this
      exact this
    refine excelReader_standard (parseString_inLong (d := excelSimple) (t := excelText rows) (by rw [u3])) hn ?_
    rw [← parse_excelSimple, u3]
    rfl
  obtain ⟨h1, h2⟩ := C61_same_rows_partial sys a hi p o o' enc w w' w'' 2 c' (by decide) h h' htarget hsame
  refine ⟨?_, h1⟩
  rcases h2 with h2 | rfl
  · exact h2
  · obtain ⟨-, -, -, text, h3, h4⟩ := C54_one sys a p o' enc w' w'' h'
    rw [hexcel text h3] at h4
    simp at h4

/-- The first example of C53 is such a case: the second run detects the excel dialect. -/
example :
    let a : StdArgs := { paths := ["f".toList], inPlace := true }
    let w' := (handlePath demoSys a "f".toList none none (demoWorld [("f", "1,5;2\n2,5;3\n")])).2
    w'.text demoSys "f".toList (w'.stdEncoding demoSys "f".toList none) = some "\"1,5\",2\r\n\"2,5\",3\r\n".toList ∧
    (detect demoSys.env demoSys.order w'.limit "\"1,5\",2\r\n\"2,5\",3\r\n".toList).result =
      .ok (some excelSimple) := by
  decide +kernel

/-! ## C55 standardize argument checks and exit code -/

theorem zip3_getElem? {P : List Path} {O : List (Option Path)} {E : List (Option Str)}
    (o : Nat → Option Path) (e : Nat → Option Str)
    (h : ∀ i p, P[i]? = some p → O[i]? = some (o i) ∧ E[i]? = some (e i)) (i : Nat) :
    (P.zip (O.zip E))[i]? = P[i]?.map fun p => (p, o i, e i) := by
  cases hp : P[i]? with
  | none => simp [List.zip, List.getElem?_zipWith, hp]
  | some p =>
    obtain ⟨h1, h2⟩ := h i p hp
    simp [List.zip, List.getElem?_zipWith, hp, h1, h2]

theorem map_none_getElem? {P : List Path} {β : Type} (x : β) {i : Nat} {p : Path} (h : P[i]? = some p) :
    (P.map fun _ => x)[i]? = some x := by
  rw [List.getElem?_map, h]
  rfl

theorem map_some_getElem? {P : List Path} {O : List Str} (hlen : O.length = P.length) {i : Nat} {p : Path}
    (h : P[i]? = some p) : (O.map some)[i]? = some O[i]? := by
  have : i < P.length := by
    rw [List.getElem?_eq_some_iff] at h
    exact h.1
  rw [List.getElem?_map, List.getElem?_eq_getElem (by omega)]
  rfl

/-- The outputs as the command completes them. -/
theorem outputs_getElem? {a : StdArgs} (h : a.outputs = [] ∨ a.outputs.length = a.paths.length) {i : Nat} {p : Path}
    (hp : a.paths[i]? = some p) :
    (if a.outputs.length = 0 then a.paths.map (fun _ => none) else a.outputs.map some)[i]? =
      some a.outputs[i]? := by
  by_cases h0 : a.outputs = []
  · simp only [h0, List.length_nil, if_true, List.getElem?_nil]
    exact map_none_getElem? _ hp
  · rw [if_neg (by simp [h0])]
    rcases h with h | h
    · exact absurd h h0
    · exact map_some_getElem? h hp

theorem standardize_bad {sys : Sys} {a : StdArgs} (h : BadArgs a) : standardize sys a = pure 1 := by
  unfold standardize
  by_cases h1 : a.inPlace = true ∧ a.outputs ≠ []
  · rw [if_pos h1]
  rw [if_neg h1]
  simp only []
  by_cases h2 : a.outputs ≠ [] ∧ a.outputs.length ≠ a.paths.length
  · have hi : a.inPlace = false := by
      cases hb : a.inPlace with
      | false => rfl
      | true => exact absurd ⟨hb, h2.1⟩ h1
    rw [if_pos]
    refine ⟨hi, ?_⟩
    rw [if_neg (by simpa using h2.1), List.length_map]
    exact h2.2
  · have h3 : a.encodings ≠ [] ∧ a.encodings.length ≠ 1 ∧ a.encodings.length ≠ a.paths.length := by
      rcases h with h | h | h
      · exact absurd h h1
      · exact absurd h h2
      · exact h
    generalize (if a.outputs.length = 0 then a.paths.map (fun _ => none) else a.outputs.map some) = O
    by_cases h4 : a.inPlace = false ∧ O.length ≠ a.paths.length
    · rw [if_pos h4]
    · rw [if_neg h4, if_neg (show ¬ a.encodings.length = 0 by simpa using h3.1)]
      split
      · rename_i e he
        exact absurd (by rw [← List.length_map (f := some), he]; rfl) h3.2.1
      · rw [if_pos (by rw [List.length_map]; exact h3.2.2)]

theorem standardize_good {sys : Sys} {a : StdArgs} (h : ¬ BadArgs a) :
    ∃ jobs, (∀ i, jobs[i]? = Spec.job a i) ∧ standardize sys a = handleLoop sys a jobs 0 := by
  unfold BadArgs at h
  simp only [not_or, not_and, Decidable.not_not] at h
  obtain ⟨h1, h2, h3⟩ := h
  have h2' : a.outputs = [] ∨ a.outputs.length = a.paths.length := by
    by_cases h0 : a.outputs = []
    · exact .inl h0
    · exact .inr (h2 h0)
  have hjob : ∀ (E : List (Option Str)), (∀ (i : Nat) (p : Path), a.paths[i]? = some p → E[i]? =
        some (if a.encodings.length = 1 then a.encodings[0]? else a.encodings[i]?)) → ∀ i : Nat,
      (a.paths.zip ((if a.outputs.length = 0 then a.paths.map (fun _ => none) else a.outputs.map some).zip E))[i]? =
        Spec.job a i := by
    intro E hE i
    exact zip3_getElem? (fun i => a.outputs[i]?)
      (fun i => if a.encodings.length = 1 then a.encodings[0]? else a.encodings[i]?)
      (fun i p hp => ⟨outputs_getElem? h2' hp, hE i p hp⟩) i
  unfold standardize
  rw [if_neg (by rintro ⟨h4, h5⟩; exact h5 (h1 h4))]
  simp only []
  rw [if_neg (by
    rintro ⟨-, h5⟩
    apply h5
    split
    · simp
    · rename_i h0
      rw [List.length_map]
      exact h2 (by simpa using h0))]
  by_cases h4 : a.encodings = []
  · rw [if_pos (by simp [h4])]
    split
    · rename_i e he
      refine ⟨_, hjob _ ?_, rfl⟩
      intro i p hp
      have : e = none := by
        have : e ∈ a.paths.map fun _ => (none : Option Str) := by rw [he]; simp
        simp only [List.mem_map] at this
        obtain ⟨_, _, h⟩ := this
        exact h.symm
      rw [map_none_getElem? _ hp, this]
      simp [h4]
    · rw [if_neg (by simp)]
      refine ⟨_, hjob _ ?_, rfl⟩
      intro i p hp
      rw [map_none_getElem? _ hp]
      simp [h4]
  · rw [if_neg (by simpa using h4)]
    split
    · rename_i e he
      refine ⟨_, hjob _ ?_, rfl⟩
      intro i p hp
      have hl : a.encodings.length = 1 := by rw [← List.length_map (f := some), he]; rfl
      rw [map_none_getElem? _ hp, if_pos hl]
      have : (a.encodings.map some)[0]? = some e := by rw [he]; rfl
      rw [List.getElem?_map] at this
      cases h5 : a.encodings[0]? with
      | none => rw [h5] at this; simp at this
      | some x => rw [h5] at this; simpa using this.symm
    · rename_i hne
      have hl1 : a.encodings.length ≠ 1 := by
        intro hl
        rcases hx : a.encodings with _ | ⟨x, _ | ⟨y, xs⟩⟩
        · exact h4 hx
        · exact hne (some x) (by rw [hx]; rfl)
        · rw [hx] at hl; simp at hl
      have hlen : a.encodings.length = a.paths.length := h3 h4 hl1
      rw [if_neg (by rw [List.length_map]; exact fun h => h hlen)]
      refine ⟨_, hjob _ ?_, rfl⟩
      intro i p hp
      rw [if_neg hl1]
      exact map_some_getElem? hlen hp

/-- Inconsistent arguments: exit code 1, and nothing has happened. -/
theorem C55_bad_args (sys : Sys) (a : StdArgs) (h : BadArgs a) (w : World) : standardize sys a w = (.ok 1, w) := by
  rw [standardize_bad h]
  rfl

/-- Otherwise the files are processed in order with their outputs and encodings: to the end, and then the exit code
is 2 if a file was altered, and 0 if not; or to the first file without a detected dialect (exit code 1); or to the
first exception, which is passed on. -/
theorem C55_run (sys : Sys) (a : StdArgs) (h : ¬ BadArgs a) (w : World) :
    ∃ jobs ran todo outcomes, (∀ i, jobs[i]? = Spec.job a i) ∧ jobs = ran ++ todo ∧
      Ran (fun j => handlePath sys a j.1 j.2.1 j.2.2) ran w outcomes (standardize sys a w).2 ∧
      ((todo = [] ∧ (∀ r ∈ outcomes, r = .ok 0 ∨ r = .ok 2) ∧
          (standardize sys a w).1 = .ok (if Except.ok 2 ∈ outcomes then 2 else 0)) ∨
       (∃ before last, outcomes = before ++ [last] ∧ (∀ r ∈ before, r = .ok 0 ∨ r = .ok 2) ∧
          (last = .ok 1 ∨ ∃ e, last = .error e) ∧ (standardize sys a w).1 = last)) := by
  obtain ⟨jobs, hjobs, hs⟩ := standardize_good (sys := sys) h
  rw [hs]
  suffices hmain : ∀ (jobs : List (Path × Option Path × Option Str)) (g : Nat) (w : World), g = 0 ∨ g = 2 →
      ∃ ran todo outcomes, jobs = ran ++ todo ∧
      Ran (fun j => handlePath sys a j.1 j.2.1 j.2.2) ran w outcomes (handleLoop sys a jobs g w).2 ∧
      ((todo = [] ∧ (∀ r ∈ outcomes, r = .ok 0 ∨ r = .ok 2) ∧
          (handleLoop sys a jobs g w).1 = .ok (if g = 2 ∨ Except.ok 2 ∈ outcomes then 2 else 0)) ∨
       (∃ before last, outcomes = before ++ [last] ∧ (∀ r ∈ before, r = .ok 0 ∨ r = .ok 2) ∧
          (last = .ok 1 ∨ ∃ e, last = .error e) ∧ (handleLoop sys a jobs g w).1 = last)) by
    obtain ⟨ran, todo, outcomes, h1, h2, h3⟩ := hmain jobs 0 w (.inl rfl)
    refine ⟨jobs, ran, todo, outcomes, hjobs, h1, h2, ?_⟩
    simpa using h3
  clear hs hjobs jobs w
  intro jobs
  induction jobs with
  | nil =>
    intro g w hg
    refine ⟨[], [], [], rfl, .nil w, .inl ⟨rfl, by simp, ?_⟩⟩
    rcases hg with rfl | rfl <;> rfl
  | cons j js ih =>
    intro g w hg
    obtain ⟨p, o, e⟩ := j
    rcases hr : handlePath sys a p o e w with ⟨x | c, w1⟩
    · have : handleLoop sys a ((p, o, e) :: js) g w = (.error x, w1) := by
        rw [handleLoop, act_bind_error hr]
      rw [this]
      exact ⟨[(p, o, e)], js, [.error x], rfl, .cons hr (.nil _),
        .inr ⟨[], .error x, rfl, by simp, .inr ⟨x, rfl⟩, rfl⟩⟩
    · have hstep : handleLoop sys a ((p, o, e) :: js) g w =
          (if c = 1 then (.ok c, w1)
           else handleLoop sys a js (if c > 0 ∧ g = 0 then c else g) w1) := by
        rw [handleLoop, act_bind_ok hr]
        split <;> rfl
      rw [hstep]
      rcases handlePath_codes hr with rfl | rfl | rfl
      · rw [if_neg (by decide), if_neg (by simp)]
        obtain ⟨ran, todo, outcomes, h1, h2, h3⟩ := ih g w1 hg
        refine ⟨(p, o, e) :: ran, todo, .ok 0 :: outcomes, by rw [h1]; rfl, .cons hr h2, ?_⟩
        rcases h3 with ⟨h3, h4, h5⟩ | ⟨before, last, h3, h4, h5, h6⟩
        · refine .inl ⟨h3, ?_, ?_⟩
          · intro r hr
            rcases List.mem_cons.mp hr with rfl | hr
            · exact .inl rfl
            · exact h4 r hr
          · rw [h5]
            simp
        · refine .inr ⟨.ok 0 :: before, last, by rw [h3]; rfl, ?_, h5, h6⟩
          intro r hr
          rcases List.mem_cons.mp hr with rfl | hr
          · exact .inl rfl
          · exact h4 r hr
      · rw [if_pos rfl]
        exact ⟨[(p, o, e)], js, [.ok 1], rfl, .cons hr (.nil _), .inr ⟨[], .ok 1, rfl, by simp, .inl rfl, rfl⟩⟩
      · rw [if_neg (by decide)]
        have hg' : (if 2 > 0 ∧ g = 0 then 2 else g) = 2 := by
          rcases hg with rfl | rfl <;> rfl
        rw [hg']
        obtain ⟨ran, todo, outcomes, h1, h2, h3⟩ := ih 2 w1 (.inr rfl)
        refine ⟨(p, o, e) :: ran, todo, .ok 2 :: outcomes, by rw [h1]; rfl, .cons hr h2, ?_⟩
        rcases h3 with ⟨h3, h4, h5⟩ | ⟨before, last, h3, h4, h5, h6⟩
        · refine .inl ⟨h3, ?_, ?_⟩
          · intro r hr
            rcases List.mem_cons.mp hr with rfl | hr
            · exact .inr rfl
            · exact h4 r hr
          · rw [h5]
            simp
        · refine .inr ⟨.ok 2 :: before, last, by rw [h3]; rfl, ?_, h5, h6⟩
          intro r hr
          rcases List.mem_cons.mp hr with rfl | hr
          · exact .inr rfl
          · exact h4 r hr

/-- In place, exit code 0 means that no file at all has changed. -/
theorem C55_in_place_zero (sys : Sys) (a : StdArgs) (hi : a.inPlace = true) (w w' : World)
    (h : standardize sys a w = (.ok 0, w')) : w'.files = w.files := by
  by_cases hb : BadArgs a
  · rw [C55_bad_args sys a hb w] at h
    simp at h
  obtain ⟨jobs, ran, todo, outcomes, -, -, h1, h2⟩ := C55_run sys a hb w
  rw [h] at h1 h2
  have hall : ∀ r ∈ outcomes, r = .ok 0 := by
    rcases h2 with ⟨-, h2, h3⟩ | ⟨-, last, -, -, h2, h3⟩
    · intro r hr
      rcases h2 r hr with h4 | h4
      · exact h4
      · rw [h4] at hr
        rw [if_pos hr] at h3
        simp at h3
    · rcases h2 with rfl | ⟨e, rfl⟩ <;> simp at h3
  clear h h2 hb jobs todo
  simp only at h1
  induction h1 with
  | nil => rfl
  | cons hrun _ ih =>
    rename_i r rs _
    have h0 := hall r (by simp)
    subst h0
    rw [ih (fun r hr => hall r (by simp [hr])), (C54_zero _ _ hi _ _ _ _ _ hrun).1]

/-- Two files, the second of which is in standard form already; and two files, the first of which has no dialect. -/
example :
    let r := standardize demoSys { paths := ["f".toList, "g".toList], inPlace := true }
      (demoWorld [("f", "1;2\n3;4\n"), ("g", "1,2\r\n3,4\r\n")])
    r.1 = .ok 2 ∧ r.2.text demoSys "f".toList none = some "1,2\r\n3,4\r\n".toList ∧
      r.2.text demoSys "g".toList none = some "1,2\r\n3,4\r\n".toList := by
  decide +kernel

example :
    let w := demoWorld [("f", ",;"), ("g", "1;2\r\n3;4\r\n")]
    let r := standardize demoSys { paths := ["f".toList, "g".toList], inPlace := true } w
    r.1 = .ok 1 ∧ r.2.files "g".toList = w.files "g".toList := by
  decide +kernel

/-! ## C62 Failures leave no temporary file -/

/-- **C62 fails.**  If writing the temporary file fails, it stays behind. -/
theorem C62_violated :
    let sys := { demoSys with fault := fun i => if i = 4 then some 3 else none }
    let w := demoWorld [("f", "1,5;2\n2,5;3\n")]
    let r := standardize sys { paths := ["f".toList], inPlace := true } w
    r.1 = .error .osError ∧ w.files "tmp".toList = none ∧ r.2.text sys "tmp".toList none = some "\"1,".toList := by
  decide +kernel

/-- **C62 holds without a failure**: in place, a run that ends with an exit code leaves no new file. -/
theorem C62_success_partial (sys : Sys) (a : StdArgs) (hi : a.inPlace = true) (p : Path) (o : Option Path)
    (enc : Option Str) (w w' : World) (c : Nat) (h : handlePath sys a p o enc w = (.ok c, w')) (q : Path)
    (hq : w.files q = none) : w'.files q = none := by
  rcases handlePath_codes h with rfl | rfl | rfl
  · rw [(C54_zero sys a hi p o enc w w' h).1, hq]
  · rw [(C54_one sys a p o enc w w' h).1, hq]
  · obtain ⟨text, r, w1, h1, -⟩ := handlePath_inv h
    obtain ⟨old, ho⟩ := text_some h1
    rw [(C54_two sys a hi p o enc w w' h).1 q (by rintro rfl; rw [ho] at hq; simp at hq), hq]

/-- ... and a failure leaves no other new file than the temporary one. -/
theorem C62_failure_partial (sys : Sys) (a : StdArgs) (hi : a.inPlace = true) (p : Path) (o : Option Path)
    (enc : Option Str) (w w' : World) (e : PyExc) (h : handlePath sys a p o enc w = (.error e, w')) (q : Path)
    (hq : w.files q = none) (hne : w'.files q ≠ none) : q = sys.tempName w.files := by
  by_contra hqt
  by_cases hqp : q = p
  · subst hqp
    rcases handlePath_error h with hf | ⟨text, d, w1, h1, -⟩
    · rw [hf] at hne
      exact hne hq
    · obtain ⟨old, ho⟩ := text_some h1
      rw [ho] at hq
      simp at hq
  · rw [(C54_failure sys a hi p o enc w w' e h).1 q hqp hqt] at hne
    exact hne hq

/-! ## C63 The file is replaced in one step -/

/-- **C63 holds on one file system**: after a failure at any operation, the file has its old contents; after
success, it has its old or its new contents. -/
theorem C63_atomic_partial (sys : Sys) (hdev : sys.crossDevice = false) (a : StdArgs) (hi : a.inPlace = true)
    (p : Path) (o : Option Path) (enc : Option Str) (w : World) :
    (handlePath sys a p o enc w).2.files p = w.files p ∨
    ∃ rows out b, DetectedRows sys w p enc a.numChars rows ∧ StandardText (Spec.output a.transpose rows) out ∧
      Encodes sys (stdTarget a (w.stdEncoding sys p enc)) out b ∧
      (handlePath sys a p o enc w).2.files p = some b := by
  rcases hr : handlePath sys a p o enc w with ⟨e | c, w'⟩
  · left
    by_cases hp : w.files p = none
    · -- a file that does not exist cannot be read
      rcases handlePath_error hr with hf | ⟨text, d, w1, h1, -⟩
      · simp only [hf]
      · obtain ⟨old, ho⟩ := text_some h1
        rw [ho] at hp
        simp at hp
    · rcases handlePath_error hr with hf | ⟨text, d, w1, h1, h2, hf, hl, hs, h⟩
      · simp only [hf]
      · unfold deliver at h
        rw [hi] at h
        simp only [if_true] at h
        obtain ⟨old, ho⟩ := text_some h1
        obtain ⟨-, h4 | ⟨h4, -⟩⟩ := inPlace_error (by rw [hf]; exact ho) h
        · rw [h4, hf]
        · rw [hdev] at h4; simp at h4
  · rcases handlePath_codes hr with rfl | rfl | rfl
    · exact .inl (by rw [(C54_zero sys a hi p o enc w w' hr).1])
    · exact .inl (by rw [(C54_one sys a p o enc w w' hr).1])
    · exact .inr (C54_two sys a hi p o enc w w' hr).2.2

/-- **C63 fails between file systems**: `shutil.move` copies, and a failing copy leaves a damaged file. -/
theorem C63_violated :
    let sys := { demoSys with crossDevice := true, fault := fun i => if i = 10 then some 3 else none }
    let r := standardize sys { paths := ["f".toList], inPlace := true } (demoWorld [("f", "1,5;2\n2,5;3\n")])
    r.1 = .error .osError ∧ r.2.text sys "f".toList none = some "\"1,".toList := by
  decide +kernel

/-! ## C64 The output may be the input -/

/-- **C64 fails.**  With the input file as output file, the file is emptied, and the exit code is 0. -/
theorem C64_violated :
    let r := standardize demoSys { paths := ["f".toList], outputs := ["f".toList] }
      (demoWorld [("f", "1,5;2\n2,5;3\n")])
    r.1 = .ok 0 ∧ r.2.files "f".toList = some [] := by
  decide +kernel

theorem only_handlePath {sys : Sys} {a : StdArgs} (hi : a.inPlace = false) (p : Path) (o : Option Path)
    (enc : Option Str) : Only (fun q => o = some q) (handlePath sys a p o enc) := by
  rw [handlePath_eq]
  refine (only_stdChoose _ sys p enc).bind fun e => (only_detectDialect _ sys p _ e _ _).bind fun r => ?_
  cases r with
  | none => exact only_pure _ _
  | some d =>
    simp only [deliver, hi, Bool.false_eq_true, if_false]
    cases o with
    | none => exact only_toStdout _
    | some x => exact only_toFile.mono fun q hq => by rw [hq]

theorem only_handleLoop {sys : Sys} {a : StdArgs} (hi : a.inPlace = false) :
    ∀ (jobs : List (Path × Option Path × Option Str)) (g : Nat),
      Only (fun q => ∃ j ∈ jobs, j.2.1 = some q) (handleLoop sys a jobs g)
  | [], _ => only_pure _ _
  | (p, o, e) :: rest, g => by
    unfold handleLoop
    refine ((only_handlePath hi p o e).mono fun q hq => ⟨(p, o, e), by simp, hq⟩).bind fun r => ?_
    simp only []
    split
    · exact only_pure _ _
    · exact (only_handleLoop hi rest _).mono fun q ⟨j, hj, hq⟩ => ⟨j, by simp [hj], hq⟩

/-- **C64 holds for the files that are not named as outputs**: whatever happens, they are unchanged. -/
theorem C64_other_files_partial (sys : Sys) (a : StdArgs) (hi : a.inPlace = false) (w : World) (q : Path)
    (hq : q ∉ a.outputs) : (standardize sys a w).2.files q = w.files q := by
  by_cases hb : BadArgs a
  · rw [standardize_bad hb]
    rfl
  obtain ⟨jobs, hjobs, h⟩ := standardize_good (sys := sys) hb
  rw [h]
  refine only_handleLoop hi jobs 0 w q ?_
  rintro ⟨j, hj, hjq⟩
  obtain ⟨i, hj'⟩ := List.mem_iff_getElem?.mp hj
  rw [hjobs, Spec.job, Option.map_eq_some_iff] at hj'
  obtain ⟨p, -, rfl⟩ := hj'
  exact hq (List.mem_of_getElem? hjq)

end Clever.Props
