import Verif.Proofs.World
import Verif.Proofs.Tables
import Verif.Props.RoundTrip
import Verif.Props.Dicts
import Verif.Props.Detector

/-!
# Properties C48 - C51: the wrappers
-/

namespace Clever.Props

open Clever

/-- An encoding that can represent a table: every text made of the characters of its cells, commas, quotes
and line ends. -/
def TableFits (c : Codec) (T : List (List Str)) : Prop :=
  ∀ text : Str, (∀ ch ∈ text, excelChar ch ∨ ∃ row ∈ T, ∃ s ∈ row, ch ∈ s) → Represents c text

/-- Reading a file whose text the excel reader reads as `rows`. -/
theorem readTable_excel {sys : Sys} (hq : Quiet sys) {w : World} {p : Path} {enc : Str} {text : Str}
    {rows : List (List Str)} (n : Option Int) (ht : w.text sys p (some enc) = some text)
    (hr : readText w.limit (.name "excel") {} text = .ok rows) :
    ∃ w', readTable sys p (some (.name "excel")) (some enc) n w = (.ok rows, w') ∧ w'.files = w.files := by
  obtain ⟨rd, h1, h2⟩ := readText_ok hr
  have ht' : w.text sys p (w.encodingFor sys p (some enc)) = some text := ht
  obtain ⟨w', h3, h4, h5, -⟩ := open_ok hq ht' fun text => (do
    let d ← chooseDialect sys (some (.name "excel")) text n
    let r ← liftExcept (mkReader (.stream (strItems (linesUniv text))) d)
    return r.readAll (← getLimit) : Act (Gen (List Str)))
  refine ⟨w', ?_, h4⟩
  have h6 : streamTable sys p (some (.name "excel")) (some enc) n w = (.ok (rows, none), w') := by
    unfold streamTable
    rw [h3, act_bind_ok (show chooseDialect sys (some (.name "excel")) text n w' = (.ok (.name "excel"), w') from rfl),
      act_bind_ok (show (liftExcept (mkReader (.stream (strItems (linesUniv text))) (.name "excel")) : Act Reader) w' =
        (.ok rd, w') by rw [liftExcept_apply, h1]), act_bind_ok (getLimit_apply w')]
    rw [h5, h2]
    rfl
  unfold readTable listOf
  rw [act_bind_ok h6]
  rfl

/-- Writing rows in the excel dialect to a file. -/
theorem write_excel {sys : Sys} (hq : Quiet sys) (p : Path) (enc : Option Str) (c : Codec)
    (hc : sys.codec enc = some c) (rows : List (List Str)) (hfit : TableFits c rows) (w : World) :
    ∃ w', (openTextWrite sys p enc >>= fun c => writeGen sys p c (excelWriter.writeGen rows)) w = (.ok (), w') ∧
      w'.text sys p enc = some (excelWriter.writeRows rows).1 ∧
      (∀ q, q ≠ p → w'.files q = w.files q) ∧ w'.limit = w.limit ∧ w'.stdout = w.stdout := by
  obtain ⟨h1, h2⟩ := writeGen_flatten excelWriter rows
  have h3 : (excelWriter.writeRows rows).2 = none := writeRows_ok (by decide) rfl rows
  have h4 : excelWriter.writeGen rows = ((excelWriter.writeGen rows).1, none) := by
    rw [← h3, ← h2]
  have hrep : Represents c (excelWriter.writeGen rows).1.flatten := by
    rw [h1]
    exact hfit _ (excel_writeRows_chars rows)
  rw [h4, ← h1]
  exact writeText_ok hq p enc c hc _ hrep w

/-! ## C49 write_table/read_table round trip -/

/-- Writing a table in the excel dialect. -/
theorem writeTable_excel {sys : Sys} (hq : Quiet sys) (w : World) (p : Path) (enc : Option Str) (c : Codec)
    (hc : sys.codec enc = some c) (table : Iter (List Str)) (hne : table.items ≠ []) (hrect : Spec.Rect table.items)
    (hfit : TableFits c table.items) (transpose : Bool) :
    ∃ w', (writeTable sys table p (transpose := transpose) (encoding := enc)) w = (.ok (), w') ∧
      w'.text sys p enc =
        some (excelWriter.writeRows (if transpose then zipRows table.items else table.items)).1 ∧
      (∀ q, q ≠ p → w'.files q = w.files q) ∧ w'.limit = w.limit := by
  -- the table that is written
  generalize hT : (if transpose then zipRows table.items else table.items) = T
  have hTrect : Spec.Rect T := by
    rw [← hT]
    cases transpose with
    | false => exact hrect
    | true => exact zipRows_rect _
  have hTfit : TableFits c T := by
    intro text ht
    refine hfit text fun ch hch => ?_
    rcases ht ch hch with h | ⟨row, hr, s, hs, h⟩
    · exact .inl h
    · obtain ⟨r', hr', hs'⟩ : ∃ r' ∈ table.items, s ∈ r' := by
        rw [← hT] at hr
        cases transpose with
        | false => exact ⟨row, hr, hs⟩
        | true => exact mem_zipRows hr hs
      exact .inr ⟨r', hr', s, hs', h⟩
  obtain ⟨w', h1, h2, h3, h4, -⟩ := write_excel hq p enc c hc T hTfit w
  refine ⟨w', ?_, h2, h3, h4⟩
  unfold writeTable
  have hf : table.falsy = false := by
    unfold Iter.falsy
    cases hi : table.items with
    | nil => exact absurd hi hne
    | cons a l => simp
  rw [hf]
  simp only [Bool.false_eq_true, if_false]
  rw [hT, if_neg (by rw [ragged_iff]; simpa using hTrect)]
  rw [← h1, mkWriter_excel]
  rfl

/-- **C49.**  A non-empty rectangular table of NUL-free strings (that leave room for two quotes within the field
size limit), given as a list or an iterator and written with `write_table` in an encoding that can
represent it, is what `read_table(dialect="excel")` reads; with `transpose=True` the transposed table is.
Nothing else in the file system changes.  Missing for the full property: strings with NUL
(`C49_violated`) and longer strings. -/
theorem C49_round_trip_partial (sys : Sys) (hq : Quiet sys) (w : World) (hl : InLong w.limit) (p : Path)
    (enc : Str) (c : Codec) (hc : sys.codec (some enc) = some c) (table : Iter (List Str))
    (hne : table.items ≠ []) (hrect : Spec.Rect table.items)
    (hn : ∀ row ∈ table.items, ∀ s ∈ row, NUL ∉ s)
    (hlen : ∀ row ∈ table.items, ∀ s ∈ row, (s.length + 2 : Int) ≤ w.limit)
    (hfit : TableFits c table.items) (transpose : Bool) (numChars : Option Int) :
    ∃ w' w'' T, (writeTable sys table p (transpose := transpose) (encoding := some enc)) w = (.ok (), w') ∧
      (∀ q, q ≠ p → w'.files q = w.files q) ∧
      readTable sys p (some (.name "excel")) (some enc) numChars w' = (.ok T, w'') ∧
      (transpose = false → T = table.items) ∧ (transpose = true → Spec.IsTranspose table.items T) := by
  obtain ⟨w', h1, h2, h3, h4⟩ := writeTable_excel hq w p (some enc) c hc table hne hrect hfit transpose
  generalize hT : (if transpose then zipRows table.items else table.items) = T at h2
  have hmem : ∀ r ∈ T, ∀ s ∈ r, ∃ r' ∈ table.items, s ∈ r' := by
    intro r hr s hs
    rw [← hT] at hr
    cases transpose with
    | false => exact ⟨r, hr, hs⟩
    | true => exact mem_zipRows hr hs
  obtain ⟨wd, text, h5, h6, h7⟩ := C01_excel_round_trip w.limit hl T
    (fun row hr s hs => by obtain ⟨r', hr', hs'⟩ := hmem row hr s hs; exact hn r' hr' s hs')
    (fun row hr s hs => by obtain ⟨r', hr', hs'⟩ := hmem row hr s hs; exact hlen r' hr' s hs')
  rw [mkWriter_excel] at h5
  cases h5
  rw [h6] at h2
  obtain ⟨w'', h8, -⟩ := readTable_excel hq numChars h2 (by rw [h4]; exact h7)
  refine ⟨w', w'', T, h1, h3, h8, ?_, ?_⟩
  · intro ht
    rw [← hT, ht]
    rfl
  · intro ht
    rw [← hT, ht]
    exact zipRows_transpose _ hrect

/-- A concrete case: a table with a comma, a quote and a newline, in ASCII. -/
example : ∃ w' w'' T, (writeTable demoSys ⟨[["a,b".toList, "\"".toList], ["\n".toList, []]], true⟩ "f".toList
      (transpose := true) (encoding := some "ascii".toList)) (demoWorld []) = (.ok (), w') ∧
      (∀ q, q ≠ "f".toList → w'.files q = (demoWorld []).files q) ∧
      readTable demoSys "f".toList (some (.name "excel")) (some "ascii".toList) none w' = (.ok T, w'') ∧
      (true = false → T = [["a,b".toList, "\"".toList], ["\n".toList, []]]) ∧
      (true = true → Spec.IsTranspose [["a,b".toList, "\"".toList], ["\n".toList, []]] T) := by
  refine C49_round_trip_partial demoSys (fun _ => rfl) (demoWorld []) (by decide) "f".toList "ascii".toList
    asciiCodec rfl ⟨[["a,b".toList, "\"".toList], ["\n".toList, []]], true⟩ (by simp) ?_ ?_ ?_ ?_ true none
  · unfold Spec.Rect; decide
  · decide
  · decide
  · intro text h
    apply ascii_represents
    intro ch hch
    rcases h ch hch with h | ⟨row, hr, s, hs, h⟩
    · unfold excelChar at h
      rcases h with rfl | rfl | rfl | rfl <;> decide
    · revert ch
      have : ∀ row ∈ [["a,b".toList, "\"".toList], ["\n".toList, []]], ∀ s ∈ row, ∀ ch ∈ s, ch.toNat < 128 := by
        decide
      intro ch _ h
      exact this row hr s hs ch h

/-- **C49 is violated** for strings with a NUL character: they are written, but the file cannot be read. -/
theorem C49_violated :
    let w' := (writeTable demoSys ⟨[[[NUL]]], true⟩ "f".toList (encoding := some "ascii".toList)) (demoWorld [])
    w'.1 = .ok () ∧
    (readTable demoSys "f".toList (some (.name "excel")) (some "ascii".toList) none w'.2).1 =
      .error (.parse .nullByte) := by
  decide +kernel

/-! ## C50 write_table refuses ragged tables without touching the file -/

/-- **C50 (ragged).**  Without `transpose`, a table whose rows differ in length raises `ValueError`, whatever the
other arguments and the environment, and the world stays as it is. -/
theorem C50_ragged_partial (sys : Sys) (table : Iter (List Str)) (h : ¬ Spec.Rect table.items) (p : Path)
    (dialect : DialectArg) (enc : Option Str) (w : World) :
    ∃ m, (writeTable sys table p dialect false enc) w = (.error (.valueError m), w) := by
  refine ⟨"Table doesn't have constant row length.", ?_⟩
  unfold writeTable
  have hf : table.falsy = false := by
    unfold Iter.falsy
    cases hi : table.items with
    | nil => exact absurd (by rw [hi]; intro r hr; simp at hr) h
    | cons a l => simp
  rw [hf]
  simp only [Bool.false_eq_true, if_false]
  rw [if_pos (by rw [ragged_iff]; exact h)]
  rfl

/-- **C50 (empty).**  An empty list is not written: the world stays as it is. -/
theorem C50_empty_partial (sys : Sys) (p : Path) (dialect : DialectArg) (transpose : Bool) (enc : Option Str)
    (w : World) : (writeTable sys ⟨[], true⟩ p dialect transpose enc) w = (.ok (), w) := rfl

/-- What is missing: with `transpose=True` a non-empty table is never refused for its shape; the table that
is written is the transpose of what `zip` leaves. -/
theorem C50_transpose_partial (sys : Sys) (table : Iter (List Str)) (h : table.items ≠ []) (p : Path)
    (dialect : DialectArg) (enc : Option Str) :
    writeTable sys table p dialect true enc = (do
      let c ← openTextWrite sys p enc
      let wd ← liftExcept (mkWriter dialect)
      writeGen sys p c (wd.writeGen (zipRows table.items))) := by
  unfold writeTable
  have hf : table.falsy = false := by
    unfold Iter.falsy
    cases hi : table.items with
    | nil => exact absurd hi h
    | cons a l => simp
  rw [hf]
  simp only [Bool.false_eq_true, if_false, if_true]
  rw [if_neg (by rw [ragged_iff]; simpa using zipRows_rect _)]

/-- **C50 is violated** with `transpose=True`: a ragged table does not raise; an existing file is overwritten,
and the surplus cell is lost. -/
theorem C50_violated :
    let r := (writeTable demoSys ⟨[["a".toList], ["b".toList, "c".toList]], true⟩ "f".toList
      (transpose := true) (encoding := some "ascii".toList)) (demoWorld [("f", "old")])
    r.1 = .ok () ∧ r.2.text demoSys "f".toList (some "ascii".toList) = some "a,b\r\n".toList := by
  decide +kernel

/-- **C50 is violated** for an iterator without rows: the file is created, or an existing one truncated. -/
theorem C50_iterator_violated :
    let r := (writeTable demoSys ⟨[], false⟩ "f".toList (encoding := some "ascii".toList))
      (demoWorld [("f", "old")])
    r.1 = .ok () ∧ r.2.files "f".toList = some [] := by
  decide +kernel

/-! ## C51 Reading wrappers detect on the requested prefix and read the whole file -/

theorem readSome_eq (text : Str) (n : Option Int) : readSome text n = Spec.detectionPart text n := by
  unfold readSome Spec.detectionPart
  cases n with
  | none => rfl
  | some n =>
    simp only
    by_cases h0 : n = 0
    · simp [h0]
    · by_cases h1 : n < 0
      · simp [h0, h1, show ¬ 0 < n by omega]
      · simp [h0, h1, show 0 < n by omega]

theorem runDetector_apply (sys : Sys) (data : Str) (w : World) :
    (runDetector sys data) w =
      ((detect sys.env sys.order w.limit data).result,
        { w with limit := (detect sys.env sys.order w.limit data).limit }) := rfl

/-- The file is not changed, and neither are the field size limit and the output. -/
def Same (w w' : World) : Prop := w'.files = w.files ∧ w'.limit = w.limit ∧ w'.stdout = w.stdout

/-- **C51 (given dialect).**  With a dialect, `stream_table` does not detect anything: it gives the rows of the
reader for that dialect on the whole text (in the given or guessed encoding), or the exception of its
constructor. -/
theorem C51_table_given (sys : Sys) (hq : Quiet sys) (w : World) (p : Path) (enc : Option Str) (text : Str)
    (ht : w.text sys p (w.encodingFor sys p enc) = some text) (d : DialectArg) (n : Option Int) :
    ∃ w', (streamTable sys p (some d) enc n) w =
        ((mkReader (.stream (strItems (linesUniv text))) d).map (·.readAll w.limit), w') ∧ Same w w' := by
  obtain ⟨w', h3, h4, h5, h6⟩ := open_ok hq ht fun text => (do
    let d ← chooseDialect sys (some d) text n
    let r ← liftExcept (mkReader (.stream (strItems (linesUniv text))) d)
    return r.readAll (← getLimit) : Act (Gen (List Str)))
  refine ⟨w', ?_, h4, h5, h6⟩
  unfold streamTable
  rw [h3, act_bind_ok (show chooseDialect sys (some d) text n w' = (.ok d, w') from rfl)]
  cases hr : mkReader (.stream (strItems (linesUniv text))) d with
  | error e => rw [act_bind_error (liftExcept_apply _ w')]; rfl
  | ok rd =>
    rw [act_bind_ok (liftExcept_apply _ w'), act_bind_ok (getLimit_apply w'), h5]
    rfl

/-- The same for `stream_dicts`. -/
theorem C51_dicts_given (sys : Sys) (hq : Quiet sys) (w : World) (p : Path) (enc : Option Str) (text : Str)
    (ht : w.text sys p (w.encodingFor sys p enc) = some text) (d : DialectArg) (n : Option Int) :
    ∃ w', (streamDicts sys p (some d) enc n) w =
        ((mkDictReader (.stream (strItems (linesUniv text))) d).map (·.readAll w.limit), w') ∧ Same w w' := by
  obtain ⟨w', h3, h4, h5, h6⟩ := open_ok hq ht fun text => (do
    let d ← chooseDialect sys (some d) text n
    let r ← liftExcept (mkDictReader (.stream (strItems (linesUniv text))) d)
    return r.readAll (← getLimit) : Act (Gen (List (Key × DVal))))
  refine ⟨w', ?_, h4, h5, h6⟩
  unfold streamDicts
  rw [h3, act_bind_ok (show chooseDialect sys (some d) text n w' = (.ok d, w') from rfl)]
  cases hr : mkDictReader (.stream (strItems (linesUniv text))) d with
  | error e => rw [act_bind_error (liftExcept_apply _ w')]; rfl
  | ok rd =>
    rw [act_bind_ok (liftExcept_apply _ w'), act_bind_ok (getLimit_apply w'), h5]
    rfl

/-- The detection step of the wrappers. -/
theorem chooseDialect_none (sys : Sys) (text : Str) (n : Option Int) (w : World) :
    chooseDialect sys none text n w =
      (match (detect sys.env sys.order w.limit (Spec.detectionPart text n)).result with
      | .error e => .error e
      | .ok none => .error .noDetectionResult
      | .ok (some d) => .ok (.simple d),
        { w with limit := (detect sys.env sys.order w.limit (Spec.detectionPart text n)).limit }) := by
  generalize hr : detect sys.env sys.order w.limit (Spec.detectionPart text n) = r
  unfold chooseDialect
  simp only
  rw [act_bind, runDetector_apply, readSome_eq, hr]
  cases r.result with
  | error e => rfl
  | ok x => cases x <;> rfl

/-- The reader for a detected dialect. -/
theorem mkReader_detected {sys : Sys} {limit : Int} {data : Str} {d : SimpleDialect} (src : Source)
    (h : (detect sys.env sys.order limit data).result = .ok (some d)) :
    mkReader src (.simple d) = .ok ⟨src, d, 0, none⟩ := by
  have hv := (C40_valid _ _ _ _ _ _ _ d (by intro l hl; simp at hl) h).1
  have hm : makeSimpleDialect (.simple d) {} = .ok d := by
    simp only [makeSimpleDialect, baseDialect, setParams_none, hv, bind, Except.bind, pure, Except.pure]
  simp only [mkReader, hm, bind, Except.bind, pure, Except.pure]

/-- The detector itself does not raise `NoDetectionResult`. -/
theorem detect_not_noDetectionResult {env : PyEnv} {ord : SetOrder} {limit : Int} {data : Str} :
    (detect env ord limit data).result ≠ .error .noDetectionResult := by
  intro h
  rcases detect_cases env ord limit data none .auto true with ⟨-, d, -, he⟩ | ⟨-, cap, he⟩
  · rw [he] at h; simp at h
  · rw [he] at h
    rcases consistencyDetect_exc h with (⟨m, h⟩ | h) | ⟨e, h⟩ | h <;> simp at h

/-- **C51 (detection).**  Without a dialect, `stream_table` runs the detector on the first `num_chars` characters
of the text (all of it for `None`, 0 or a negative number): if detection raises, so does it; if nothing is
detected it raises `NoDetectionResult`; otherwise it gives the rows of the whole text in the detected
dialect. -/
theorem C51_table_detected (sys : Sys) (hq : Quiet sys) (w : World) (p : Path) (enc : Option Str)
    (text : Str) (ht : w.text sys p (w.encodingFor sys p enc) = some text) (n : Option Int) :
    ∃ w', (streamTable sys p none enc n) w =
        (match (detect sys.env sys.order w.limit (Spec.detectionPart text n)).result with
        | .error e => .error e
        | .ok none => .error .noDetectionResult
        | .ok (some d) => .ok (parseString w.limit d text), w') ∧
      w'.files = w.files ∧
      ((∃ r, (detect sys.env sys.order w.limit (Spec.detectionPart text n)).result = .ok r) → Same w w') := by
  obtain ⟨w', h3, h4, h5, h6⟩ := open_ok hq ht fun text => (do
    let d ← chooseDialect sys none text n
    let r ← liftExcept (mkReader (.stream (strItems (linesUniv text))) d)
    return r.readAll (← getLimit) : Act (Gen (List Str)))
  have hc := chooseDialect_none sys text n w'
  rw [h5] at hc
  refine ⟨{ w' with limit := (detect sys.env sys.order w.limit (Spec.detectionPart text n)).limit }, ?_, h4, ?_⟩
  · unfold streamTable
    rw [h3]
    cases hr : (detect sys.env sys.order w.limit (Spec.detectionPart text n)).result with
    | error e =>
      rw [hr] at hc
      rw [act_bind_error hc]
    | ok x =>
      have hlim := C37_restored_partial _ _ _ _ _ _ _ _ hr
      rw [hr] at hc
      cases x with
      | none => rw [act_bind_error hc]
      | some d =>
        have hm := mkReader_detected (.stream (strItems (linesUniv text))) hr
        rw [act_bind_ok hc, hm, act_bind_ok (liftExcept_apply _ _), act_bind_ok (getLimit_apply _)]
        simp only [hlim, act_pure, Clever.readAll_eq]
        rfl
  · rintro ⟨r, hr⟩
    exact ⟨h4, C37_restored_partial _ _ _ _ _ _ _ _ hr, h6⟩

/-- The same for `stream_dicts`: the dictionaries of the rows of the whole text, with the first row as the
header. -/
theorem C51_dicts_detected (sys : Sys) (hq : Quiet sys) (w : World) (p : Path) (enc : Option Str)
    (text : Str) (ht : w.text sys p (w.encodingFor sys p enc) = some text) (n : Option Int) :
    ∃ w', (streamDicts sys p none enc n) w =
        (match (detect sys.env sys.order w.limit (Spec.detectionPart text n)).result with
        | .error e => .error e
        | .ok none => .error .noDetectionResult
        | .ok (some d) =>
          match parseString w.limit d text with
          | ([], err) => .ok ([], err)
          | (header :: rows, err) =>
            .ok ((rows.filter (· ≠ [])).map (rowDict (header.map some) none), err), w') ∧
      w'.files = w.files ∧
      ((∃ r, (detect sys.env sys.order w.limit (Spec.detectionPart text n)).result = .ok r) → Same w w') := by
  obtain ⟨w', h3, h4, h5, h6⟩ := open_ok hq ht fun text => (do
    let d ← chooseDialect sys none text n
    let r ← liftExcept (mkDictReader (.stream (strItems (linesUniv text))) d)
    return r.readAll (← getLimit) : Act (Gen (List (Key × DVal))))
  have hc := chooseDialect_none sys text n w'
  rw [h5] at hc
  refine ⟨{ w' with limit := (detect sys.env sys.order w.limit (Spec.detectionPart text n)).limit }, ?_, h4, ?_⟩
  · unfold streamDicts
    rw [h3]
    cases hr : (detect sys.env sys.order w.limit (Spec.detectionPart text n)).result with
    | error e =>
      rw [hr] at hc
      rw [act_bind_error hc]
    | ok x =>
      have hlim := C37_restored_partial _ _ _ _ _ _ _ _ hr
      rw [hr] at hc
      cases x with
      | none => rw [act_bind_error hc]
      | some d =>
        obtain ⟨r, hm, hall⟩ := C46_rows_partial _ _ {} none none w.limit _
          (mkReader_detected (.stream (strItems (linesUniv text))) hr)
        rw [act_bind_ok hc, hm, act_bind_ok (liftExcept_apply _ _), act_bind_ok (getLimit_apply _)]
        simp only [hlim, act_pure]
        rw [Clever.readAll_eq] at hall
        rcases hp : parseString w.limit d text with ⟨_ | ⟨hd, rows⟩, err⟩
        · rw [hall [] err hp]
        · rw [hall (hd :: rows) err hp]
  · rintro ⟨r, hr⟩
    exact ⟨h4, C37_restored_partial _ _ _ _ _ _ _ _ hr, h6⟩

/-- **C51 (exactly).**  On a readable file, `stream_table` and `stream_dicts` raise `NoDetectionResult` exactly if
detection on the requested part gives `None`. -/
theorem C51_no_result_iff (sys : Sys) (hq : Quiet sys) (w : World) (p : Path) (enc : Option Str)
    (text : Str) (ht : w.text sys p (w.encodingFor sys p enc) = some text) (n : Option Int) :
    (((streamTable sys p none enc n) w).1 = .error .noDetectionResult ↔
      (detect sys.env sys.order w.limit (Spec.detectionPart text n)).result = .ok none) ∧
    (((streamDicts sys p none enc n) w).1 = .error .noDetectionResult ↔
      (detect sys.env sys.order w.limit (Spec.detectionPart text n)).result = .ok none) := by
  obtain ⟨w', h, -⟩ := C51_table_detected sys hq w p enc text ht n
  obtain ⟨w'', h', -⟩ := C51_dicts_detected sys hq w p enc text ht n
  rw [h, h']
  have hd := detect_not_noDetectionResult (env := sys.env) (ord := sys.order) (limit := w.limit)
    (data := Spec.detectionPart text n)
  rcases hr : (detect sys.env sys.order w.limit (Spec.detectionPart text n)).result with e | _ | d
  · rw [hr] at hd
    have : e ≠ .noDetectionResult := fun h => hd (by rw [h])
    simp [this]
  · simp
  · simp only
    generalize parseString w.limit d text = r
    rcases r with ⟨_ | ⟨header, rows⟩, err⟩ <;> simp

/-- **C51 (streaming and reading).**  `read_table` returns the list of what `stream_table` yields, or raises what
`stream_table` ends with; the same for `read_dicts`. -/
theorem C51_read_is_stream (sys : Sys) (p : Path) (d : Option DialectArg) (enc : Option Str) (n : Option Int)
    (w : World) :
    (readTable sys p d enc n) w =
      (match (streamTable sys p d enc n) w with
      | (.error e, w') => (.error e, w')
      | (.ok (rows, none), w') => (.ok rows, w')
      | (.ok (_, some e), w') => (.error e, w')) ∧
    (readDicts sys p d enc n) w =
      (match (streamDicts sys p d enc n) w with
      | (.error e, w') => (.error e, w')
      | (.ok (rows, none), w') => (.ok rows, w')
      | (.ok (_, some e), w') => (.error e, w')) := by
  constructor
  · unfold readTable listOf
    rw [act_bind]
    rcases (streamTable sys p d enc n) w with ⟨_ | ⟨rows, _ | e⟩, w'⟩ <;> rfl
  · unfold readDicts listOf
    rw [act_bind]
    rcases (streamDicts sys p d enc n) w with ⟨_ | ⟨rows, _ | e⟩, w'⟩ <;> rfl

/-- A concrete case: detection on the first line only, rows of both lines. -/
example : ((readTable demoSys "f".toList none none (some 6)) (demoWorld [("f", "a b;c\n1,2;x")])).1 =
    .ok [["a b".toList, "c".toList], ["1,2".toList, "x".toList]] := by decide +kernel

/-- And a case without a result. -/
example : ((readTable demoSys "f".toList none none none) (demoWorld [("f", ",;")])).1 =
    .error .noDetectionResult := by decide +kernel

/-! ## C48 write_dicts/read_dicts round trip -/

theorem values_of_nodup : ∀ (d : List (Str × Str)), (d.map Prod.fst).Nodup →
    (d.map Prod.fst).map (Spec.fieldValue d []) = d.map Prod.snd
  | [], _ => rfl
  | (k, v) :: d, h => by
    simp only [List.map_cons, List.nodup_cons] at h
    simp only [List.map_cons]
    congr 1
    · simp [Spec.fieldValue]
    · rw [← values_of_nodup d h.2]
      apply List.map_congr_left
      intro k' hk'
      have : k ≠ k' := by rintro rfl; exact h.1 hk'
      simp [Spec.fieldValue, this]

/-- Writing dictionaries with the same keys in the excel dialect: the keys, then the values. -/
theorem writeDicts_excel {sys : Sys} (hq : Quiet sys) (w : World) (p : Path)
    (enc : Option Str) (c : Codec) (hc : sys.codec enc = some c) (items : Iter (List (Str × Str)))
    (keys : List Str) (hkn : keys.Nodup) (hne : items.items ≠ [])
    (hkeys : ∀ d ∈ items.items, d.map Prod.fst = keys)
    (hfit : TableFits c (keys :: items.items.map (·.map Prod.snd))) :
    ∃ w', (writeDicts sys items p (encoding := enc)) w = (.ok (), w') ∧
      w'.text sys p enc = some (excelWriter.writeRows (keys :: items.items.map (·.map Prod.snd))).1 ∧
      (∀ q, q ≠ p → w'.files q = w.files q) ∧ w'.limit = w.limit := by
  obtain ⟨w', h1, h2, h3, h4, -⟩ := write_excel hq p enc c hc _ hfit w
  -- what is written
  have hgen : ∀ ds : List (List (Str × Str)), (∀ d ∈ ds, d.map Prod.fst = keys) →
      (⟨keys, [], "raise".toList, excelWriter⟩ : DictWriter).writeGen ds =
        excelWriter.writeGen (ds.map (·.map Prod.snd)) := by
    intro ds
    induction ds with
    | nil => intro _; rfl
    | cons d ds ih =>
      intro h
      have hd := h d (by simp)
      have hrow : (⟨keys, [], "raise".toList, excelWriter⟩ : DictWriter).writerow d =
          excelWriter.writeRow (d.map Prod.snd) := by
        rw [C47_known_partial _ _ (by intro k hk; rw [hd] at hk; exact hk)]
        rw [← values_of_nodup d (by rw [hd]; exact hkn), hd]
      simp only [DictWriter.writeGen, List.map_cons, WDialect.writeGen, hrow]
      rw [ih (fun d hd => h d (by simp [hd]))]
  have hall : (⟨keys, [], "raise".toList, excelWriter⟩ : DictWriter).writeAll items.items =
      excelWriter.writeGen (keys :: items.items.map (·.map Prod.snd)) := by
    unfold DictWriter.writeAll
    rw [C47_header, hgen _ hkeys]
    rfl
  have hmk : mkDictWriter keys = .ok ⟨keys, [], "raise".toList, excelWriter⟩ := by
    simp only [mkDictWriter, mkWriter_excel, bind, Except.bind, pure, Except.pure]
    rfl
  refine ⟨w', ?_, h2, h3, h4⟩
  unfold writeDicts
  have hf : items.falsy = false := by
    unfold Iter.falsy
    cases hi : items.items with
    | nil => exact absurd hi hne
    | cons a l => simp
  rw [hf]
  simp only [Bool.false_eq_true, if_false]
  cases hi : items.items with
  | nil => exact absurd hi hne
  | cons first rest =>
    simp only
    rw [hkeys first (by simp [hi]), hmk, ← hi, ← h1]
    have : ∀ c : Codec, (do
        let w ← liftExcept (Except.ok (⟨keys, [], "raise".toList, excelWriter⟩ : DictWriter))
        writeGen sys p c (w.writeAll items.items) : Act Unit) =
        writeGen sys p c (excelWriter.writeGen (keys :: items.items.map (·.map Prod.snd))) := by
      intro c
      funext w
      rw [act_bind_ok (liftExcept_apply _ w), hall]
    simp only [this]

/-- Reading a file with a header of distinct keys, and rows of as many values. -/
theorem readDicts_excel {sys : Sys} (hq : Quiet sys) {w' : World} {p : Path} {enc : Str} {text : Str}
    (items : List (List (Str × Str))) (keys : List Str) (hk0 : keys ≠ []) (hkn : keys.Nodup)
    (hkeys : ∀ d ∈ items, d.map Prod.fst = keys) (numChars : Option Int)
    (h2 : w'.text sys p (some enc) = some text)
    (h7 : readText w'.limit (.name "excel") {} text = .ok (keys :: items.map (·.map Prod.snd))) :
    ∃ w'', (readDicts sys p (some (.name "excel")) (some enc) numChars) w' =
        (.ok (items.map fun d => d.map fun kv => (some kv.1, DVal.cell kv.2)), w'') := by
  obtain ⟨rd, h8, h9⟩ := readText_ok h7
  obtain ⟨r, h10, h11⟩ := C46_rows_partial _ _ {} none none w'.limit rd h8
  obtain ⟨w'', h12, -, -, -⟩ := C51_dicts_given sys hq w' p (some enc) text h2 (.name "excel") numChars
  refine ⟨w'', ?_⟩
  rw [(C51_read_is_stream ..).2, h12, h10]
  simp only [Except.map]
  rw [h11 _ _ h9]
  simp only
  congr 2
  rw [List.filter_eq_self.mpr]
  · rw [List.map_map]
    apply List.map_congr_left
    intro d hd
    have hkd := hkeys d hd
    simp only [Function.comp_apply]
    rw [rowDict_eq]
    · have hlen : (d.map Prod.snd).length = (keys.map some).length := by simp [← hkd]
      rw [if_neg (by rw [hlen]; omega), List.drop_of_length_le (by rw [hlen])]
      rw [← hkd]
      simp only [List.map_map, List.map_nil, List.append_nil]
      clear hkd hd hlen
      induction d with
      | nil => rfl
      | cons x d ih => simp [ih]
    · exact List.Pairwise.map some (fun a b h h' => h (Option.some.inj h')) hkn
    · simp
  · intro row hr
    simp only [List.mem_map] at hr
    obtain ⟨d, hd, rfl⟩ := hr
    have hkd := hkeys d hd
    simp only [ne_eq, decide_eq_true_eq, List.map_eq_nil_iff]
    rintro rfl
    exact hk0 hkd.symm

/-- **C48.**  A non-empty list (or iterator) of dictionaries with the same keys in the same order, at least one,
written with `write_dicts` in an encoding that can represent them, is what `read_dicts(dialect="excel")`
returns, for keys and values that are NUL-free strings (and leave room for two quotes within the field size
limit).  Missing for the full property: longer strings. -/
theorem C48_round_trip_partial (sys : Sys) (hq : Quiet sys) (w : World) (hl : InLong w.limit) (p : Path)
    (enc : Str) (c : Codec) (hc : sys.codec (some enc) = some c) (items : Iter (List (Str × Str)))
    (keys : List Str) (hk0 : keys ≠ []) (hkn : keys.Nodup) (hne : items.items ≠ [])
    (hkeys : ∀ d ∈ items.items, d.map Prod.fst = keys)
    (hn : ∀ row ∈ keys :: items.items.map (·.map Prod.snd), ∀ s ∈ row, NUL ∉ s)
    (hlen : ∀ row ∈ keys :: items.items.map (·.map Prod.snd), ∀ s ∈ row, (s.length + 2 : Int) ≤ w.limit)
    (hfit : TableFits c (keys :: items.items.map (·.map Prod.snd))) (numChars : Option Int) :
    ∃ w' w'', (writeDicts sys items p (encoding := some enc)) w = (.ok (), w') ∧
      (∀ q, q ≠ p → w'.files q = w.files q) ∧
      (readDicts sys p (some (.name "excel")) (some enc) numChars) w' =
        (.ok (items.items.map fun d => d.map fun kv => (some kv.1, DVal.cell kv.2)), w'') := by
  obtain ⟨wd, text, h5, h6, h7⟩ := C01_excel_round_trip w.limit hl _ hn hlen
  rw [mkWriter_excel] at h5
  cases h5
  obtain ⟨w', h1, h2, h3, h4⟩ := writeDicts_excel hq w p (some enc) c hc items keys hkn hne hkeys hfit
  rw [h6] at h2
  obtain ⟨w'', h8⟩ := readDicts_excel hq items.items keys hk0 hkn hkeys numChars h2 (by rw [h4]; exact h7)
  exact ⟨w', w'', h1, h3, h8⟩

/-- A concrete case: two dictionaries with a comma and an empty value. -/
example : let w' := (writeDicts demoSys ⟨[[("a".toList, "1,2".toList), ("b".toList, [])],
      [("a".toList, []), ("b".toList, "x".toList)]], true⟩ "f".toList (encoding := some "ascii".toList)) (demoWorld [])
    w'.1 = .ok () ∧ w'.2.text demoSys "f".toList none = some "a,b\r\n\"1,2\",\r\n,x\r\n".toList ∧
    ((readDicts demoSys "f".toList (some (.name "excel")) (some "ascii".toList)) w'.2).1 =
      .ok [[(some "a".toList, .cell "1,2".toList), (some "b".toList, .cell [])],
        [(some "a".toList, .cell []), (some "b".toList, .cell "x".toList)]] := by
  decide +kernel

/-- **C48 is violated** for values that do not fit the field size limit: they are written, but the file cannot
be read. -/
theorem C48_violated :
    let w' := (writeDicts demoSys ⟨[[("a".toList, "xyz".toList)]], true⟩ "f".toList
      (encoding := some "ascii".toList)) { demoWorld [] with limit := 2 }
    w'.1 = .ok () ∧
    ((readDicts demoSys "f".toList (some (.name "excel")) (some "ascii".toList)) w'.2).1 =
      .error (.parse (.fieldLimit 2)) := by
  decide +kernel

end Clever.Props
