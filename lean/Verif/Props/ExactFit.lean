import Verif.Proofs.ExactFit
import Verif.Props.Wrappers

/-!
# The round trips, exactly: C01, C02, C03, C48, C49, C52

Which tables are read back is decided by the NUL characters and the field size limit, with the quotes counted.
-/

namespace Clever.Props

open Spec

/-- **C01, exactly.**  Any table is written in the excel dialect; it is read back if and only if it is readable (no NUL,
and room for the cells with their quotes), and otherwise reading is an error. -/
theorem C01_exact (limit : Int) (hl : InLong limit) (rows : List (List Str)) :
    ∃ wd text, mkWriter (.name "excel") = .ok wd ∧ wd.writeRows rows = (text, none) ∧
      (readText limit (.name "excel") {} text = .ok rows ↔ CanReadBack limit ',' '"' rows) ∧
      (¬ CanReadBack limit ',' '"' rows → ∃ err, readText limit (.name "excel") {} text = .error err) ∧
      (¬ CanReadBack limit ',' '"' rows → (∀ row ∈ rows, ∀ s ∈ row, NUL ∉ s) →
        readText limit (.name "excel") {} text = .error (.parse (.fieldLimit limit))) :=
  ⟨excelWriter, _, mkWriter_excel, Prod.ext rfl (writeRows_ok (by decide) rfl rows), excel_exact limit hl rows⟩

/-- At the boundary: with limit 3 the cell `abc` fits, `a,c` does not; `"` does (the doubled quote counts once), and so
does the row of one empty cell; with limit 1 that one does not.  With a negative limit only empty cells are read. -/
example : CanReadBack 3 ',' '"' [["abc".toList, "\"".toList], [[]]] ∧ ¬ CanReadBack 3 ',' '"' [["a,c".toList]] ∧
    ¬ CanReadBack 1 ',' '"' [[[]]] ∧ CanReadBack (-1) ',' '"' [[[], []], []] ∧ ¬ CanReadBack (-1) ',' '"' [["a".toList]] ∧
    readText 3 (.name "excel") {} "abc,\"\"\"\"\r\n\"\"\r\n".toList = .ok [["abc".toList, "\"".toList], [[]]] ∧
    readText 3 (.name "excel") {} "\"a,c\"\r\n".toList = .error (.parse (.fieldLimit 3)) ∧
    readText (-1) (.name "excel") {} ",\r\n\r\n".toList = .ok [[[], []], []] := by
  decide +kernel

/-- **C02, exactly** (for dialects as in `C02_round_trip_partial`; for the others see the `_violated` theorems there). -/
theorem C02_exact_partial (limit : Int) (hl : InLong limit) (d q : Char) (e : Option Char)
    (hd : d ≠ NUL ∧ isNL d = false) (hq : q ≠ NUL ∧ isNL q = false) (hdq : d ≠ q)
    (he : ∀ c, e = some c → c ≠ NUL ∧ isNL c = false ∧ c ≠ d ∧ c ≠ q) (rows : List (List Str)) :
    ∃ wd text, mkWriter (.simple (dialectOf (some d) (some q) e)) = .ok wd ∧
      wd.writeRows rows = (text, none) ∧
      (readText limit (.simple (dialectOf (some d) (some q) e)) {} text = .ok rows ↔ CanReadBack limit d q rows) ∧
      (¬ CanReadBack limit d q rows →
        ∃ err, readText limit (.simple (dialectOf (some d) (some q) e)) {} text = .error err) ∧
      (¬ CanReadBack limit d q rows → (∀ row ∈ rows, ∀ s ∈ row, NUL ∉ s) →
        readText limit (.simple (dialectOf (some d) (some q) e)) {} text = .error (.parse (.fieldLimit limit))) := by
  have hw : ((simpleWriter d (some q) e).writeRows rows).2 = none :=
    writeRows_ok (by simp [simpleWriter]) rfl rows
  refine ⟨_, ((simpleWriter d (some q) e).writeRows rows).1, mkWriter_simple d (some q) e false,
    by rw [← hw], ?_⟩
  refine readable_iff limit hl ?_ _ (makeSimpleDialect_dialectOf _ _ _ _) (by simp [simpleWriter]) rows hw
  constructor <;> simp [simpleWriter, cfgOf, hd, hq, hdq, Ne.symm hdq]
  all_goals
    cases e with
    | none => simp [NUL]
    | some c => have := he c rfl; simp_all

/-- A case: an escape character is written twice and counts once. -/
example : CanReadBack 3 ';' '\'' [["a\\b".toList], ["';".toList.take 1]] ∧
    (simpleWriter ';' (some '\'') (some '\\')).writeRows [["a\\b".toList], ["'".toList]] =
      ("a\\\\b\n''''\n".toList, none) ∧
    readText 3 (.simple (dialectOf (some ';') (some '\'') (some '\\'))) {} "a\\\\b\n''''\n".toList =
      .ok [["a\\b".toList], ["'".toList]] ∧
    readText 2 (.simple (dialectOf (some ';') (some '\'') (some '\\'))) {} "a\\\\b\n''''\n".toList =
      .error (.parse (.fieldLimit 2)) := by
  decide +kernel

/-- **C03, exactly** in the limit and the NUL characters: what the writer without quotes accepts is read back if and only
if it is readable.  (Quotes as in `C03_round_trip_partial`; see `C03_quote_violated`.) -/
theorem C03_exact_partial (limit : Int) (hl : InLong limit) (d : Char) (e : Option Char)
    (hd : d ≠ NUL ∧ isNL d = false)
    (he : ∀ c, e = some c → c ≠ NUL ∧ isNL c = false ∧ c ≠ d)
    (wd : WDialect) (hwd : mkWriter (.simple (dialectOf (some d) none e)) = .ok wd)
    (rows : List (List Str)) (text : Str) (hw : wd.writeRows rows = (text, none))
    (hquote : e = none ∨ d = '"' ∨ e = some '"' ∨ ∀ row ∈ rows, ∀ s ∈ row, '"' ∉ s) :
    (readText limit (.simple (dialectOf (some d) none e)) {} text = .ok rows ↔ CanReadBackUnquoted limit rows) ∧
    (¬ CanReadBackUnquoted limit rows →
      ∃ err, readText limit (.simple (dialectOf (some d) none e)) {} text = .error err) := by
  rw [mkWriter_simple] at hwd
  simp only [Except.ok.injEq] at hwd
  subst hwd
  have h := unquoted_exact (wd := simpleWriter d none e) (d := some d) (q := none) (e := e) limit hl
    (by
      constructor <;> simp [simpleWriter, cfgOf, hd]
      · exact fun c hc => (he c hc).1
      · exact fun c hc => (he c hc).2.1
      · exact fun c hc => (he c hc).2.2)
    _ (makeSimpleDialect_dialectOf _ _ _ _) (by simp [simpleWriter]) rows (by rw [hw]) (unquoted_cellOK hw hquote)
  rw [hw] at h
  exact h

/-- A case: the escapes do not count. -/
example : CanReadBackUnquoted 3 [["a,\n".toList, []]] ∧ ¬ CanReadBackUnquoted 2 [["a,\n".toList, []]] ∧
    (simpleWriter ',' none (some '\\')).writeRows [["a,\n".toList, []]] = ("a\\,\\\n,\n".toList, none) ∧
    readText 3 (.simple (dialectOf (some ',') none (some '\\'))) {} "a\\,\\\n,\n".toList = .ok [["a,\n".toList, []]] ∧
    readText 2 (.simple (dialectOf (some ',') none (some '\\'))) {} "a\\,\\\n,\n".toList =
      .error (.parse (.fieldLimit 2)) := by
  decide +kernel

/-! ## Through the wrappers -/

/-- Reading a file in the excel dialect, whatever its text. -/
theorem readTable_excel_eq {sys : Sys} (hq : Quiet sys) {w : World} {p : Path} {enc : Str} {text : Str} (n : Option Int)
    (ht : w.text sys p (some enc) = some text) :
    ∃ w', readTable sys p (some (.name "excel")) (some enc) n w = (readText w.limit (.name "excel") {} text, w') := by
  have ht' : w.text sys p (w.encodingFor sys p (some enc)) = some text := ht
  obtain ⟨w', h3, -, h5, -⟩ := open_ok hq ht' fun text => (do
    let d ← chooseDialect sys (some (.name "excel")) text n
    let r ← liftExcept (mkReader (.stream (strItems (linesUniv text))) d)
    return r.readAll (← getLimit) : Act (Gen (List Str)))
  refine ⟨w', ?_⟩
  rw [(C51_read_is_stream ..).1]
  unfold streamTable
  rw [h3, act_bind_ok (show chooseDialect sys (some (.name "excel")) text n w' = (.ok (.name "excel"), w') from rfl)]
  unfold readText
  cases h1 : mkReader (.stream (strItems (linesUniv text))) (.name "excel") with
  | error e => simp [mkReader, makeSimpleDialect_excel, bind, Except.bind, pure, Except.pure] at h1
  | ok rd =>
    rw [act_bind_ok (liftExcept_apply _ w'), act_bind_ok (getLimit_apply w'), h5]
    simp only [bind, Except.bind]
    rcases rd.readAll w.limit with ⟨rows, _ | e⟩ <;> rfl

/-- Reading dictionaries ends with the error of the reader. -/
theorem readDicts_excel_error {sys : Sys} (hq : Quiet sys) {w' : World} {p : Path} {enc : Str} {text : Str}
    (numChars : Option Int) (h2 : w'.text sys p (some enc) = some text) {err : PyExc}
    (h7 : readText w'.limit (.name "excel") {} text = .error err) :
    ∃ w'', (readDicts sys p (some (.name "excel")) (some enc) numChars) w' = (.error err, w'') := by
  obtain ⟨w'', h12, -, -, -⟩ := C51_dicts_given sys hq w' p (some enc) text h2 (.name "excel") numChars
  refine ⟨w'', ?_⟩
  unfold readText at h7
  cases h1 : mkReader (.stream (strItems (linesUniv text))) (.name "excel") with
  | error e => simp [mkReader, makeSimpleDialect_excel, bind, Except.bind, pure, Except.pure] at h1
  | ok rd =>
    simp only [h1, bind, Except.bind] at h7
    obtain ⟨r, h10, h11⟩ := C46_rows_partial _ _ {} none none w'.limit rd h1
    rw [(C51_read_is_stream ..).2, h12, h10]
    simp only [Except.map]
    rcases hg : rd.readAll w'.limit with ⟨rows, e⟩
    rw [hg] at h7
    cases e with
    | none => cases h7
    | some e =>
      simp only [Gen.toList, Except.error.injEq] at h7
      subst h7
      rw [h11 _ _ hg]
      cases rows <;> rfl

/-- **C49, exactly.**  A non-empty rectangular table that the encoding can represent is always written; the table that
was written, transposed on request, is read back if and only if it is readable, and otherwise reading raises. -/
theorem C49_exact_partial (sys : Sys) (hq : Quiet sys) (w : World) (hl : InLong w.limit) (p : Path)
    (enc : Str) (c : Codec) (hc : sys.codec (some enc) = some c) (table : Iter (List Str))
    (hne : table.items ≠ []) (hrect : Spec.Rect table.items) (hfit : TableFits c table.items) (transpose : Bool)
    (numChars : Option Int) :
    ∃ w' T, (writeTable sys table p (transpose := transpose) (encoding := some enc)) w = (.ok (), w') ∧
      (transpose = false → T = table.items) ∧ (transpose = true → Spec.IsTranspose table.items T) ∧
      ((readTable sys p (some (.name "excel")) (some enc) numChars w').1 = .ok T ↔ CanReadBack w.limit ',' '"' T) ∧
      (¬ CanReadBack w.limit ',' '"' T →
        ∃ err, (readTable sys p (some (.name "excel")) (some enc) numChars w').1 = .error err) := by
  obtain ⟨w', h1, h2, h3, h4⟩ := writeTable_excel hq w p (some enc) c hc table hne hrect hfit transpose
  refine ⟨w', if transpose then zipRows table.items else table.items, h1, ?_, ?_, ?_⟩
  · rintro rfl; rfl
  · rintro rfl; exact zipRows_transpose _ hrect
  · obtain ⟨w'', h5⟩ := readTable_excel_eq hq numChars h2
    obtain ⟨h6, h7, -⟩ := excel_exact w.limit hl (if transpose then zipRows table.items else table.items)
    rw [h5, h4]
    exact ⟨h6, h7⟩

/-- A case where transposing decides: with limit 1 the row of two empty cells can be read back, but not the two rows of
one empty cell each, since those are written in quotes. -/
example : CanReadBack 1 ',' '"' [[[], []]] ∧ ¬ CanReadBack 1 ',' '"' [[[]], [[]]] ∧
    (let w' := (writeTable demoSys ⟨[[[], []]], true⟩ "f".toList (transpose := true) (encoding := some "ascii".toList))
      { demoWorld [] with limit := 1 }
    w'.1 = .ok () ∧ w'.2.text demoSys "f".toList none = some "\"\"\r\n\"\"\r\n".toList ∧
    (readTable demoSys "f".toList (some (.name "excel")) (some "ascii".toList) none w'.2).1 =
      .error (.parse (.fieldLimit 1))) ∧
    (let w' := (writeTable demoSys ⟨[[[], []]], true⟩ "f".toList (encoding := some "ascii".toList))
      { demoWorld [] with limit := 1 }
    (readTable demoSys "f".toList (some (.name "excel")) (some "ascii".toList) none w'.2).1 = .ok [[[], []]]) := by
  decide +kernel

/-- **C48, exactly.**  Dictionaries with the same distinct keys that the encoding can represent are always written; they
are read back if and only if the keys and the values are readable, and otherwise reading raises. -/
theorem C48_exact_partial (sys : Sys) (hq : Quiet sys) (w : World) (hl : InLong w.limit) (p : Path)
    (enc : Str) (c : Codec) (hc : sys.codec (some enc) = some c) (items : Iter (List (Str × Str)))
    (keys : List Str) (hk0 : keys ≠ []) (hkn : keys.Nodup) (hne : items.items ≠ [])
    (hkeys : ∀ d ∈ items.items, d.map Prod.fst = keys)
    (hfit : TableFits c (keys :: items.items.map (·.map Prod.snd))) (numChars : Option Int) :
    ∃ w', (writeDicts sys items p (encoding := some enc)) w = (.ok (), w') ∧
      (((readDicts sys p (some (.name "excel")) (some enc) numChars) w').1 =
        .ok (items.items.map fun d => d.map fun kv => (some kv.1, DVal.cell kv.2)) ↔
        CanReadBack w.limit ',' '"' (keys :: items.items.map (·.map Prod.snd))) ∧
      (¬ CanReadBack w.limit ',' '"' (keys :: items.items.map (·.map Prod.snd)) →
        ∃ err, ((readDicts sys p (some (.name "excel")) (some enc) numChars) w').1 = .error err) := by
  obtain ⟨w', h1, h2, h3, h4⟩ := writeDicts_excel hq w p (some enc) c hc items keys hkn hne hkeys hfit
  obtain ⟨h6, h7, -⟩ := excel_exact w.limit hl (keys :: items.items.map (·.map Prod.snd))
  have herr : ¬ CanReadBack w.limit ',' '"' (keys :: items.items.map (·.map Prod.snd)) →
      ∃ err, ((readDicts sys p (some (.name "excel")) (some enc) numChars) w').1 = .error err := by
    intro h
    obtain ⟨err, he⟩ := h7 h
    obtain ⟨w'', h8⟩ := readDicts_excel_error hq numChars h2 (by rw [h4]; exact he)
    exact ⟨err, by rw [h8]⟩
  refine ⟨w', h1, ⟨fun h => ?_, fun h => ?_⟩, herr⟩
  · apply Classical.byContradiction
    intro hx
    obtain ⟨err, he⟩ := herr hx
    rw [h] at he
    cases he
  · obtain ⟨w'', h8⟩ := readDicts_excel hq items.items keys hk0 hkn hkeys numChars h2 (by rw [h4]; exact h6.2 h)
    rw [h8]

/-- A case at the limit 3: the value `a,` needs four characters, the value `abc` three. -/
example : CanReadBack 3 ',' '"' [["k".toList, "l".toList], ["abc".toList, []]] ∧
    ¬ CanReadBack 3 ',' '"' [["k".toList, "l".toList], ["a,".toList, []]] ∧
    (let w' := (writeDicts demoSys ⟨[[("k".toList, "abc".toList), ("l".toList, [])]], true⟩ "f".toList
      (encoding := some "ascii".toList)) { demoWorld [] with limit := 3 }
    ((readDicts demoSys "f".toList (some (.name "excel")) (some "ascii".toList)) w'.2).1 =
      .ok [[(some "k".toList, .cell "abc".toList), (some "l".toList, .cell [])]]) ∧
    (let w' := (writeDicts demoSys ⟨[[("k".toList, "a,".toList), ("l".toList, [])]], true⟩ "f".toList
      (encoding := some "ascii".toList)) { demoWorld [] with limit := 3 }
    ((readDicts demoSys "f".toList (some (.name "excel")) (some "ascii".toList)) w'.2).1 =
      .error (.parse (.fieldLimit 3))) := by
  refine ⟨?_, ?_, ?_, ?_⟩ <;> decide +kernel

end Clever.Props
