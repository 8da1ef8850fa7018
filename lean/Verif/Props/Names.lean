import Verif.Props.RoundTrip

/-!
# C100: dialects given by name
-/

namespace Clever.Props

open Clever

/-! ## C100 -/

/-- The registered names, each with its delimiter. -/
def dialectNames : List (String × Char) := [("excel", ','), ("excel-tab", '\t'), ("unix", ',')]

/-- **C100 (reader).**  Reading by name is reading with the `SimpleDialect` that has the delimiter of that name, the double
quote and no escape character, whatever format parameters are added. -/
theorem C100_reader (src : Source) (n : String) (c : Char) (h : (n, c) ∈ dialectNames) (f : FmtParams) :
    mkReader src (.name n) f = mkReader src (.simple (dialectOf (some c) (some '"') none)) f := by
  have hb : baseDialect (.name n) = .ok (dialectOf (some c) (some '"') none) := by
    simp only [dialectNames, List.mem_cons, Prod.mk.injEq, List.not_mem_nil, or_false] at h
    rcases h with ⟨rfl, rfl⟩ | ⟨rfl, rfl⟩ | ⟨rfl, rfl⟩ <;> rfl
  unfold mkReader makeSimpleDialect
  rw [hb]
  rfl

/-- **C100 (writer).**  Writing by name is writing with that `SimpleDialect`, except that the records of `excel` and
`excel-tab` end with a carriage return and a line feed, and `unix` quotes all cells. -/
theorem C100_writer (n : String) (c : Char) (h : (n, c) ∈ dialectNames) :
    mkWriter (.name n) = mkWriter (.simple (dialectOf (some c) (some '"') none))
      { lineterminator := some (some (if n = "unix" then ['\n'] else ['\r', '\n'])),
        quoting := some (if n = "unix" then .all else .minimal) } ∧
    ∃ wd, mkWriter (.name n) = .ok wd := by
  simp only [dialectNames, List.mem_cons, Prod.mk.injEq, List.not_mem_nil, or_false] at h
  rcases h with ⟨rfl, rfl⟩ | ⟨rfl, rfl⟩ | ⟨rfl, rfl⟩ <;> exact ⟨rfl, _, rfl⟩

/-- **C100 (other names)** raise `csv.Error` (which is not `clevercsv.Error`), from reader and writer alike. -/
theorem C100_unknown (n : String) (h : ∀ c, (n, c) ∉ dialectNames) (src : Source) (f : FmtParams) :
    (∃ m, mkReader src (.name n) f = .error (.csvError m)) ∧ ∃ m, mkWriter (.name n) f = .error (.csvError m) := by
  have hg : getDialect n = .error (.csvError "unknown dialect") := by
    unfold getDialect
    rw [if_neg, if_neg, if_neg] <;> rintro rfl
    · exact h ',' (by decide)
    · exact h '\t' (by decide)
    · exact h ',' (by decide)
  constructor
  · exact ⟨"unknown dialect", by simp only [mkReader, makeSimpleDialect, baseDialect, hg, bind, Except.bind]⟩
  · exact ⟨"unknown dialect", by simp only [mkWriter, makePythonDialect, hg, bind, Except.bind]⟩

/-- **C100 (round trip).**  Rows written by name are read back by the same name, or another one with the same delimiter. -/
theorem C100_round_trip (limit : Int) (hl : InLong limit) (nw nr : String) (c : Char) (hw : (nw, c) ∈ dialectNames)
    (hr : (nr, c) ∈ dialectNames) (rows : List (List Str)) (hn : ∀ row ∈ rows, ∀ s ∈ row, NUL ∉ s)
    (hfit : ∀ row ∈ rows, ∀ s ∈ row, (s.length + 2 : Int) ≤ limit) :
    ∃ wd text, mkWriter (.name nw) = .ok wd ∧ wd.writeRows rows = (text, none) ∧
      readText limit (.name nr) {} text = .ok rows := by
  have hm : makeSimpleDialect (.name nr) {} = .ok (dialectOf (some c) (some '"') none) := by
    simp only [dialectNames, List.mem_cons, Prod.mk.injEq, List.not_mem_nil, or_false] at hr
    rcases hr with ⟨rfl, rfl⟩ | ⟨rfl, rfl⟩ | ⟨rfl, rfl⟩ <;> rfl
  have key : ∀ wd : WDialect, mkWriter (.name nw) = .ok wd → wd.quoting ≠ .none → wd.doublequote = true →
      wd.quoting ≠ .none → RT wd (cfgOf (some c) (some '"') none limit false) →
      ∃ wd text, mkWriter (.name nw) = .ok wd ∧ wd.writeRows rows = (text, none) ∧
        readText limit (.name nr) {} text = .ok rows := by
    intro wd h1 h2 h3 h4 H
    have hw' : (wd.writeRows rows).2 = none := writeRows_ok h2 h3 rows
    refine ⟨wd, (wd.writeRows rows).1, h1, by rw [← hw'], ?_⟩
    exact read_back limit hl H _ hm rows hw' hn (fun _ _ _ _ h => absurd h h4) hfit
  simp only [dialectNames, List.mem_cons, Prod.mk.injEq, List.not_mem_nil, or_false] at hw
  rcases hw with ⟨rfl, rfl⟩ | ⟨rfl, rfl⟩ | ⟨rfl, rfl⟩
  · refine key ⟨',', some '"', none, true, ['\r', '\n'], .minimal⟩ rfl (by decide) rfl (by decide) ?_
    constructor <;> simp [cfgOf, isNL, NUL]
  · refine key ⟨'\t', some '"', none, true, ['\r', '\n'], .minimal⟩ rfl (by decide) rfl (by decide) ?_
    constructor <;> simp [cfgOf, isNL, NUL]
  · refine key ⟨',', some '"', none, true, ['\n'], .all⟩ rfl (by decide) rfl (by decide) ?_
    constructor <;> simp [cfgOf, isNL, NUL]

/-- A cell with its quotes doubled, between quotes. -/
def quotedCell (s : Str) : Str := '"' :: (s.flatMap (fun c => if c = '"' then ['"', '"'] else [c]) ++ ['"'])

/-- **C100 (unix).**  What `unix` writes for a row: every cell between quotes, whatever it contains. -/
theorem C100_unix_text (row : List Str) : ∃ wd, mkWriter (.name "unix") = .ok wd ∧
    wd.writeRow row = .ok ([','].intercalate (row.map quotedCell) ++ ['\n']) := by
  refine ⟨⟨',', some '"', none, true, ['\n'], .all⟩, rfl, ?_⟩
  obtain ⟨wd, hwd⟩ : ∃ wd : WDialect, wd = ⟨',', some '"', none, true, ['\n'], .all⟩ := ⟨_, rfl⟩
  rw [← hwd]
  have hc : ∀ s : Str, ∃ b, wd.writeChars s = .ok (s.flatMap (fun c => if c = '"' then ['"', '"'] else [c]), b) := by
    intro s
    induction s with
    | nil => exact ⟨false, rfl⟩
    | cons c s ih =>
      obtain ⟨b, ih⟩ := ih
      have : ∃ b', wd.writeChar c = .ok (if c = '"' then ['"', '"'] else [c], b') := by
        unfold WDialect.writeChar
        by_cases h1 : wd.special c = true
        · by_cases h2 : c = '"'
          · subst h2
            exact ⟨true, by rw [hwd] at h1 ⊢; simp [h1]⟩
          · exact ⟨true, by rw [hwd] at h1 ⊢; simp [h1, h2, Ne.symm h2]⟩
        · have h2 : c ≠ '"' := by
            rintro rfl
            exact h1 (by simp [hwd, WDialect.special])
          exact ⟨false, by simp [h1, h2]⟩
      obtain ⟨b', hb⟩ := this
      exact ⟨b' || b, by simp only [WDialect.writeChars, hb, ih, bind, Except.bind, pure, Except.pure, List.flatMap_cons]⟩
  have hf : ∀ s, wd.writeField s = .ok (quotedCell s) := by
    intro s
    obtain ⟨b, hb⟩ := hc s
    simp only [WDialect.writeField, hb, bind, Except.bind, pure, Except.pure, quotedCell]
    simp [hwd]
  have hfs : ∀ row : List Str, wd.writeFields row = .ok ([','].intercalate (row.map quotedCell)) := by
    intro row
    induction row with
    | nil => rfl
    | cons s row ih =>
      cases row with
      | nil => simp [WDialect.writeFields, hf, List.intercalate, List.intersperse]
      | cons t row =>
        simp only [WDialect.writeFields, hf, ih, bind, Except.bind, pure, Except.pure]
        simp [List.intercalate, hwd]
  unfold WDialect.writeRow
  simp only [hfs, bind, Except.bind, pure, Except.pure]
  rw [if_neg]
  · rw [hwd]
  rintro ⟨h1, h2⟩
  cases row with
  | nil => exact h2 rfl
  | cons s row => cases row <;> simp [List.intercalate, quotedCell] at h1

/-- A case: written as `unix`, read as `excel`. -/
example : (mkWriter (.name "unix")).toOption.map (fun wd => wd.writeRows [["a".toList, "b,\"c".toList], [[]], []]) =
    some ("\"a\",\"b,\"\"c\"\n\"\"\n\n".toList, none) ∧
    readText 100 (.name "excel") {} "\"a\",\"b,\"\"c\"\n\"\"\n\n".toList = .ok [["a".toList, "b,\"c".toList], [[]], []] := by
  decide +kernel

end Clever.Props
