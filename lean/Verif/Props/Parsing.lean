import Verif.Proofs.ParseApi
import Verif.Proofs.ParserMisc
import Verif.Proofs.SpecFacts

/-!
# Properties C04 - C13: parsing
-/

set_option linter.unusedSimpArgs false

namespace Clever.Props

open Clever Spec

/-! ## C04 Unquoted parsing is plain splitting -/

/-- **C04.**  Whatever the delimiter and in either mode: if all pieces fit the limit, the rows are
the lines of the text split at the delimiter, and a blank line gives an empty row. -/
theorem C04_unquoted_is_split (limit : Int) (hl : InLong limit) (d : Char) (strict : Bool) (t : Str)
    (hnul : NUL ∉ t) (hfit : ∀ l ∈ textLines t, ∀ p ∈ splitOn d l, (p.length : Int) ≤ limit) :
    parseString limit (dialectOf (some d) none none strict) t =
      ((textLines t).map (fun l => if l = [] then [] else splitOn d l), none) := by
  rw [parseString_eq _ _ _ _ hl]
  have hstrict : parseText (cfgOf (some d) none none limit strict) mkPlain t =
      parseText (cfgOf (some d) none none limit false) mkPlain t := by
    rw [parseText_eq_textRun, parseText_eq_textRun]
    exact textRun_strict (cfgOf (some d) none none limit strict) mkPlain rfl rfl t _
      (by simp [PObj.init]) (by simp [PObj.init])
  have hlines : records NUL false t = textLines t := records_textLines NUL t hnul
  have hn : ∀ l ∈ textLines t, NUL ∉ l := fun l hl' hx =>
    hnul (mem_records NUL NUL t false l (by rw [hlines]; exact hl') hx)
  rw [hstrict, parseText_fits _ _ _ rfl rfl hnul]
  · simp only [cfgOf, Option.getD_some, Option.getD_none, Spec.parse, hlines, List.map_map,
      Option.map_none, Prod.mk.injEq, and_true]
    apply List.map_congr_left
    intro l hl'
    simp only [Function.comp_apply, recordRow_splitOn d NUL l (hn l hl')]
    split
    · rfl
    · simp [mkCell, mkPlain, Function.comp_def]
  · simp only [cfgOf, Option.getD_some, Option.getD_none, hlines]
    intro l hl'
    rw [fits_splitOn limit d NUL l (hn l hl')]
    simp only [List.all_eq_true, decide_eq_true_eq]
    intro p hp
    have := hfit l hl' p hp
    omega

/-- A case of `C04_unquoted_is_split`: three line endings, a blank line, empty cells, and a quote that
is an ordinary character. -/
example : parseString 100 (dialectOf (some ',') none none) "a,,\"b\"\r\n\r,x\ny".toList =
    ([["a".toList, [], "\"b\"".toList], [], [[], "x".toList], ["y".toList]], none) := by
  rw [C04_unquoted_is_split 100 (by decide) ',' false _ (by decide) (by decide)]
  decide

/-- The pieces of a line determine it, and contain no delimiter: `splitOn` is plain splitting. -/
theorem C04_splitOn_spec (d : Char) (l : Str) :
    joinWith d (splitOn d l) = l ∧ ∀ p ∈ splitOn d l, d ∉ p :=
  ⟨joinWith_splitOn d l, not_mem_splitOn d l⟩

/-- The lines of a text, with suitable terminators, make up the text; only the last line may lack a
terminator and then it is not empty; no line contains a newline character. -/
theorem C04_textLines_spec (t : Str) (hnul : NUL ∉ t) :
    (∃ ps : List (Str × Str), ps.map Prod.fst = textLines t ∧ assemble ps = t ∧
      (∀ p ∈ ps.dropLast, IsTerm p.2) ∧
      (∀ p ∈ ps.getLast?, IsTerm p.2 ∨ (p.2 = [] ∧ p.1 ≠ []))) ∧
    (∀ l ∈ textLines t, ∀ c ∈ l, isNL c = false) := by
  have hlines : records NUL false t = textLines t := records_textLines NUL t hnul
  refine ⟨?_, ?_⟩
  · obtain ⟨ps, h1, h2, h3, h4, _, _⟩ := records_assemble NUL t.length t (Nat.le_refl _) false
    exact ⟨ps, by rw [h1, hlines], h2, h3, h4⟩
  · intro l hl c hc
    have hn : NUL ∉ l := fun hx => hnul (mem_records NUL NUL t false l (by rw [hlines]; exact hl) hx)
    obtain ⟨h1, h2⟩ := records_no_cut NUL t false
    rw [hlines] at h1 h2
    obtain ⟨a, b, rfl⟩ := List.append_of_mem hc
    have hodd : oddQuotes NUL a = false := by
      have : NUL ∉ a := fun h => hn (by simp [h])
      simp [oddQuotes, List.count_eq_zero_of_not_mem this]
    cases hnl : isNL c with
    | false => rfl
    | true =>
      cases hL : textLines t with
      | nil => rw [hL] at hl; simp at hl
      | cons x xs =>
        rw [hL] at hl h1 h2
        rcases List.mem_cons.1 hl with h | h
        · have := h1 x (by simp) a c b h.symm hnl
          rw [hodd] at this; simp at this
        · have := h2 _ (by simpa using h) a c b rfl hnl
          rw [hodd] at this; simp at this

/-- And if some piece does not fit, an error is raised. -/
theorem C04_limit_error (limit : Int) (hl : InLong limit) (d : Char) (t : Str)
    (hnul : NUL ∉ t)
    (h : ∃ l ∈ textLines t, ∃ p ∈ splitOn d l, limit.toNat < p.length) :
    (parseString limit (dialectOf (some d) none none) t).2 =
      some (.parse (.fieldLimit limit)) := by
  rw [parseString_eq _ _ _ _ hl, parseText_limited _ _ _ rfl rfl hnul]
  simp only [cfgOf, Option.getD_some, Option.getD_none]
  have hlines : records NUL false t = textLines t := records_textLines NUL t hnul
  have hn : ∀ l ∈ textLines t, NUL ∉ l := fun l hl' hx =>
    hnul (mem_records NUL NUL t false l (by rw [hlines]; exact hl') hx)
  rw [hlines]
  generalize textLines t = L at h hn
  clear hlines
  induction L with
  | nil => simp at h
  | cons r rs ih =>
    rw [limitedRows]
    by_cases hf : fits limit d NUL r = true
    · rw [if_pos hf]
      refine ih ?_ (fun l hl => hn l (by simp [hl]))
      obtain ⟨l, hl', p, hp, hlt⟩ := h
      rcases List.mem_cons.1 hl' with rfl | hl'
      · rw [fits_splitOn limit d NUL l (hn l (by simp))] at hf
        simp only [List.all_eq_true, decide_eq_true_eq] at hf
        have := hf p hp
        omega
      · exact ⟨l, hl', p, hp, hlt⟩
    · rw [if_neg hf]; rfl

example : (parseString 2 (dialectOf (some ',') none none) "a,bc\nabc,d".toList).2 =
    some (.parse (.fieldLimit 2)) :=
  C04_limit_error 2 (by decide) ',' _ (by decide) ⟨"abc,d".toList, by decide, "abc".toList, by decide⟩

/-! ## C05 Quoted parsing follows quote parity -/

/-- **C05.**  For every delimiter and quotechar: the rows are those of the parity specification
`Spec.parse`, whenever the cells fit the limit. -/
theorem C05_quote_parity (limit : Int) (hl : InLong limit) (d q : Char) (t : Str)
    (hnul : NUL ∉ t) (hfit : ∀ r ∈ records q false t, fits limit d q r = true) :
    parseString limit (dialectOf (some d) (some q) none) t =
      ((Spec.parse d q t).map (·.map Prod.fst), none) := by
  rw [parseString_eq _ _ _ _ hl, parseText_fits _ _ _ rfl rfl hnul (by simpa [cfgOf] using hfit)]
  rfl

/-- The same with the flags of `return_quoted=True`. -/
theorem C05_quote_parity_flags (limit : Int) (hl : InLong limit) (d q : Char) (t : Str)
    (hnul : NUL ∉ t) (hfit : ∀ r ∈ records q false t, fits limit d q r = true) :
    parseStringQuoted limit (dialectOf (some d) (some q) none) t = (Spec.parse d q t, none) := by
  rw [parseStringQuoted_eq _ _ _ _ hl,
    parseText_fits _ _ _ rfl rfl hnul (by simpa [cfgOf] using hfit)]
  have : ∀ L : List (List (Str × Bool)), L.map (·.map (mkCell mkQuoted)) = L := by
    intro L
    have h1 : (mkCell mkQuoted) = id := rfl
    simp [h1]
  simp [cfgOf, this]

/-- A case: a quoted delimiter, a quoted newline, doubled quotes, text after a closing quote, and
a quote in the middle of a cell. -/
example : parseStringQuoted 1000 (dialectOf (some ',') (some '"') none)
    "\"a,b\",\"c\nd\",\"e\"\"f\"\r\n\"g\"h,i\"j,k\"l\n".toList =
    ([[("a,b".toList, true), ("c\nd".toList, true), ("e\"f".toList, true)],
      [("\"g\"h".toList, false), ("i\"j,k\"l".toList, false)]], none) := by
  rw [C05_quote_parity_flags 1000 (by decide) ',' '"' _ (by decide)
    (fits_of_length _ _ _ _ (by decide))]
  decide

/-- If some cell does not fit the limit, the rows before that record are returned and then the field
limit error is raised. -/
theorem C05_limited (limit : Int) (hl : InLong limit) (d q : Char) (t : Str) (hnul : NUL ∉ t) :
    parseStringQuoted limit (dialectOf (some d) (some q) none) t =
      ((limitedRows limit d q (records q false t)).1,
       (limitedRows limit d q (records q false t)).2.map PyExc.parse) := by
  rw [parseStringQuoted_eq _ _ _ _ hl, parseText_limited _ _ _ rfl rfl hnul]
  have : ∀ L : List (List (Str × Bool)), L.map (·.map (mkCell mkQuoted)) = L := by
    intro L
    have h1 : (mkCell mkQuoted) = id := rfl
    simp [h1]
  simp [cfgOf, this]

/-- Where a record is cut into cells: the raw cells joined by the delimiter give the record; every
cell but the last has an even number of quotes; and every delimiter within a cell is preceded by
an odd number of quotes.  (These three facts determine the cells.) -/
theorem C05_cells_cut (d q : Char) (hdq : d ≠ q) (r : Str) :
    joinWith d (rawCells d q false r) = r ∧
    (∀ x ∈ (rawCells d q false r).dropLast, oddQuotes q x = false) ∧
    (∀ x ∈ rawCells d q false r, ∀ a b, x = a ++ d :: b → oddQuotes q a = true) := by
  refine ⟨joinWith_rawCells d q r false, ?_, ?_⟩
  · obtain ⟨x, xs, h1, h2, h3⟩ := rawCells_parity d q r false
    rw [h1]
    cases xs with
    | nil => simp
    | cons y ys =>
      intro z hz
      simp only [List.dropLast_cons_cons, List.mem_cons] at hz
      rcases hz with rfl | hz
      · exact h2 (by simp)
      · exact h3 z hz
  · obtain ⟨x, xs, h1, h2, h3⟩ := rawCells_no_cut d q hdq r false
    rw [h1]
    intro y hy
    rcases List.mem_cons.1 hy with rfl | hy
    · exact h2
    · exact h3 y hy

/-- Where a text is cut into records: the records with their terminators give the text; every record
that has a terminator has an even number of quotes; every newline within a record is preceded by
an odd number of quotes. -/
theorem C05_records_cut (q : Char) (t : Str) :
    (∃ ps : List (Str × Str), ps.map Prod.fst = records q false t ∧ assemble ps = t ∧
      (∀ p ∈ ps.dropLast, IsTerm p.2) ∧
      (∀ p ∈ ps.getLast?, IsTerm p.2 ∨ (p.2 = [] ∧ p.1 ≠ [])) ∧
      (∀ p ∈ ps, p.2 ≠ [] → oddQuotes q p.1 = false)) ∧
    (∀ r ∈ records q false t, ∀ a c b, r = a ++ c :: b → isNL c = true → oddQuotes q a = true) := by
  refine ⟨?_, ?_⟩
  · obtain ⟨ps, h1, h2, h3, h4, h5, h6⟩ := records_assemble q t.length t (Nat.le_refl _) false
    refine ⟨ps, h1, h2, h3, h4, ?_⟩
    intro p hp
    cases ps with
    | nil => simp at hp
    | cons x xs =>
      rcases List.mem_cons.1 hp with rfl | hp
      · exact h5 p (by simp)
      · exact h6 p (by simpa using hp)
  · obtain ⟨h1, h2⟩ := records_no_cut q t false
    intro r hr
    cases hL : records q false t with
    | nil => rw [hL] at hr; simp at hr
    | cons x xs =>
      rw [hL] at hr h1 h2
      rcases List.mem_cons.1 hr with rfl | hr
      · exact h1 r (by simp)
      · exact h2 r (by simpa using hr)

/-! ## C06 Parsing a text fails only for the documented reasons -/

/-- **C06.**  For every dialect and every limit: an exception of `parse_string` is one of: the
dialect is not acceptable (a component longer than one character, or a limit that does not fit a C
`long`); a NUL in the text; a field beyond the limit, which needs a text longer than the limit;
or one of the two errors of strict mode. -/
theorem C06_error_reasons (limit : Int) (d : SimpleDialect) (t : Str) (e : PyExc)
    (h : (parseString limit d t).2 = some e) :
    d.cfg limit = .error e ∨
    (e = .parse .nullByte ∧ NUL ∈ t) ∨
    (e = .parse (.fieldLimit limit) ∧ limit < t.length) ∨
    (d.strict = true ∧ (e = .parse .unexpectedEnd ∨ ∃ c q, e = .parse (.expectedAfter c q))) := by
  rw [parseString, parseData] at h
  cases hc : d.cfg limit with
  | error e' => rw [hc] at h; simp at h; subst h; exact Or.inl rfl
  | ok cfg =>
    rw [hc] at h
    simp only [Option.map_eq_some_iff] at h
    obtain ⟨pe, h1, rfl⟩ := h
    have hcfg : cfg.fieldLimit = limit ∧ cfg.strict = d.strict := by
      simp only [SimpleDialect.cfg, mkCfg, setLong, bind, Except.bind, pure, Except.pure] at hc
      repeat' split at hc
      all_goals simp at hc
      subst hc
      rename_i heq
      split at heq <;> simp at heq
      exact ⟨heq.symm, rfl⟩
    have := textRun_errors (cfg := cfg) (mk := mkPlain) t PObj.init 0 (Inv.init _ _)
      (by simp [PObj.init]) (by simp [PObj.init, pending]) (e := pe)
      (by rw [← parseText_eq_textRun]; exact h1)
    rw [hcfg.1, hcfg.2] at this
    rcases this with ⟨rfl, h2⟩ | ⟨rfl, h2⟩ | ⟨h3, rfl | rfl⟩
    · exact Or.inr (Or.inl ⟨rfl, h2⟩)
    · exact Or.inr (Or.inr (Or.inl ⟨rfl, by simpa using h2⟩))
    · exact Or.inr (Or.inr (Or.inr ⟨h3, Or.inl rfl⟩))
    · exact Or.inr (Or.inr (Or.inr ⟨h3, Or.inr ⟨_, _, rfl⟩⟩))

/-- The error "new-line character seen in unquoted field" never occurs for a text. -/
theorem C06_no_newline_error (limit : Int) (d : SimpleDialect) (t : Str) :
    (parseString limit d t).2 ≠ some (.parse .newlineInUnquoted) := by
  intro h
  rcases C06_error_reasons limit d t _ h with h | ⟨h, _⟩ | ⟨h, _⟩ | ⟨_, h | ⟨_, _, h⟩⟩
  · simp only [SimpleDialect.cfg, mkCfg, setLong, setChar, bind, Except.bind, pure,
      Except.pure] at h
    repeat' split at h
    all_goals simp_all
    all_goals
      rename_i heq
      repeat' split at heq
    all_goals simp_all
  all_goals simp at h

/-- A non-strict parse of a NUL-free text with a valid dialect always succeeds if the limit is at
least the length of the text. -/
theorem C06_success (limit : Int) (hl : InLong limit) (d q e : Option Char) (t : Str)
    (hnul : NUL ∉ t) (hlim : (t.length : Int) ≤ limit) :
    (parseString limit (dialectOf d q e) t).2 = none := by
  cases h : (parseString limit (dialectOf d q e) t).2 with
  | none => rfl
  | some ex =>
    rcases C06_error_reasons limit _ t ex h with h | ⟨_, h⟩ | ⟨_, h⟩ | ⟨h, _⟩
    · rw [dialectOf_cfg d q e false hl] at h; simp at h
    · exact absurd h hnul
    · omega
    · simp [dialectOf] at h

/-- A case of `C06_success` with an escapechar, an unterminated quote and all kinds of newlines. -/
example : (parseString 20 (dialectOf (some ',') (some '"') (some '\\')) "a\\,b\r\r\n,\"c\\\"\n".toList).2
    = none :=
  C06_success 20 (by decide) _ _ _ _ (by decide) (by decide)

/-- The errors do occur: a NUL, an oversized field, a strict dialect. -/
example : (parseString 20 (dialectOf (some ',') none none) ['a', NUL]).2 = some (.parse .nullByte) := by
  decide
example : (parseString 1 (dialectOf (some ',') none none) "ab".toList).2 =
    some (.parse (.fieldLimit 1)) := by decide
example : (parseString 9 (dialectOf (some ',') (some '"') none true) "\"ab".toList).2 =
    some (.parse .unexpectedEnd) := by decide
example : (parseString 9 (dialectOf (some ',') (some '"') none true) "\"a\"b".toList).2 =
    some (.parse (.expectedAfter ',' '"')) := by decide
/-- For lines that do not come from a text, the newline error is possible. -/
example : (parseData 9 (dialectOf (some ',') none none) mkPlain [.str "a\nb".toList]).2 =
    some (.parse .newlineInUnquoted) := by decide

/-! ## C07 No NUL and no oversized cell is ever returned -/

/-- **C07.**  For every dialect, every limit and every iterable of lines (also one that raises or
delivers other objects). -/
theorem C07_cells_bounded (limit : Int) (d : SimpleDialect) (items : List Item) :
    ∀ row ∈ (parseData limit d mkPlain items).1, ∀ cell ∈ row,
      NUL ∉ cell ∧ (cell.length : Int) ≤ max limit 0 := by
  intro row hrow cell hcell
  rw [parseData] at hrow
  cases hc : d.cfg limit with
  | error e => rw [hc] at hrow; simp at hrow
  | ok cfg =>
    rw [hc] at hrow
    have hcfg : cfg.fieldLimit = limit := by
      simp only [SimpleDialect.cfg, mkCfg, setLong, bind, Except.bind, pure, Except.pure] at hc
      repeat' split at hc
      all_goals simp at hc
      subst hc
      rename_i heq
      split at heq <;> simp at heq
      exact heq.symm
    have := parseRows_cells (cfg := cfg) (mk := mkPlain)
      (P := fun s : Str => NUL ∉ s ∧ s.length ≤ limit.toNat)
      (fun f b h1 h2 => ⟨fun h => h1 (mem_saveCell h),
        by rw [← hcfg]; exact Nat.le_trans (length_saveCell _ _ _) h2⟩) items row hrow cell hcell
    exact ⟨this.1, by omega⟩

/-- Some cells are returned, and one of them reaches the limit, before the error. -/
example : parseData 3 (dialectOf (some ',') (some '"') none) mkPlain
    [.str "abc,\"d\"\n".toList, .str ['x', NUL]] =
    ([["abc".toList, "d".toList]], some (.parse .nullByte)) := by decide

/-! ## C08 Reading is incremental and terminates -/

/-- **C08.**  A request for a row consumes at least one item of the input, unless there is none. -/
theorem C08_consumes (cfg : Cfg) (items : List Item) (h : items ≠ []) :
    ∃ used, used ≠ [] ∧ items = used ++ (nextRow cfg mkPlain items).2 := by
  obtain ⟨used, hu⟩ := nextRowFrom_suffix cfg mkPlain PObj.init items
  refine ⟨used, ?_, hu.symm⟩
  rintro rfl
  have := nextRowFrom_lt cfg mkPlain PObj.init items h
  rw [List.nil_append] at hu
  rw [hu] at this
  exact Nat.lt_irrefl _ this

/-- There are at most as many rows as lines.  (Iteration ends: `parseRows` is a total function that
satisfies `parseRows_eq`.) -/
theorem C08_rows_le_lines (cfg : Cfg) (items : List Item) :
    (parseRows cfg mkPlain items).1.length ≤ items.length := by
  have main : ∀ n (items : List Item), items.length ≤ n →
      (parseRows cfg mkPlain items).1.length ≤ items.length := by
    intro n
    induction n with
    | zero =>
      intro items h
      have : items = [] := by cases items <;> simp_all
      subst this; simp [parseRows_nil]
    | succ n ih =>
      intro items hlen
      by_cases hi : items = []
      · subst hi; simp [parseRows_nil]
      · have hlt := nextRowFrom_lt cfg mkPlain PObj.init items hi
        rw [← nextRow] at hlt
        rw [parseRows_eq]
        rcases hn : nextRow cfg mkPlain items with ⟨out, rest⟩
        rw [hn] at hlt
        simp only at hlt
        cases out with
        | stop => simp
        | error e => simp
        | row r =>
          have := ih rest (by omega)
          simp only [List.length_cons]; omega
  exact main items.length items (Nat.le_refl _)

/-- The iteration ends with StopIteration or an error: `parseRows` is what repeated calls give. -/
theorem C08_iteration (cfg : Cfg) (items : List Item) :
    parseRows cfg mkPlain items =
      match nextRow cfg mkPlain items with
      | (.stop, _) => ([], none)
      | (.error e, _) => ([], some e)
      | (.row r, rest) => (r :: (parseRows cfg mkPlain rest).1, (parseRows cfg mkPlain rest).2) := by
  rw [parseRows_eq]
  rcases nextRow cfg mkPlain items with ⟨_ | _ | _, _⟩ <;> rfl

/-- As long as the input is not exhausted, what a request returns does not depend on the lines that
have not been consumed. -/
theorem C08_incremental (cfg : Cfg) (items rest : List Item) (out : Outcome Str)
    (h : nextRow cfg mkPlain items = (out, rest)) (hr : rest ≠ []) :
    ∃ used, used ≠ [] ∧ items = used ++ rest ∧
      ∀ rest', nextRow cfg mkPlain (used ++ rest') = (out, rest') :=
  nextRowFrom_local cfg mkPlain items PObj.init h hr

example : nextRow (cfgOf (some ',') (some '"') none 9 false) mkPlain
    [.str "\"a\n".toList, .str "b\"\n".toList, .raise] =
    (.row ["a\nb".toList], [.raise]) := by decide

/-! ## C09 Record boundaries make parsing compositional -/

/-- The lines end at a record boundary: some number of requests, all successful, consume them
exactly, without touching what comes next. -/
def AtBoundary (cfg : Cfg) (a : List Item) (rows : List (List Str)) : Prop :=
  ∃ n, takeRows cfg mkPlain n (a ++ [.raise]) = some (rows, [.raise])

/-- **C09.** -/
theorem C09_compositional (cfg : Cfg) (a b : List Item) (rows : List (List Str))
    (h : AtBoundary cfg a rows) :
    parseRows cfg mkPlain a = (rows, none) ∧
    parseRows cfg mkPlain (a ++ b) =
      ((parseRows cfg mkPlain a).1 ++ (parseRows cfg mkPlain b).1, (parseRows cfg mkPlain b).2) := by
  obtain ⟨n, hn⟩ := h
  have key := takeRows_local cfg mkPlain n a [.raise] (by simp) hn
  have h0 : parseRows cfg mkPlain a = (rows, none) := by
    have := parseRows_takeRows cfg mkPlain n _ (key [])
    simpa [parseRows_nil] using this
  refine ⟨h0, ?_⟩
  rw [h0]
  exact parseRows_takeRows cfg mkPlain n _ (key b)

example : AtBoundary (cfgOf (some ',') (some '"') (some '\\') 99 true)
    [.str "a,b\\\n".toList, .str "c\n".toList, .str "\n".toList]
    [["a".toList, "b\nc".toList], []] := ⟨2, by decide⟩

/-- For texts without escapechar: if `a` ends in a newline at even quote parity and the break is
not in the middle of a CRLF, then the rows of `a ++ b` are those of `a` and those of `b`. -/
theorem C09_text (limit : Int) (hl : InLong limit) (d q : Char) (a b : Str)
    (hnul : NUL ∉ a ++ b) (hlim : ((a ++ b).length : Int) ≤ limit)
    (ha : oddQuotes q a = false) (hnl : ∃ c ∈ a.getLast?, isNL c = true) (hqnl : isNL q = false)
    (hcrlf : ¬(a.getLast? = some '\r' ∧ b.head? = some '\n')) :
    parseString limit (dialectOf (some d) (some q) none) (a ++ b) =
      ((parseString limit (dialectOf (some d) (some q) none) a).1 ++
        (parseString limit (dialectOf (some d) (some q) none) b).1, none) := by
  have hrec : records q false (a ++ b) = records q false a ++ records q false b := by
    have main : ∀ n (a : Str), a.length ≤ n → ∀ inQ, oddQuotes q a = inQ →
        (∃ c ∈ a.getLast?, isNL c = true) → ¬(a.getLast? = some '\r' ∧ b.head? = some '\n') →
        records q inQ (a ++ b) = records q inQ a ++ records q false b := by
      intro n
      induction n with
      | zero =>
        intro a h inQ _ hnl _
        have : a = [] := by cases a <;> simp_all
        subst this; simp at hnl
      | succ n ih =>
        intro a hlen inQ hodd hnl hcr
        cases a with
        | nil => simp at hnl
        | cons c rest =>
          have hlen' : rest.length ≤ n := by simpa using hlen
          rw [oddQuotes_cons] at hodd
          by_cases hr : rest = []
          · subst hr
            simp at hnl hcr
            have hcq : c ≠ q := by rintro rfl; rw [hqnl] at hnl; simp at hnl
            have hb : (c == q) = false := by simpa using hcq
            rw [hb] at hodd
            simp [oddQuotes] at hodd
            subst hodd
            simp only [isNL, Bool.or_eq_true, decide_eq_true_eq] at hnl
            rcases hnl with rfl | rfl
            · rw [List.cons_append, List.nil_append, records_cr q b (by simpa using hcr),
                records_cr q [] (by simp)]
              simp [records]
            · rw [List.cons_append, List.nil_append, records_lf, records_lf]
              simp [records]
          · have hlast : (c :: rest).getLast? = rest.getLast? := by
              cases rest with
              | nil => exact absurd rfl hr
              | cons x r => simp
            rw [hlast] at hnl hcr
            have hhead : (rest ++ b).head? = rest.head? := by
              cases rest with
              | nil => exact absurd rfl hr
              | cons x r => rfl
            have hodd' : oddQuotes q rest = (inQ ^^ (c == q)) := by
              rw [← hodd]; cases oddQuotes q rest <;> cases (c == q) <;> rfl
            rw [List.cons_append, records, records, hhead]
            split
            · rename_i hc
              have hb : (c == q) = false := by
                rw [hc.2.1]; simp only [beq_eq_false_iff_ne, ne_eq]
                rintro rfl; simp [isNL] at hqnl
              rw [hb, Bool.xor_false, hc.1] at hodd'
              exact ih rest hlen' false hodd' hnl hcr
            · split
              · rename_i hc
                have hb : (c == q) = false := by
                  simp only [beq_eq_false_iff_ne, ne_eq]
                  rintro rfl
                  rcases hc.2 with h | h <;> · rw [h] at hqnl; simp [isNL] at hqnl
                rw [hb, Bool.xor_false, hc.1] at hodd'
                rw [ih rest hlen' false hodd' hnl hcr]; simp
              · rw [ih rest hlen' _ hodd' hnl hcr]
                have := records_ne_nil q (inQ ^^ (c == q)) rest hr
                cases hrr : records q (inQ ^^ (c == q)) rest with
                | nil => exact absurd hrr this
                | cons x xs => simp [consHead]
    exact main a.length a (Nat.le_refl _) false ha hnl hcrlf
  have hlen : ((a ++ b).length : Int) = a.length + b.length := by simp
  rw [C05_quote_parity limit hl d q (a ++ b) hnul (fits_of_length _ _ _ _ hlim),
    C05_quote_parity limit hl d q a (fun h => hnul (by simp [h]))
      (fits_of_length _ _ _ _ (by omega)),
    C05_quote_parity limit hl d q b (fun h => hnul (by simp [h]))
      (fits_of_length _ _ _ _ (by omega))]
  simp [Spec.parse, hrec]

example : parseString 99 (dialectOf (some ',') (some '"') none)
    ("x,\"y\r\nz\"\r\n".toList ++ "u,v".toList) =
    ([["x".toList, "y\r\nz".toList], ["u".toList, "v".toList]], none) := by
  rw [C09_text 99 (by decide) ',' '"' _ _ (by decide) (by decide) (by decide) (by decide) (by decide)
    (by decide)]
  decide

/-! ## C10 `return_quoted` changes only the shape of cells -/

/-- **C10.**  Dropping the flags gives the rows without `return_quoted`; the exception, if any, is
the same. -/
theorem C10_same_cells (limit : Int) (d : SimpleDialect) (items : List Item) :
    parseData limit d mkPlain items =
      ((parseData limit d mkQuoted items).1.map (·.map Prod.fst),
       (parseData limit d mkQuoted items).2) := by
  rw [parseData, parseData]
  cases d.cfg limit with
  | error e => rfl
  | ok cfg =>
    have := parseRows_map cfg mkQuoted Prod.fst items
    have h : (fun s b => (mkQuoted s b).1) = mkPlain := rfl
    rw [h] at this
    simp [this]

/-- Without quotechar (`None` or the empty string), no cell is flagged as quoted. -/
theorem C10_no_quotechar (limit : Int) (d : SimpleDialect) (items : List Item)
    (hq : d.quotechar = none ∨ d.quotechar = some []) :
    ∀ row ∈ (parseData limit d mkQuoted items).1, ∀ cell ∈ row, cell.2 = false := by
  intro row hrow cell hcell
  rw [parseData] at hrow
  cases hc : d.cfg limit with
  | error e => rw [hc] at hrow; simp at hrow
  | ok cfg =>
    rw [hc] at hrow
    have hcq : cfg.quotechar = NUL := by
      simp only [SimpleDialect.cfg, mkCfg, bind, Except.bind, pure, Except.pure] at hc
      rcases hq with hq | hq <;>
      · rw [hq] at hc
        simp only [setChar] at hc
        repeat' split at hc
        all_goals simp at hc
        all_goals subst hc; rfl
    have key : ∀ f t, NUL ∉ f → (saveCell cfg.quotechar f t).2 = false := by
      intro f t hf
      have hs : startsWithChar f NUL = false := by
        cases f with
        | nil => rfl
        | cons a f => simp [startsWithChar]; rintro rfl; simp at hf
      simp [saveCell, hcq, quoteCond, hs]
    exact parseRows_cells (cfg := cfg) (mk := mkQuoted) (P := fun c => c.2 = false)
      (fun f t h1 _ => key f t h1) items row hrow cell hcell

/-- The flag is `True` for some cells if there is a quotechar. -/
example : parseData 9 (dialectOf (some ',') (some '"') none) mkQuoted [.str "\"a\",b\n".toList] =
    ([[("a".toList, true), ("b".toList, false)]], none) := by decide
example : parseData 9 (dialectOf (some ',') none none) mkQuoted [.str "\"a\",b\n".toList] =
    ([[("\"a\"".toList, false), ("b".toList, false)]], none) := by decide

/-! ## C11 No record is silently dropped -/

/-- **C11 is violated**: with an escapechar, a last line that ends in the escapechar at the start
of a cell is dropped, with all the cells before it. -/
theorem C11_no_record_dropped_violated :
    parseString 99 (dialectOf (some ',') (some '"') (some '|')) "x,y\na,|".toList =
      ([["x".toList, "y".toList]], none) := by decide

/-- **C11 (partial).**  Missing: texts whose last line ends in the escapechar.  In all other cases,
the parser reports the end of the input only if there was no line left. -/
theorem C11_no_record_dropped_partial (cfg : Cfg) (hns : cfg.strict = false) (items rest : List Item)
    (hesc : cfg.escapechar = NUL ∨
      ∀ l, items.getLast? = some (.str l) → l.getLast? ≠ some cfg.escapechar)
    (h : nextRow cfg mkPlain items = (.stop, rest)) : items = [] := by
  rcases nextRowFrom_stop hns (by simp [PObj.init]) (by simp [PObj.init]) (by simp [PObj.init]) h
    with h | ⟨l, h1, h2, h3⟩
  · exact h.1
  · rcases hesc with he | he
    · exact absurd he h3
    · exact absurd h2 (he l h1)

/-- A case with an unterminated quote, an escaped newline at the end of the input, and an empty
line. -/
example : parseRows (cfgOf (some ',') (some '"') (some '|') 99 false) mkPlain
    [.str "a,\"b|".toList, .str "\n".toList] = ([["a".toList, "b\n\n".toList]], none) := by decide

/-! ## C12 Strict mode accepts well-formed quoted data -/

/-- **C12 is violated**: in strict mode a correctly quoted cell is rejected, at the end of a line
and before a delimiter. -/
theorem C12_strict_accepts_quoted_violated :
    parseString 99 (dialectOf (some ',') (some '"') none true) "\"a,b\",c\r\n".toList =
      ([], some (.parse (.expectedAfter ',' '"'))) ∧
    parseString 99 (dialectOf (some ',') (some '"') none true) "\"a\"\n".toList =
      ([], some (.parse (.expectedAfter ',' '"'))) := by decide

/-- **C12 (partial).**  Missing: acceptance of quoted cells.  What holds: strict mode only adds
errors; if a strict parse succeeds then its result is the one of the non-strict parse. -/
theorem C12_strict_result_partial (limit : Int) (d : SimpleDialect) (items : List Item)
    (h : (parseData limit d mkPlain items).2 = none) :
    parseData limit { d with strict := false } mkPlain items = parseData limit d mkPlain items := by
  have hcfg : SimpleDialect.cfg { d with strict := false } limit =
      (d.cfg limit).map (fun c => { c with strict := false }) := by
    simp only [SimpleDialect.cfg, mkCfg, bind, Except.bind, pure, Except.pure]
    cases setChar "delimiter" d.delimiter with
    | error e => rfl
    | ok _ =>
      cases setChar "quotechar" d.quotechar with
      | error e => rfl
      | ok _ =>
        cases setChar "escapechar" d.escapechar with
        | error e => rfl
        | ok _ => cases setLong limit <;> rfl
  rw [parseData] at h
  rw [parseData, parseData, hcfg]
  cases hc : d.cfg limit with
  | error e => rfl
  | ok cfg =>
    rw [hc] at h
    simp only [Option.map_eq_none_iff] at h
    simp only [Except.map, parseRows_strict h]

/-- And texts that do not contain the quotechar are parsed in strict mode as in non-strict mode. -/
theorem C12_strict_unquoted_partial (limit : Int) (hl : InLong limit) (d q : Char) (t : Str)
    (hnul : NUL ∉ t) (hq : q ∉ t)
    (hfit : ∀ l ∈ textLines t, ∀ p ∈ splitOn d l, (p.length : Int) ≤ limit) :
    parseString limit (dialectOf (some d) (some q) none true) t =
      ((textLines t).map (fun l => if l = [] then [] else splitOn d l), none) := by
  rw [← C04_unquoted_is_split limit hl d true t hnul hfit, parseString_eq _ _ _ _ hl,
    parseString_eq _ _ _ _ hl]
  have := textRun_no_quote (cfgOf (some d) (some q) none limit true) (mkPlain) rfl t hq hnul PObj.init
    (by simp [PObj.init]) (by simp [PObj.init]) (by simp [PObj.init]) (by simp [PObj.init])
  rw [parseText_eq_textRun, this, parseText_eq_textRun]
  rfl

/-! ## C13 An unterminated quoted cell keeps its content -/

/-- **C13 is violated**: if the (decoded) content of the open cell ends in a quote, that quote is
lost; and with an escapechar a newline can be added. -/
theorem C13_open_cell_violated :
    parseString 99 (dialectOf (some ',') (some '"') none) "\"a\"\"".toList =
      ([["a".toList]], none) ∧
    parseString 99 (dialectOf (some ',') (some '"') (some '|')) "\"a|".toList =
      ([["a\n".toList]], none) := by decide

/-- **C13 (partial).**  Missing: contents that end in a quote, and dialects with an escapechar.
If the text is `before` (ending at even parity, and followed by a cell boundary) followed by a
quote and a `body` with an even number of quotes, then the last cell is the body with doubled
quotes halved, provided that it does not end in a quote. -/
theorem C13_open_cell_partial (d q : Char) (r body : Str) (cells : List Str)
    (hr : rawCells d q false r = cells ++ [q :: body])
    (hodd : oddQuotes q r = true) (hend : (undouble q true body).getLast? ≠ some q) :
    recordRow d q r = cells.map (cellValue q) ++ [(undouble q true body, true)] := by
  have hne : r ≠ [] := by rintro rfl; simp [oddQuotes] at hodd
  simp only [recordRow, hne, if_false, hodd, if_true, hr]
  simp only [List.dropLast_concat, List.getLast?_append, List.getLast?_singleton, Option.some_or,
    Option.map_some, Option.toList_some]
  congr 2
  simp only [openCellValue, undouble_false, beq_self_eq_true]
  cases hu : undouble q true body with
  | nil => simp [stripOuter, stripOpen]
  | cons a t =>
    rw [hu] at hend
    simp [stripOuter, stripOpen, hend]

/-- Together with C05 this describes the last row of a parsed text. -/
example : parseStringQuoted 99 (dialectOf (some ',') (some '"') none) "x\na,\"b\"\"c,d\ne".toList =
    ([[("x".toList, false)], [("a".toList, false), ("b\"c,d\ne".toList, true)]], none) := by
  rw [C05_quote_parity_flags 99 (by decide) ',' '"' _ (by decide) (fits_of_length _ _ _ _ (by decide))]
  have h : records '"' false "x\na,\"b\"\"c,d\ne".toList =
    ["x".toList, "a,\"b\"\"c,d\ne".toList] := by decide
  rw [Spec.parse, h]
  simp only [List.map_cons, List.map_nil]
  rw [C13_open_cell_partial ',' '"' "a,\"b\"\"c,d\ne".toList "b\"\"c,d\ne".toList ["a".toList]
    (by decide) (by decide) (by decide)]
  decide

end Clever.Props
