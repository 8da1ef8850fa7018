import Verif.Model.Lines

/-!
# Basic facts about the parser loop; the whole-text machine
-/

namespace Clever

variable {α : Type}

/-- Every call of `nextRowFrom` returns a suffix of the items. -/
theorem nextRowFrom_suffix (cfg : Cfg) (mk : Str → Bool → α) (o : PObj α) (items : List Item) :
    (nextRowFrom cfg mk o items).2 <:+ items := by
  induction items generalizing o with
  | nil => simp only [nextRowFrom]; split <;> (try split) <;> simp
  | cons it rest ih =>
    cases it with
    | raise => simp [nextRowFrom]
    | nonstr => simp [nextRowFrom]
    | str l =>
      simp only [nextRowFrom]
      split
      · simp
      · split
        · simp
        · exact (ih _).trans (List.suffix_cons _ _)

/-- Unless there is no input, a call of `nextRowFrom` consumes at least one item. -/
theorem nextRowFrom_lt (cfg : Cfg) (mk : Str → Bool → α) (o : PObj α) (items : List Item)
    (h : items ≠ []) : (nextRowFrom cfg mk o items).2.length < items.length := by
  cases items with
  | nil => exact absurd rfl h
  | cons it rest =>
    cases it with
    | raise => simp [nextRowFrom]
    | nonstr => simp [nextRowFrom]
    | str l =>
      simp only [nextRowFrom]
      split
      · simp
      · split
        · simp
        · have := (nextRowFrom_suffix cfg mk ‹_› rest).length_le
          simp only [List.length_cons]; omega

theorem nextRow_nil (cfg : Cfg) (mk : Str → Bool → α) : nextRow cfg mk [] = (.stop, []) := by
  simp [nextRow, nextRowFrom, PObj.init]

/-- Fuel is irrelevant as long as it exceeds the number of items. -/
theorem parseRowsAux_fuel (cfg : Cfg) (mk : Str → Bool → α) (n m : Nat) (items : List Item)
    (hn : items.length < n) (hm : items.length < m) :
    parseRowsAux cfg mk n items = parseRowsAux cfg mk m items := by
  induction n generalizing m items with
  | zero => omega
  | succ n ih =>
    cases m with
    | zero => omega
    | succ m =>
      simp only [parseRowsAux]
      cases items with
      | nil => simp [nextRow_nil]
      | cons it rest =>
        have hlt := nextRowFrom_lt cfg mk PObj.init (it :: rest) (by simp)
        rw [← nextRow] at hlt
        rcases hr : nextRow cfg mk (it :: rest) with ⟨out, rem⟩
        rw [hr] at hlt
        simp only at hlt
        cases out with
        | stop => rfl
        | error e => rfl
        | row r =>
          simp only
          rw [ih m rem (by omega) (by omega)]

/-- The defining equation of `parseRows`, without fuel. -/
theorem parseRows_eq (cfg : Cfg) (mk : Str → Bool → α) (items : List Item) :
    parseRows cfg mk items =
      match nextRow cfg mk items with
      | (.stop, _) => ([], none)
      | (.error e, _) => ([], some e)
      | (.row r, rest) => (r :: (parseRows cfg mk rest).1, (parseRows cfg mk rest).2) := by
  conv => lhs; unfold parseRows
  simp only [parseRowsAux]
  cases items with
  | nil => simp [nextRow_nil]
  | cons it rest =>
    have hlt := nextRowFrom_lt cfg mk PObj.init (it :: rest) (by simp)
    rw [← nextRow] at hlt
    rcases hr : nextRow cfg mk (it :: rest) with ⟨out, rem⟩
    rw [hr] at hlt
    simp only at hlt
    cases out with
    | stop => rfl
    | error e => rfl
    | row r =>
      simp only
      rw [show parseRowsAux cfg mk (it :: rest).length rem = parseRows cfg mk rem from
        parseRowsAux_fuel _ _ _ _ _ (by simpa using hlt) (by omega)]

/-- Rows produced from an intermediate parser object. -/
def runFrom (cfg : Cfg) (mk : Str → Bool → α) (o : PObj α) (items : List Item) :
    List (List α) × Option PErr :=
  match nextRowFrom cfg mk o items with
  | (.stop, _) => ([], none)
  | (.error e, _) => ([], some e)
  | (.row r, rest) => (r :: (parseRows cfg mk rest).1, (parseRows cfg mk rest).2)

theorem runFrom_init (cfg : Cfg) (mk : Str → Bool → α) (items : List Item) :
    runFrom cfg mk PObj.init items = parseRows cfg mk items := by
  rw [parseRows_eq]; rfl

/-- What happens at the end of the input, src/cparser.c:465-480. -/
def atEOF (cfg : Cfg) (mk : Str → Bool → α) (o : PObj α) : List (List α) × Option PErr :=
  if o.field ≠ [] ∨ o.state = .inQuotedField then
    if cfg.strict then ([], some .unexpectedEnd)
    else ([(saveField cfg mk o true).fields], none)
  else ([], none)

theorem parseRows_nil (cfg : Cfg) (mk : Str → Bool → α) : parseRows cfg mk [] = ([], none) := by
  rw [parseRows_eq, nextRow_nil]

theorem runFrom_nil (cfg : Cfg) (mk : Str → Bool → α) (o : PObj α) :
    runFrom cfg mk o [] = atEOF cfg mk o := by
  simp only [runFrom, nextRowFrom, atEOF]
  by_cases h : o.field ≠ [] ∨ o.state = .inQuotedField
  · rw [if_pos h, if_pos h]
    cases cfg.strict <;> simp [parseRows_nil]
  · rw [if_neg h, if_neg h]

/-- Emit a row if the parser is between records, otherwise carry on. -/
def emit (o : PObj α)
    (k : PObj α → List (List α) × Option PErr) : List (List α) × Option PErr :=
  if o.state = .startRecord then (o.fields :: (k PObj.init).1, (k PObj.init).2) else k o

theorem runFrom_str (cfg : Cfg) (mk : Str → Bool → α) (o : PObj α) (l : Str)
    (rest : List Item) :
    runFrom cfg mk o (.str l :: rest) =
      match feedLine cfg mk o l with
      | .error e => ([], some e)
      | .ok o' => emit o' (fun o => runFrom cfg mk o rest) := by
  simp only [runFrom, nextRowFrom]
  cases hf : feedLine cfg mk o l with
  | error e => rfl
  | ok o' =>
    simp only [emit]
    by_cases hs : o'.state = .startRecord
    · rw [if_pos hs, if_pos hs]
      simp only
      have := runFrom_init cfg mk rest
      simp only [runFrom] at this
      rw [this]
    · rw [if_neg hs, if_neg hs]

/-- The whole-text machine: the parser run directly over a text, without first splitting it into
lines.  `linesEnd` marks the positions at which the end-of-line pseudo character is fed. -/
def textRun (cfg : Cfg) (mk : Str → Bool → α) : PObj α → Str → List (List α) × Option PErr
  | o, [] => atEOF cfg mk o
  | o, c :: rest =>
    if c = NUL then ([], some .nullByte)
    else if lineEndAfter c rest || rest.isEmpty then
      match processChar cfg mk o c NUL with
      | .error e => ([], some e)
      | .ok o₁ =>
        match processChar cfg mk o₁ NUL NUL with
        | .error e => ([], some e)
        | .ok o₂ => emit o₂ (fun o => textRun cfg mk o rest)
    else
      match processChar cfg mk o c (rest.headD NUL) with
      | .error e => ([], some e)
      | .ok o₁ => textRun cfg mk o₁ rest

theorem linesUniv_head (s : Str) (l : Str) (ls : List Str) (h : linesUniv s = l :: ls) :
    l.head? = s.head? ∧ l ≠ [] := by
  cases s with
  | nil => simp [linesUniv] at h
  | cons c rest =>
    rw [linesUniv] at h
    split at h
    · simp at h; obtain ⟨rfl, _⟩ := h; simp
    · split at h <;> · simp at h; obtain ⟨rfl, _⟩ := h; simp

theorem linesUniv_eq_nil (s : Str) : linesUniv s = [] ↔ s = [] := by
  cases s with
  | nil => simp [linesUniv]
  | cons c rest =>
    rw [linesUniv]
    split
    · simp
    · split <;> simp

theorem headD_of_head? (l s : Str) (h : l.head? = s.head?) (d : Char) : l.headD d = s.headD d := by
  cases l <;> cases s <;> simp_all

/-- The whole-text machine computes the same rows as the line-based parser. -/
theorem runFrom_linesUniv (cfg : Cfg) (mk : Str → Bool → α) (s : Str) (o : PObj α) :
    runFrom cfg mk o (strItems (linesUniv s)) = textRun cfg mk o s := by
  induction s generalizing o with
  | nil => simp [linesUniv, strItems, runFrom_nil, textRun]
  | cons c rest ih =>
    rw [linesUniv, textRun]
    by_cases he : lineEndAfter c rest
    · simp only [he, Bool.true_or, if_true, strItems, List.map_cons, runFrom_str, feedLine,
        List.headD_nil]
      by_cases hc : c = NUL
      · simp [hc]
      · simp only [hc, if_false]
        cases processChar cfg mk o c NUL with
        | error e => rfl
        | ok o₁ =>
          simp only
          cases processChar cfg mk o₁ NUL NUL with
          | error e => rfl
          | ok o₂ =>
            simp only
            congr 1
            funext o
            exact ih o
    · simp only [he, Bool.false_or, Bool.false_eq_true, if_false]
      by_cases hr : rest = []
      · subst hr
        simp only [linesUniv, strItems, List.map_cons, List.map_nil, runFrom_str, feedLine,
          List.headD_nil, List.isEmpty_nil, if_true]
        by_cases hc : c = NUL
        · simp [hc]
        · simp only [hc, if_false]
          cases processChar cfg mk o c NUL with
          | error e => rfl
          | ok o₁ =>
            simp only
            cases processChar cfg mk o₁ NUL NUL with
            | error e => rfl
            | ok o₂ =>
              simp only [textRun, runFrom_nil]
      · have hne : linesUniv rest ≠ [] := by simpa [linesUniv_eq_nil] using hr
        cases hl : linesUniv rest with
        | nil => exact absurd hl hne
        | cons l ls =>
          have hh := (linesUniv_head rest l ls hl).1
          have hemp : rest.isEmpty = false := by simpa using hr
          simp only [strItems, List.map_cons, runFrom_str, feedLine, hemp,
            headD_of_head? l rest hh, Bool.false_eq_true, if_false]
          by_cases hc : c = NUL
          · simp [hc]
          · simp only [hc, if_false]
            cases processChar cfg mk o c (rest.headD NUL) with
            | error e => rfl
            | ok o₁ =>
              have := ih o₁
              rw [hl] at this
              simp only [strItems, List.map_cons, runFrom_str] at this
              exact this

theorem parseText_eq_textRun (cfg : Cfg) (mk : Str → Bool → α) (s : Str) :
    parseText cfg mk s = textRun cfg mk PObj.init s := by
  rw [parseText, ← runFrom_init, runFrom_linesUniv]

end Clever
