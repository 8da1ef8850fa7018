import Verif.Proofs.PlainTables
import Verif.Spec.QuotedTable

/-! # Tables with quoted cells: what the normal forms and the parser make of them -/

namespace Clever

open Spec

/-- The two quote characters. -/
def PlainQuote (q : Char) : Prop := q = '"' ∨ q = '\''

theorem plainQuote_elementary {q : Char} (h : PlainQuote q) : elementaryChar q = false := by
  rcases h with rfl | rfl <;> decide

theorem plainQuote_nl {q : Char} (h : PlainQuote q) : isNL q = false := by
  rcases h with rfl | rfl <;> decide

theorem delim_ne_quote {d q : Char} (hd : PlainDelim d) (hq : PlainQuote q) : d ≠ q := by
  rcases hd with rfl | rfl | rfl | rfl <;> rcases hq with rfl | rfl <;> decide

theorem mem_doubled {q c : Char} {s : Str} (h : c ∈ doubled q s) : c ∈ s := by
  obtain ⟨x, hx, hc⟩ := List.mem_flatMap.mp h
  split at hc
  · rename_i he
    simp only [List.mem_cons, List.not_mem_nil, or_false, or_self] at hc
    rw [hc, ← he]; exact hx
  · simp only [List.mem_singleton] at hc
    rw [hc]; exact hx

theorem doubled_not_mem {q : Char} {s : Str} (h : q ∉ s) : doubled q s = s := by
  induction s with
  | nil => rfl
  | cons c s ih =>
    simp only [List.mem_cons, not_or] at h
    have := ih h.2
    simp only [doubled, List.flatMap_cons] at this ⊢
    rw [this, if_neg (Ne.symm h.1)]
    rfl

/-! ## Cells that the cutting passes over -/

/-- A text with an even number of quotes before each of its delimiters counted from within: cutting after it is like
cutting from the start. -/
def Passes (d q : Char) (w : Str) : Prop := ∀ rest, rawCells d q false (w ++ rest) = appHead w (rawCells d q false rest)

theorem appHead_appHead {a b : Str} {L : List Str} : appHead a (appHead b L) = appHead (a ++ b) L := by
  cases L <;> simp [appHead]

theorem consHead_appHead {c : Char} {L : List Str} : consHead c L = appHead [c] L := by
  cases L <;> rfl

theorem Passes.append {d q : Char} {a b : Str} (ha : Passes d q a) (hb : Passes d q b) : Passes d q (a ++ b) := by
  intro rest
  rw [List.append_assoc, ha, hb, appHead_appHead]

theorem passes_char {d q c : Char} (hd : c ≠ d) (hq : c ≠ q) : Passes d q [c] := by
  intro rest
  have : (c == q) = false := by simpa using hq
  rw [List.singleton_append, rawCells, if_neg (by simp [hd]), this, Bool.xor_false, consHead_appHead]

theorem passes_plain {d q : Char} {s : Str} (hd : d ∉ s) (hq : q ∉ s) : Passes d q s := by
  induction s with
  | nil =>
    intro rest
    cases h : rawCells d q false rest with
    | nil => exact absurd h (rawCells_ne_nil _ _ _ _)
    | cons a b => simp [appHead, h]
  | cons c s ih =>
    simp only [List.mem_cons, not_or] at hd hq
    exact (passes_char (Ne.symm hd.1) (Ne.symm hq.1)).append (ih hd.2 hq.2)

theorem rawCells_doubled {d q : Char} (hdq : d ≠ q) {s rest : Str} :
    rawCells d q true (doubled q s ++ rest) = appHead (doubled q s) (rawCells d q true rest) := by
  induction s with
  | nil =>
    cases h : rawCells d q true rest with
    | nil => exact absurd h (rawCells_ne_nil _ _ _ _)
    | cons a b => simp [doubled, appHead, h]
  | cons c s ih =>
    have e : doubled q (c :: s) = (if c = q then [q, q] else [c]) ++ doubled q s := by simp [doubled]
    rw [e, List.append_assoc]
    by_cases h : c = q
    · rw [if_pos h, List.cons_append, rawCells, if_neg (by simp)]
      simp only [beq_self_eq_true, Bool.true_xor, Bool.not_true, List.singleton_append]
      rw [rawCells, if_neg (by simp)]
      simp only [beq_self_eq_true, Bool.false_xor]
      rw [ih, consHead_appHead, consHead_appHead, appHead_appHead, appHead_appHead]
      simp
    · have hb : (c == q) = false := by simpa using h
      rw [if_neg h, List.singleton_append, rawCells, if_neg (by simp), hb, Bool.xor_false, ih, consHead_appHead,
        appHead_appHead]

theorem passes_quoted {d q : Char} (hdq : d ≠ q) (s : Str) : Passes d q (q :: (doubled q s ++ [q])) := by
  intro rest
  rw [List.cons_append, rawCells, if_neg (by simp)]
  simp only [beq_self_eq_true, Bool.false_xor]
  rw [List.append_assoc, rawCells_doubled hdq, List.singleton_append, rawCells, if_neg (by simp)]
  simp only [beq_self_eq_true, Bool.true_xor, Bool.not_true]
  rw [consHead_appHead, consHead_appHead, appHead_appHead, appHead_appHead]
  simp

theorem Passes.one {d q : Char} {w : Str} (h : Passes d q w) : rawCells d q false w = [w] := by
  have := h []
  simpa [rawCells, appHead] using this

theorem rawCells_joinWith {d q : Char} (hdq : d ≠ q) : ∀ {ws : List Str}, ws ≠ [] → (∀ w ∈ ws, Passes d q w) →
    rawCells d q false (joinWith d ws) = ws
  | [], h, _ => absurd rfl h
  | [w], _, h => by rw [joinWith]; exact (h w (by simp)).one
  | w :: w' :: ws, _, h => by
    rw [joinWith, h w (by simp), rawCells, if_pos ⟨hdq, rfl, rfl⟩,
      rawCells_joinWith hdq (by simp) fun w hw => h w (List.mem_cons_of_mem _ hw)]
    simp [appHead]

theorem passes_joinWith {d d' q : Char} (hd : d ≠ d') (hdq : d ≠ q) : ∀ {ws : List Str},
    (∀ w ∈ ws, Passes d' q w) → Passes d' q (joinWith d ws)
  | [], _ => passes_plain (by simp [joinWith]) (by simp [joinWith])
  | [w], h => by rw [joinWith]; exact h w (by simp)
  | w :: w' :: ws, h => by
    rw [joinWith]
    refine (h w (by simp)).append ?_
    exact (passes_char hd hdq).append (passes_joinWith hd hdq fun w hw => h w (List.mem_cons_of_mem _ hw))

/-! ## Written cells -/

/-- What is needed of a written cell. -/
inductive WCell (q : Char) : Str → Prop
  | plain (s : Str) : s ≠ [] → (∀ c ∈ s, elementaryChar c = true) → WCell q s
  | quoted (s : Str) : (∀ c ∈ s, isNL c = false ∧ c ≠ NUL) → WCell q (q :: (doubled q s ++ [q]))

variable {d q : Char} {w : Str}

theorem WCell.passes (h : WCell q w) (hq : PlainQuote q) {d : Char} (hd : PlainDelim d) : Passes d q w := by
  cases h with
  | plain _ h0 h1 =>
    refine passes_plain (fun h => ?_) (fun h => ?_)
    · have := h1 _ h; rw [plainDelim_elementary hd] at this; cases this
    · have := h1 _ h; rw [plainQuote_elementary hq] at this; cases this
  | quoted s _ => exact passes_quoted (delim_ne_quote hd hq) s

theorem WCell.ne_nil (h : WCell q w) : w ≠ [] := by
  cases h with
  | plain _ h0 _ => exact h0
  | quoted => simp

theorem WCell.char (h : WCell q w) {c : Char} (hc : c ∈ w) (hq : PlainQuote q) :
    isNL c = false ∧ c ≠ NUL := by
  cases h with
  | plain _ _ h1 =>
    have := h1 _ hc
    exact ⟨elementary_nl this, by rintro rfl; revert this; decide⟩
  | quoted s h1 =>
    have hq' : isNL q = false ∧ q ≠ NUL := by rcases hq with rfl | rfl <;> decide
    simp only [List.mem_cons, List.mem_append, List.not_mem_nil, or_false] at hc
    rcases hc with rfl | hc | rfl
    · exact hq'
    · exact h1 _ (mem_doubled hc)
    · exact hq'

theorem WCell.last (h : WCell q w) (hq : PlainQuote q) (hd : PlainDelim d) : w.getLast? ≠ some d := by
  cases h with
  | plain _ _ h1 =>
    intro h
    have := h1 _ (List.mem_of_getLast? h)
    rw [plainDelim_elementary hd] at this
    cases this
  | quoted s _ =>
    rw [← List.cons_append, List.getLast?_concat]
    intro h
    exact delim_ne_quote hd hq (Option.some.inj h).symm

theorem WCell.head (h : WCell q w) : ∃ c x, w = c :: x ∧ (c = q ∨ elementaryChar c = true) := by
  cases h with
  | plain _ h0 h1 =>
    cases w with
    | nil => exact absurd rfl h0
    | cons c x => exact ⟨c, x, rfl, .inr (h1 c (by simp))⟩
  | quoted s _ => exact ⟨q, _, rfl, .inl rfl⟩

theorem okRow_doubled {q : Char} {s rest : Str} (h : OkRow q true rest) (hn : ∀ c ∈ s, isNL c = false) (hq : isNL q = false) :
    OkRow q true (doubled q s ++ rest) := by
  induction s with
  | nil => simpa [doubled] using h
  | cons c s ih =>
    have e : doubled q (c :: s) = (if c = q then [q, q] else [c]) ++ doubled q s := by simp [doubled]
    have ih := ih fun c hc => hn c (List.mem_cons_of_mem _ hc)
    rw [e, List.append_assoc]
    by_cases hc : c = q
    · rw [if_pos hc]
      refine ⟨.inl rfl, .inr hq, ?_⟩
      simpa using ih
    · have hb : (c == q) = false := by simpa using hc
      rw [if_neg hc]
      refine ⟨.inl rfl, ?_⟩
      rw [hb]
      simpa using ih

theorem WCell.okRow (h : WCell q w) (hq : PlainQuote q) : OkRow q false w := by
  cases h with
  | plain _ _ h1 =>
    refine okRow_plain (fun h => ?_) fun c hc => elementary_nl (h1 c hc)
    have := h1 _ h; rw [plainQuote_elementary hq] at this; cases this
  | quoted s h1 =>
    refine ⟨.inr (plainQuote_nl hq), ?_⟩
    simp only [beq_self_eq_true, Bool.false_xor]
    exact okRow_doubled ⟨.inl rfl, by simp [OkRow]⟩ (fun c hc => (h1 c hc).1) (plainQuote_nl hq)

theorem undouble_doubled {q : Char} {s : Str} : undouble q true (doubled q s ++ [q]) = s ++ [q] := by
  induction s with
  | nil => simp [doubled, undouble]
  | cons c s ih =>
    have e : doubled q (c :: s) = (if c = q then [q, q] else [c]) ++ doubled q s := by simp [doubled]
    rw [e, List.append_assoc]
    by_cases hc : c = q
    · subst hc
      rw [if_pos rfl, List.cons_append, List.singleton_append, undouble_true_qq, ih]
      rfl
    · rw [if_neg hc, List.singleton_append, undouble_true_ne _ _ _ hc, ih]
      rfl

/-! ## Rows -/

variable {ws : List Str}

/-- A row of at least two written cells. -/
structure WRow (q : Char) (ws : List Str) : Prop where
  two : 2 ≤ ws.length
  cells : ∀ w ∈ ws, WCell q w

theorem WRow.ne_nil (h : WRow q ws) : ws ≠ [] := by
  rintro rfl; simpa using h.two

theorem WRow.line_ne (h : WRow q ws) : joinWith d ws ≠ [] := by
  intro h0
  have := delim_mem_joinWith (d := d) h.two
  rw [h0] at this
  simp at this

theorem WRow.last (h : WRow q ws) (hq : PlainQuote q) {d d' : Char} (hd : PlainDelim d) :
    (joinWith d' ws).getLast? ≠ some d := by
  have : ∀ ws : List Str, ws ≠ [] → (∀ w ∈ ws, WCell q w) → (joinWith d' ws).getLast? ≠ some d := by
    intro ws
    induction ws with
    | nil => intro h; exact absurd rfl h
    | cons w ws ih =>
      intro _ hc
      cases ws with
      | nil => rw [joinWith]; exact (hc w (by simp)).last hq hd
      | cons w' ws =>
        have ih := ih (by simp) fun w hw => hc w (List.mem_cons_of_mem _ hw)
        rw [joinWith, List.getLast?_append, List.getLast?_cons]
        cases hl : (joinWith d' (w' :: ws)).getLast? with
        | none =>
          rw [List.getLast?_eq_none_iff] at hl
          exfalso
          obtain ⟨c, x, h1, -⟩ := (hc w' (by simp)).head
          cases ws <;> simp [joinWith, h1] at hl
        | some c =>
          rw [hl] at ih
          simpa using ih
  exact this ws h.ne_nil h.cells

theorem WRow.split (h : WRow q ws) (hq : PlainQuote q) (hd : PlainDelim d) :
    splitRow (joinWith d ws) [d] [q] = ws := by
  rw [splitRow_of_last (delim_ne_quote hd hq) (h.last hq hd)]
  exact rawCells_joinWith (delim_ne_quote hd hq) h.ne_nil fun w hw => (h.cells w hw).passes hq hd

theorem WRow.split_other (h : WRow q ws) (hq : PlainQuote q) (hd : PlainDelim d) {d' : Char} (hd' : PlainDelim d')
    (hne : d ≠ d') : splitRow (joinWith d ws) [d'] [q] = [joinWith d ws] := by
  rw [splitRow_of_last (delim_ne_quote hd' hq) (h.last hq hd')]
  exact (passes_joinWith hne (delim_ne_quote hd hq) fun w hw => (h.cells w hw).passes hq hd').one

theorem WRow.head (h : WRow q ws) : ∃ c x, joinWith d ws = c :: x ∧ (c = q ∨ elementaryChar c = true) := by
  match ws, h.two with
  | w :: w' :: ws, _ =>
    obtain ⟨c, x, rfl, h2⟩ := (h.cells w (by simp)).head
    exact ⟨c, x ++ d :: joinWith d (w' :: ws), rfl, h2⟩

theorem rawCells_head {d q c : Char} {x : Str} (hc : c ≠ d) :
    ∃ y ys, rawCells d q false (c :: x) = (c :: y) :: ys := by
  rw [rawCells, if_neg (by simp [hc])]
  cases h : rawCells d q (false ^^ (c == q)) x with
  | nil => exact absurd h (rawCells_ne_nil _ _ _ _)
  | cons a b => exact ⟨a, b, rfl⟩

/-- A piece at the start of the first cell in quotes, if the cutting does not know about these quotes. -/
theorem quoted_piece {d q q' : Char} (hd : PlainDelim d) (hq : PlainQuote q) (hq' : q' ≠ q)
    (he : elementaryChar q' = false) (hdq' : d ≠ q') : ∀ {ws : List Str},
    (∀ w ∈ ws, WCell q w) → (∃ w ∈ ws, ∃ x, w = q :: x) →
    ∃ p ∈ rawCells d q' false (joinWith d ws), ∃ x, p = q :: x
  | [], _, h => by simp at h
  | w :: ws, hc, h => by
    have hqd : q ≠ d := (delim_ne_quote hd hq).symm
    by_cases hw : ∃ x, w = q :: x
    · obtain ⟨x, rfl⟩ := hw
      obtain ⟨y, hy⟩ : ∃ y, joinWith d ((q :: x) :: ws) = q :: y := by
        cases ws with
        | nil => exact ⟨x, rfl⟩
        | cons w' ws => exact ⟨x ++ d :: joinWith d (w' :: ws), rfl⟩
      obtain ⟨z, zs, hz⟩ := rawCells_head (d := d) (q := q') (c := q) (x := y) hqd
      rw [hy, hz]
      exact ⟨q :: z, by simp, z, rfl⟩
    · have hws : ∃ w ∈ ws, ∃ x, w = q :: x := by
        obtain ⟨w', h1, h2⟩ := h
        rcases List.mem_cons.mp h1 with rfl | h1
        · exact absurd h2 hw
        · exact ⟨w', h1, h2⟩
      have ih := quoted_piece hd hq hq' he hdq' (ws := ws) (fun w hw => hc w (List.mem_cons_of_mem _ hw)) hws
      cases ws with
      | nil => simp at hws
      | cons w' ws =>
        cases hc w (by simp) with
        | quoted s _ => exact absurd ⟨_, rfl⟩ hw
        | plain _ h0 h1 =>
          have hp : Passes d q' w := by
            refine passes_plain (fun h => ?_) (fun h => ?_)
            · have := h1 _ h; rw [plainDelim_elementary hd] at this; cases this
            · have := h1 _ h; rw [he] at this; cases this
          rw [joinWith, hp, rawCells, if_pos ⟨hdq', rfl, rfl⟩]
          obtain ⟨p, hp1, hp2⟩ := ih
          exact ⟨p, by simp only [appHead]; exact List.mem_cons_of_mem _ hp1, hp2⟩

/-! ## The tests of the normal forms -/

/-- A table of written cells. -/
structure WTable (q : Char) (W : List (List Str)) : Prop where
  rows : W ≠ []
  row : ∀ r ∈ W, WRow q r
  rect : Rect W
  inQuotes : ∃ r ∈ W, ∃ w ∈ r, ∃ x, w = q :: x

theorem not_elementary {c : Char} {p : Str} (hc : c ∈ p) (he : elementaryChar c = false) : isElementary p = false := by
  unfold isElementary
  rw [Bool.and_eq_false_iff]
  right
  rw [Bool.eq_false_iff]
  intro h
  rw [List.all_eq_true] at h
  rw [h c hc] at he
  cases he

theorem not_quoted {c q : Char} {x : Str} (h : c ≠ q) : isQuotedCell (c :: x) [q] = false := by
  unfold isQuotedCell
  simp [h]

theorem form1_cell {rows : List Str} {delim quotechar : Str} (h : isForm1 rows delim quotechar = true) {row : Str}
    (hr : row ∈ rows) : (splitRow row delim quotechar).length ≠ 1 ∧
      ∀ p ∈ splitRow row delim quotechar, isQuotedCell p quotechar = true := by
  simp only [isForm1, Bool.and_eq_true, List.all_eq_true, decide_eq_true_eq] at h
  exact ⟨(h.2 row hr).1, fun p hp => ((h.2 row hr).2 p hp).1.2⟩

theorem form3_cell {rows : List Str} {delim quotechar : Str} (h : isForm3 rows delim quotechar = true) {row : Str}
    (hr : row ∈ rows) : (splitRow row delim quotechar).length ≠ 1 ∧
      ∀ p ∈ splitRow row delim quotechar, isQuotedCell p quotechar = true ∨ isElementary p = true := by
  simp only [isForm3, Bool.and_eq_true, List.all_eq_true, decide_eq_true_eq] at h
  refine ⟨(h.2 row hr).1, fun p hp => ?_⟩
  have := ((h.2 row hr).2 p hp).2
  split at this
  · exact .inl this
  · exact .inr this

theorem form2_cell {rows : List Str} {delim quotechar : Str} (h : isForm2 rows delim quotechar = true) {row : Str}
    (hr : row ∈ rows) : ∀ p ∈ splitRow row delim quotechar, isAnyPartialQuotedCell p = false ∧
      (p = [] ∨ isElementary p = true) := by
  simp only [isForm2, Bool.and_eq_true, List.all_eq_true, decide_eq_true_eq, Bool.not_eq_true', Bool.or_eq_true,
    List.isEmpty_iff] at h
  exact fun p hp => ⟨((h.2 row hr).2 p hp).1.2, ((h.2 row hr).2 p hp).2⟩

theorem form5_row {rows : List Str} {delim quotechar : Str} (h : isForm5 rows delim quotechar = true) :
    (∀ row ∈ rows, isQuotedCell row quotechar = true) ∧ isForm2 (rows.map inner) delim quotechar = true := by
  simp only [isForm5, Bool.and_eq_true, List.all_eq_true, decide_eq_true_eq] at h
  exact ⟨fun row hr => (h.1.2 row hr).2, h.2⟩

variable {W : List (List Str)}

theorem WTable.line (h : WTable q W) (d : Char) : ∃ r ∈ W, WRow q r ∧ joinWith d r ∈ W.map (joinWith d) := by
  cases hW : W with
  | nil => exact absurd hW h.rows
  | cons r W' => exact ⟨r, by simp, h.row r (by rw [hW]; simp), by simp⟩

theorem WTable.not_form2 (h : WTable q W) (hq : PlainQuote q) (hd : PlainDelim d) {d' : Char} (hd' : PlainDelim d') :
    isForm2 (W.map (joinWith d)) [d'] [] = false := by
  rw [Bool.eq_false_iff]
  intro hf
  by_cases hne : d' = d
  · subst hne
    obtain ⟨r, hr, hw⟩ := h.inQuotes
    have hN : NUL ∉ joinWith d' r := by
      intro hm
      rcases mem_joinWith hm with h' | ⟨w, hw, h'⟩
      · rcases hd with rfl | rfl | rfl | rfl <;> revert h' <;> decide
      · exact (((h.row r hr).cells w hw).char h' hq).2 rfl
    obtain ⟨p, hp, x, rfl⟩ := quoted_piece hd hq (q' := NUL) (by rcases hq with rfl | rfl <;> decide) (by decide)
      (by rcases hd with rfl | rfl | rfl | rfl <;> decide) (h.row r hr).cells hw
    have := (form2_cell hf (List.mem_map_of_mem hr) (q :: x) (by rw [splitRow_nil, ← rawCells_splitOn _ _ _ hN]; exact hp)).1
    rcases hq with rfl | rfl <;> simp [isAnyPartialQuotedCell] at this
  · obtain ⟨r, hr, hw, hl⟩ := h.line d
    have hm := delim_mem_joinWith (d := d) hw.two
    rw [← joinWith_splitOn d' (joinWith d r)] at hm
    rcases mem_joinWith hm with h' | ⟨p, hp, h'⟩
    · exact hne h'.symm
    · rcases (form2_cell hf hl p (by rw [splitRow_nil]; exact hp)).2 with h0 | h0
      · rw [h0] at h'; simp at h'
      · rw [not_elementary h' (plainDelim_elementary hd)] at h0; cases h0

/-- The first piece of a line. -/
theorem first_piece {c d q : Char} {x : Str} (hdq : d ≠ q) (hc : c ≠ d) :
    ∃ y, (c :: y) ∈ splitRow (c :: x) [d] [q] := by
  obtain ⟨y, ys, hy⟩ := rawCells_head (d := d) (q := q) (c := c) (x := x) hc
  refine ⟨y, ?_⟩
  rcases splitRow_eq hdq (c :: x) with h1 | ⟨-, h1⟩
  · rw [h1, hy]; simp
  · rw [h1, hy]; exact mem_dropEmptyLast (by simp) (by simp)

theorem WTable.not_other_quote (h : WTable q W) (hq : PlainQuote q) (hd : PlainDelim d) {d' q' : Char}
    (hd' : PlainDelim d') (hq' : PlainQuote q') (hne : q' ≠ q) :
    isForm1 (W.map (joinWith d)) [d'] [q'] = false ∧ isForm3 (W.map (joinWith d)) [d'] [q'] = false ∧
      isForm5 (W.map (joinWith d)) [d'] [q'] = false := by
  obtain ⟨r, hr, hw, hl⟩ := h.line d
  obtain ⟨c, x, hx, hc⟩ := hw.head (d := d)
  have hcq : c ≠ q' := by
    rintro rfl
    rcases hc with rfl | hc
    · exact hne rfl
    · rw [plainQuote_elementary hq'] at hc; cases hc
  have hcd : c ≠ d' := by
    rintro rfl
    rcases hc with rfl | hc
    · exact delim_ne_quote hd' hq rfl
    · rw [plainDelim_elementary hd'] at hc; cases hc
  have hdq' := delim_ne_quote hd' hq'
  obtain ⟨y, hy⟩ := first_piece (x := x) hdq' hcd
  rw [← hx] at hy
  refine ⟨?_, ?_, ?_⟩
  · rw [Bool.eq_false_iff]
    intro hf
    have := (form1_cell hf hl).2 _ hy
    rw [not_quoted hcq] at this
    cases this
  · rw [Bool.eq_false_iff]
    intro hf
    by_cases hdd : d' = d
    · subst hdd
      obtain ⟨r, hr, hws⟩ := h.inQuotes
      obtain ⟨p, hp, x, rfl⟩ := quoted_piece hd hq hne (plainQuote_elementary hq') hdq' (h.row r hr).cells hws
      rcases (form3_cell hf (List.mem_map_of_mem hr)).2 (q :: x)
        (by rw [splitRow_of_last hdq' ((h.row r hr).last hq hd)]; exact hp) with h' | h'
      · rw [not_quoted (Ne.symm hne)] at h'; cases h'
      · rw [not_elementary (c := q) (by simp) (plainQuote_elementary hq)] at h'; cases h'
    · -- the first piece contains the delimiter
      match r, hw with
      | w :: w' :: r, hw =>
        cases hw.cells w (by simp) with
        | quoted s _ =>
          have : c = q := by
            rw [joinWith] at hx
            simp only [List.cons_append, List.cons.injEq] at hx
            exact hx.1.symm
          subst this
          rcases (form3_cell hf hl).2 _ hy with h' | h'
          · rw [not_quoted hcq] at h'; cases h'
          · rw [not_elementary (c := c) (by simp) (plainQuote_elementary hq)] at h'; cases h'
        | plain _ h0 h1 =>
          have hp : Passes d' q' (w ++ [d]) := by
            refine passes_plain (fun h => ?_) (fun h => ?_) <;> rcases List.mem_append.mp h with h | h
            · have := h1 _ h; rw [plainDelim_elementary hd'] at this; cases this
            · simp at h; exact hdd h
            · have := h1 _ h; rw [plainQuote_elementary hq'] at this; cases this
            · simp at h; exact delim_ne_quote hd hq' h.symm
          have hs := splitRow_of_last hdq' (hw.last hq hd' (d' := d))
          rw [joinWith, List.append_cons, hp] at hs
          cases ht : rawCells d' q' false (joinWith d (w' :: r)) with
          | nil => exact absurd ht (rawCells_ne_nil _ _ _ _)
          | cons z zs =>
            rw [ht, appHead] at hs
            have hmem : w ++ [d] ++ z ∈ splitRow (joinWith d (w :: w' :: r)) [d'] [q'] := by
              rw [joinWith, List.append_cons, hs]; simp
            rcases (form3_cell hf hl).2 _ hmem with h' | h'
            · cases w with
              | nil => exact absurd rfl h0
              | cons a w =>
                have ha := h1 a (by simp)
                rw [List.cons_append, List.cons_append, not_quoted ?_] at h'
                · cases h'
                · rintro rfl; rw [plainQuote_elementary hq'] at ha; cases ha
            · rw [not_elementary (c := d) (by simp) (plainDelim_elementary hd)] at h'; cases h'
      | [w], hw => have := hw.two; simp at this
      | [], hw => have := hw.two; simp at this
  · rw [Bool.eq_false_iff]
    intro hf
    have := (form5_row hf).1 _ hl
    rw [hx, not_quoted hcq] at this
    cases this

theorem WTable.not_other_delim (h : WTable q W) (hq : PlainQuote q) (hd : PlainDelim d) {d' : Char}
    (hd' : PlainDelim d') (hne : d' ≠ d) :
    isForm1 (W.map (joinWith d)) [d'] [q] = false ∧ isForm3 (W.map (joinWith d)) [d'] [q] = false ∧
      isForm5 (W.map (joinWith d)) [d'] [q] = false := by
  obtain ⟨r, hr, hw, hl⟩ := h.line d
  have hs := hw.split_other hq hd hd' (Ne.symm hne)
  refine ⟨?_, ?_, ?_⟩
  · rw [Bool.eq_false_iff]
    intro hf
    have := (form1_cell hf hl).1
    rw [hs] at this
    simp at this
  · rw [Bool.eq_false_iff]
    intro hf
    have := (form3_cell hf hl).1
    rw [hs] at this
    simp at this
  · rw [Bool.eq_false_iff]
    intro hf
    obtain ⟨h1, h2⟩ := form5_row hf
    have hm := delim_mem_joinWith (d := d) hw.two
    have hdq := delim_ne_quote hd hq
    rw [quotedCell_shape (h1 _ hl)] at hm
    have hm' : d ∈ inner (joinWith d r) := by
      simpa [hdq] using hm
    obtain ⟨p, hp, hdp⟩ := mem_splitRow (delim_ne_quote hd' hq) hm' (Ne.symm hne)
    rcases (form2_cell h2 (List.mem_map_of_mem hl) p hp).2 with h' | h'
    · rw [h'] at hdp; simp at hdp
    · rw [not_elementary hdp (plainDelim_elementary hd)] at h'; cases h'

theorem WTable.same_length (h : WTable q W) (hq : PlainQuote q) (hd : PlainDelim d) :
    everyRowSameLength (W.map (joinWith d)) [d] [q] = true := by
  unfold everyRowSameLength
  cases hW : W with
  | nil => exact absurd hW h.rows
  | cons r0 W' =>
    simp only [List.map_cons]
    rw [List.all_eq_true]
    intro l hl
    rw [← List.map_cons, ← hW] at hl
    obtain ⟨r, hr, rfl⟩ := List.mem_map.mp hl
    have hr0 : r0 ∈ W := by rw [hW]; simp
    rw [Bool.and_eq_true]
    refine ⟨isInfixOf_of_mem (delim_mem_joinWith (h.row r hr).two), ?_⟩
    rw [(h.row r hr).split hq hd, (h.row r0 hr0).split hq hd]
    simpa using h.rect r hr r0 hr0

/-- Form 1: all cells are in quotes. -/
theorem WTable.form1 (h : WTable q W) (hq : PlainQuote q) (hd : PlainDelim d)
    (hall : ∀ r ∈ W, ∀ w ∈ r, ∃ s : Str, w = q :: (s ++ [q]) ∧ q ∉ s) :
    isForm1 (W.map (joinWith d)) [d] [q] = true := by
  unfold isForm1
  rw [Bool.and_eq_true]
  refine ⟨h.same_length hq hd, ?_⟩
  rw [List.all_eq_true]
  intro l hl
  obtain ⟨r, hr, rfl⟩ := List.mem_map.mp hl
  simp only [(h.row r hr).split hq hd, Bool.and_eq_true, List.all_eq_true, decide_eq_true_eq]
  refine ⟨by have := (h.row r hr).two; omega, fun w hw => ?_⟩
  obtain ⟨s, rfl, hs⟩ := hall r hr w hw
  refine ⟨⟨rfl, ?_⟩, ?_⟩
  · unfold isQuotedCell
    rw [← List.cons_append, List.getLast?_concat]
    simp
  · have : inner (q :: (s ++ [q])) = s := by simp [inner]
    rw [this, isInfixOf_single hs]
    rfl

/-- Form 3: no cell is empty. -/
theorem WTable.form3 (h : WTable q W) (hq : PlainQuote q) (hd : PlainDelim d) (htwo : 2 ≤ W.length)
    (hall : ∀ r ∈ W, ∀ w ∈ r, isElementary w = true ∨ ∃ s : Str, w = q :: (s ++ [q]) ∧ s ≠ []) :
    isForm3 (W.map (joinWith d)) [d] [q] = true := by
  unfold isForm3
  rw [Bool.and_eq_true, Bool.and_eq_true]
  refine ⟨⟨h.same_length hq hd, by simp; omega⟩, ?_⟩
  rw [List.all_eq_true]
  intro l hl
  obtain ⟨r, hr, rfl⟩ := List.mem_map.mp hl
  simp only [(h.row r hr).split hq hd, Bool.and_eq_true, List.all_eq_true, decide_eq_true_eq]
  refine ⟨by have := (h.row r hr).two; omega, fun w hw => ?_⟩
  have hquoted : ∀ (c : Char), PlainQuote c → isElementary w = true → isQuotedCell w [c] = false := by
    intro c hc he
    simp only [isElementary, Bool.and_eq_true, List.all_eq_true, Bool.not_eq_true', List.isEmpty_eq_false_iff] at he
    cases w with
    | nil => exact absurd rfl he.1
    | cons a w =>
      refine not_quoted ?_
      rintro rfl
      have := he.2 a (by simp)
      rw [plainQuote_elementary hc] at this
      cases this
  rcases hall r hr w hw with he | ⟨s, rfl, hs⟩
  · have h1 := hquoted '"' (.inl rfl) he
    have h2 := hquoted '\'' (.inr rfl) he
    have h3 : w.isEmpty = false := by
      simp only [isElementary, Bool.and_eq_true, Bool.not_eq_true'] at he
      exact he.1
    simp [isAnyEmpty, isEmptyQuoted, isAnyQuotedCell, h1, h2, h3, he]
  · have h1 : isQuotedCell (q :: (s ++ [q])) [q] = true := by
      unfold isQuotedCell
      rw [← List.cons_append, List.getLast?_concat]
      simp
    have h2 : isAnyQuotedCell (q :: (s ++ [q])) = true := by
      unfold isAnyQuotedCell
      rcases hq with rfl | rfl <;> simp [h1]
    have h3 : 2 < (q :: (s ++ [q])).length := by
      cases s with
      | nil => exact absurd rfl hs
      | cons a s => simp
    have h4 : (q :: (s ++ [q])).length ≠ 2 := by omega
    rw [h2]
    simp only [if_true, h1, and_true]
    unfold isAnyEmpty isEmptyQuoted
    rw [decide_eq_false h4]
    rfl

/-! ## Detection -/

theorem find_dialect {L L' : List FormTest} {rows : List Str} {D : SimpleDialect}
    (hyes : ∃ t ∈ L, t.holds rows = true) (hno : ∀ t ∈ L, t.dialect ≠ D → t.holds rows = false) :
    ((L ++ L').find? (fun t => t.holds rows)).map (·.dialect) = some D := by
  rw [List.find?_append]
  cases hf : L.find? (fun t => t.holds rows) with
  | none =>
    rw [List.find?_eq_none] at hf
    obtain ⟨t, ht, h⟩ := hyes
    exact absurd h (hf t ht)
  | some t =>
    have h1 := List.find?_some hf
    have h2 := List.mem_of_find?_eq_some hf
    simp only [Option.some_or, Option.map_some, Option.some.injEq]
    by_contra hne
    rw [hno t h2 hne] at h1
    cases h1

theorem WTable.line_ne (h : WTable q W) {d : Char} : ∀ l ∈ W.map (joinWith d), l ≠ [] := by
  intro l hl
  obtain ⟨r, hr, rfl⟩ := List.mem_map.mp hl
  exact (h.row r hr).line_ne

theorem WTable.line_char (h : WTable q W) (hq : PlainQuote q) (hd : PlainDelim d) :
    ∀ l ∈ W.map (joinWith d), ∀ c ∈ l, isNL c = false ∧ c ≠ NUL := by
  intro l hl c hc
  obtain ⟨r, hr, rfl⟩ := List.mem_map.mp hl
  rcases mem_joinWith hc with rfl | ⟨w, hw, hc⟩
  · rcases hd with rfl | rfl | rfl | rfl <;> decide
  · exact ((h.row r hr).cells w hw).char hc hq

theorem WTable.normal (h : WTable q W) (hq : PlainQuote q) (hd : PlainDelim d) {env : PyEnv} {nl tail : Str}
    (hnl : IsLineEnd nl) (ht : tail = [] ∨ tail = nl)
    (hcalm : (joinStr nl (W.map (joinWith d)) ++ tail).IsChain (CalmPair env))
    (hyes : isForm1 (W.map (joinWith d)) [d] [q] = true ∨ isForm3 (W.map (joinWith d)) [d] [q] = true) :
    detectDialectNormal env (joinStr nl (W.map (joinWith d)) ++ tail) = some (mkDialect [d] [q] []) := by
  have hsplit := splitFile_lines (L := W.map (joinWith d)) (by simpa using h.rows) h.line_ne
    (fun l hl c hc => (h.line_char hq hd l hl c hc).1) hnl ht
  unfold detectDialectNormal
  simp only [Option.getD_none]
  have hds : ∀ x ∈ nfDelims, ∃ d', PlainDelim d' ∧ x = [d'] := by
    intro x hx
    simp only [nfDelims, List.mem_cons, List.not_mem_nil, or_false] at hx
    rcases hx with rfl | rfl | rfl | rfl
    · exact ⟨_, .inl rfl, rfl⟩
    · exact ⟨_, .inr (.inl rfl), rfl⟩
    · exact ⟨_, .inr (.inr (.inl rfl)), rfl⟩
    · exact ⟨_, .inr (.inr (.inr rfl)), rfl⟩
  have hqs : ∀ x ∈ nfQuotechars, ∃ q', PlainQuote q' ∧ x = [q'] := by
    intro x hx
    simp only [nfQuotechars, List.mem_cons, List.not_mem_nil, or_false] at hx
    rcases hx with rfl | rfl
    · exact ⟨_, .inr rfl, rfl⟩
    · exact ⟨_, .inl rfl, rfl⟩
  have hdmem : [d] ∈ nfDelims := by rcases hd with rfl | rfl | rfl | rfl <;> decide
  have hqmem : [q] ∈ nfQuotechars := by rcases hq with rfl | rfl <;> decide
  rw [if_neg ?_]
  · rw [hsplit]
    unfold formTests
    rw [List.append_assoc]
    refine find_dialect ?_ ?_
    · rcases hyes with hy | hy
      · refine ⟨_, List.mem_append_right _ (List.mem_flatMap.mpr ⟨[d], hdmem, List.mem_flatMap.mpr ⟨[q], hqmem,
          List.mem_cons_self ..⟩⟩), hy⟩
      · refine ⟨_, List.mem_append_right _ (List.mem_flatMap.mpr ⟨[d], hdmem, List.mem_flatMap.mpr ⟨[q], hqmem,
          List.mem_cons_of_mem _ (List.mem_cons_self ..)⟩⟩), hy⟩
    · intro t ht hne
      rcases List.mem_append.mp ht with ht | ht
      · obtain ⟨x, hx, rfl⟩ := List.mem_map.mp ht
        obtain ⟨d', hd', rfl⟩ := hds x hx
        exact h.not_form2 hq hd hd'
      · obtain ⟨x, hx, ht⟩ := List.mem_flatMap.mp ht
        obtain ⟨y, hy, ht⟩ := List.mem_flatMap.mp ht
        obtain ⟨d', hd', rfl⟩ := hds x hx
        obtain ⟨q', hq', rfl⟩ := hqs y hy
        have hfail : isForm1 (W.map (joinWith d)) [d'] [q'] = false ∧ isForm3 (W.map (joinWith d)) [d'] [q'] = false ∧
            isForm5 (W.map (joinWith d)) [d'] [q'] = false := by
          by_cases h1 : q' = q
          · subst h1
            by_cases h2 : d' = d
            · subst h2
              exfalso
              apply hne
              simp only [List.mem_cons, List.not_mem_nil, or_false] at ht
              rcases ht with rfl | rfl | rfl <;> rfl
            · exact h.not_other_delim hq hd hd' h2
          · exact h.not_other_quote hq hd hd' hq' h1
        simp only [List.mem_cons, List.not_mem_nil, or_false] at ht
        rcases ht with rfl | rfl | rfl
        · exact hfail.1
        · exact hfail.2.1
        · exact hfail.2.2
  · rw [Bool.not_eq_true, List.any_eq_false]
    intro d' hd'
    rw [Bool.not_eq_true, List.any_eq_false]
    intro q' hq'
    rw [calm_maybe hcalm hd' hq']
    simp

/-! ## Parsing -/

theorem records_lines {q : Char} {nl tail : Str} (hnl : IsLineEnd nl) (ht : tail = [] ∨ tail = nl) :
    ∀ {L : List Str}, L ≠ [] → (∀ l ∈ L, l ≠ []) → (∀ l ∈ L, ∀ c ∈ l, isNL c = false) → (∀ l ∈ L, OkRow q false l) →
    records q false (joinStr nl L ++ tail) = L := by
  have key : ∀ (l t : Str) (rest : List Str), l ≠ [] → OkRow q false l →
      ((t = [] ∧ rest = []) ∨ records q false t = [] :: rest) → records q false (l ++ t) = l :: rest := by
    intro l t rest h0 h1 h2
    rw [recs1_spec q false _ (by simp [h0]), recs1_okRow h2 h1]
  have hend : ∀ R : Str, R.head? ≠ some '\n' → records q false (nl ++ R) = [] :: records q false R := by
    intro R hR
    rcases hnl with rfl | rfl | rfl
    · exact records_lf q R
    · exact records_crlf q R
    · exact records_cr q R hR
  intro L
  induction L with
  | nil => intro h; exact absurd rfl h
  | cons l L ih =>
    intro _ h1 h2 h3
    cases L with
    | nil =>
      rw [joinStr]
      refine key l tail [] (h1 l (by simp)) (h3 l (by simp)) ?_
      rcases ht with rfl | rfl
      · exact .inl ⟨rfl, rfl⟩
      · right
        have := hend [] (by simp)
        rw [List.append_nil] at this
        rw [this]; rfl
    | cons l' L =>
      have ih := ih (by simp) (fun l hl => h1 l (List.mem_cons_of_mem _ hl)) (fun l hl => h2 l (List.mem_cons_of_mem _ hl))
        (fun l hl => h3 l (List.mem_cons_of_mem _ hl))
      rw [joinStr, List.append_assoc, List.append_assoc]
      refine key l _ _ (h1 l (by simp)) (h3 l (by simp)) (.inr ?_)
      rw [hend, ih]
      have hl' : l' ≠ [] := h1 l' (by simp)
      cases l' with
      | nil => exact absurd rfl hl'
      | cons c y =>
        have hc := h2 (c :: y) (by simp) c (by simp)
        have hn : c ≠ '\n' := by rintro rfl; revert hc; decide
        cases L <;> simp [joinStr, hn]

theorem OkRow.even {q : Char} : ∀ {s : Str} {inQ : Bool}, OkRow q inQ s → oddQuotes q s = inQ
  | [], inQ, h => by simp only [OkRow] at h; subst h; rfl
  | c :: s, inQ, h => by
    have := OkRow.even h.2
    rw [oddQuotes_cons, this]
    cases inQ <;> cases (c == q) <;> rfl

end Clever
