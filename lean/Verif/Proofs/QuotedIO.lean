import Verif.Proofs.QuotedTables
import Verif.Proofs.PlainIO
import Verif.Props.Candidates

/-! # Tables with quoted cells: reading and writing -/

namespace Clever.Props

open Clever Spec

variable {T : List (List (Bool × Str))} {d q : Char}

theorem _root_.Clever.Spec.QuotedTable.wcell (h : QuotedTable q T) {r : List (Bool × Str)} (hr : r ∈ T) {x : Bool × Str}
    (hx : x ∈ r) : WCell q (written q x) := by
  obtain ⟨b, s⟩ := x
  cases b with
  | false =>
    obtain ⟨h0, h1⟩ := h.plain r hr _ hx rfl
    exact .plain s h0 fun c hc => plain_elementary (h1 c hc)
  | true =>
    refine .quoted s fun c hc => ?_
    obtain ⟨h1, h2, h3⟩ := h.quoted r hr _ hx rfl c hc
    exact ⟨by simp [isNL, h2, h3], h1⟩

theorem _root_.Clever.Spec.QuotedTable.wtable (h : QuotedTable q T) : WTable q (T.map (·.map (written q))) := by
  refine ⟨by simpa using h.rows, ?_, ?_, ?_⟩
  · intro r hr
    obtain ⟨r, hr1, rfl⟩ := List.mem_map.mp hr
    refine ⟨by simpa using h.columns r hr1, fun w hw => ?_⟩
    obtain ⟨x, hx, rfl⟩ := List.mem_map.mp hw
    exact h.wcell hr1 hx
  · intro r hr r' hr'
    obtain ⟨r, hr1, rfl⟩ := List.mem_map.mp hr
    obtain ⟨r', hr2, rfl⟩ := List.mem_map.mp hr'
    simpa using h.rect r hr1 r' hr2
  · obtain ⟨r, hr, x, hx, hb⟩ := h.inQuotes
    refine ⟨_, List.mem_map_of_mem hr, _, List.mem_map_of_mem hx, ?_⟩
    simp only [written, hb, if_true]
    exact ⟨_, rfl⟩

theorem doubled_ne_nil {q : Char} {s : Str} (h : s ≠ []) : doubled q s ≠ [] := by
  cases s with
  | nil => exact absurd rfl h
  | cons c s => simp only [doubled, List.flatMap_cons]; split <;> simp

theorem _root_.Clever.Spec.QuotedTable.holds (h : QuotedTable q T) (hq : PlainQuote q) (hd : PlainDelim d) :
    isForm1 ((T.map (·.map (written q))).map (joinWith d)) [d] [q] = true ∨
    isForm3 ((T.map (·.map (written q))).map (joinWith d)) [d] [q] = true := by
  rcases h.form with hf | ⟨htwo, hf⟩
  · left
    refine h.wtable.form1 hq hd fun r hr w hw => ?_
    obtain ⟨r, hr1, rfl⟩ := List.mem_map.mp hr
    obtain ⟨x, hx, rfl⟩ := List.mem_map.mp hw
    obtain ⟨h1, h2⟩ := hf r hr1 x hx
    exact ⟨x.2, by simp [written, h1, doubled_not_mem h2], h2⟩
  · right
    refine h.wtable.form3 hq hd (by simpa using htwo) fun r hr w hw => ?_
    obtain ⟨r, hr1, rfl⟩ := List.mem_map.mp hr
    obtain ⟨x, hx, rfl⟩ := List.mem_map.mp hw
    cases hb : x.1 with
    | true => exact .inr ⟨doubled q x.2, by simp [written, hb], doubled_ne_nil (hf r hr1 x hx)⟩
    | false =>
      left
      obtain ⟨h0, h1⟩ := h.plain r hr1 _ hx hb
      simp only [written, hb, Bool.false_eq_true, if_false, isElementary, Bool.and_eq_true, Bool.not_eq_true',
        List.isEmpty_eq_false_iff, List.all_eq_true]
      exact ⟨h0, fun c hc => plain_elementary (h1 c hc)⟩

theorem noEscapes_calm {env : PyEnv} : ∀ {text : Str}, NoEscapes env text → text.IsChain (CalmPair env)
  | [], _ => .nil
  | [c], _ => .singleton c
  | a :: b :: t, h => by
    refine .cons_cons ?_ (noEscapes_calm fun p hp => h p (by simp at hp ⊢; exact .inr hp))
    intro hb
    cases hp : isPotentialEscapechar env a with
    | false => rfl
    | true =>
      have := (isPotentialEscapechar_iff env a).mp hp
      exact absurd hb (h (a, b) (by simp) this.1 this.2)

theorem quotedText_lines {nl text : Str} (h : QuotedTable q T)
    (ht : text = quotedText d q nl T ∨ text ++ nl = quotedText d q nl T) :
    ∃ tail, (tail = [] ∨ tail = nl) ∧ text = joinStr nl ((T.map (·.map (written q))).map (joinWith d)) ++ tail := by
  unfold quotedText at ht
  rw [tableText_eq h.wtable.rows] at ht
  rcases ht with rfl | h
  · exact ⟨nl, .inr rfl, rfl⟩
  · exact ⟨[], .inl rfl, by simpa using h⟩

/-! ## Reading -/

theorem cellValue_written (h : QuotedTable q T) (hq : PlainQuote q) {r : List (Bool × Str)} (hr : r ∈ T) {x : Bool × Str}
    (hx : x ∈ r) : cellValue q (written q x) = (x.2, x.1) := by
  obtain ⟨b, s⟩ := x
  cases b with
  | false =>
    have hqs : q ∉ s := fun hm => by
      have := plain_elementary ((h.plain r hr _ hx rfl).2 q hm)
      rw [plainQuote_elementary hq] at this
      cases this
    simp only [written, Bool.false_eq_true, if_false, cellValue]
    rw [undouble_of_not_mem _ _ hqs, stripOuter_of_not_mem _ _ hqs]
  | true =>
    simp only [written, if_true, cellValue]
    rw [undouble_false]
    simp only [beq_self_eq_true]
    rw [undouble_doubled]
    cases s with
    | nil => simp [stripOuter]
    | cons c s =>
      have hlast : (c :: (s ++ [q])).getLast? = some q := by rw [← List.cons_append, List.getLast?_concat]
      rw [List.cons_append, stripOuter, if_pos ⟨rfl, hlast⟩, ← List.cons_append, List.dropLast_concat]

theorem _root_.Clever.Spec.QuotedTable.parse_flags (h : QuotedTable q T) {limit : Int} (hl : InLong limit)
    (hlen : ∀ r ∈ T, ∀ x ∈ r, (x.2.length : Int) + 2 ≤ limit) (hd : PlainDelim d) (hq : PlainQuote q) {nl : Str}
    (hnl : IsLineEnd nl) {text : Str} (ht : text = quotedText d q nl T ∨ text ++ nl = quotedText d q nl T) :
    parseStringQuoted limit (dialectOf (some d) (some q) none) text = (T.map (·.map fun x => (x.2, x.1)), none) ∧
    parseString limit (dialectOf (some d) (some q) none) text = (values T, none) := by
  obtain ⟨tail, h1, rfl⟩ := quotedText_lines h ht
  have hW := h.wtable
  have hdq := delim_ne_quote hd hq
  have hrec := records_lines (q := q) hnl h1 (L := (T.map (·.map (written q))).map (joinWith d))
    (by simpa using h.rows) hW.line_ne (fun l hl c hc => (hW.line_char hq hd l hl c hc).1) (by
      intro l hl
      obtain ⟨r, hr, rfl⟩ := List.mem_map.mp hl
      exact okRow_join hdq (plainDelim_nl hd) fun w hw => ((hW.row r hr).cells w hw).okRow hq)
  have hraw : ∀ r ∈ T, rawCells d q false (joinWith d (r.map (written q))) = r.map (written q) := by
    intro r hr
    have hrow := hW.row _ (List.mem_map_of_mem hr)
    exact rawCells_joinWith hdq hrow.ne_nil fun w hw => (hrow.cells w hw).passes hq hd
  have hnul : NUL ∉ joinStr nl ((T.map (·.map (written q))).map (joinWith d)) ++ tail := by
    intro hm0
    have hN : ¬ (NUL ∈ nl) := by rcases hnl with rfl | rfl | rfl <;> decide
    rcases List.mem_append.mp hm0 with hm | hm
    · rcases mem_of_joinStr hm with hm | ⟨l, hl', hm⟩
      · exact hN hm
      · exact (hW.line_char hq hd l hl' _ hm).2 rfl
    · rcases h1 with rfl | rfl
      · simp at hm
      · exact hN hm
  have hfit : ∀ r ∈ records q false (joinStr nl ((T.map (·.map (written q))).map (joinWith d)) ++ tail),
      fits limit d q r = true := by
    intro r hr
    rw [hrec, List.map_map] at hr
    obtain ⟨r, hr1, rfl⟩ := List.mem_map.mp hr
    simp only [Function.comp_apply, fits, hraw r hr1, List.all_map, List.all_eq_true, decide_eq_true_eq]
    rintro ⟨b, s⟩ hx
    have := hlen r hr1 _ hx
    cases b with
    | false =>
      have hqs : q ∉ s := fun hm => by
        have := plain_elementary ((h.plain r hr1 _ hx rfl).2 q hm)
        rw [plainQuote_elementary hq] at this
        cases this
      simp only [written, Bool.false_eq_true, if_false]
      rw [undouble_of_not_mem _ _ hqs]
      simp only at this
      omega
    | true =>
      simp only [written, if_true]
      rw [undouble_false]
      simp only [beq_self_eq_true]
      rw [undouble_doubled]
      simp only [List.length_cons, List.length_append, List.length_nil]
      simp only at this
      omega
  have hparse : Spec.parse d q (joinStr nl ((T.map (·.map (written q))).map (joinWith d)) ++ tail) =
      T.map (·.map fun x => (x.2, x.1)) := by
    unfold Spec.parse
    rw [hrec, List.map_map, List.map_map]
    apply List.map_congr_left
    intro r hr
    have hrow := hW.row _ (List.mem_map_of_mem hr)
    have hok : OkRow q false (joinWith d (r.map (written q))) :=
      okRow_join hdq (plainDelim_nl hd) fun w hw => (hrow.cells w hw).okRow hq
    simp only [Function.comp_apply, recordRow]
    rw [if_neg hrow.line_ne, hok.even]
    simp only [Bool.false_eq_true, if_false]
    rw [hraw r hr, List.map_map]
    apply List.map_congr_left
    intro x hx
    exact cellValue_written h hq hr hx
  refine ⟨?_, ?_⟩
  · rw [C05_quote_parity_flags limit hl d q _ hnul hfit, hparse]
  · rw [C05_quote_parity limit hl d q _ hnul hfit, hparse]
    simp only [values, List.map_map, Function.comp_def]

/-! ## Writing -/

/-- A writer with one of the delimiters comma, semicolon, bar and tab, `\n` or `\r\n` as line terminator, the quote
character `q` which is doubled in cells, no escape character, and minimal quoting or quoting of all cells. -/
structure QuotingWriter (wd : WDialect) (q : Char) : Prop where
  delimiter : wd.delimiter ∈ [',', ';', '|', '\t']
  quotechar : wd.quotechar = some q
  quote : q ∈ ['"', '\'']
  escapechar : wd.escapechar = none
  doublequote : wd.doublequote = true
  terminator : wd.lineterminator = ['\n'] ∨ wd.lineterminator = ['\r', '\n']
  quoting : wd.quoting = .minimal ∨ wd.quoting = .all

/-- Whether a cell gets quotes: with minimal quoting if it contains the delimiter, the quote character or a line break. -/
def inQuotes (wd : WDialect) (q : Char) (s : Str) : Bool :=
  wd.quoting = .all || s.any fun c => c = wd.delimiter || c = q || c = '\n' || c = '\r'

variable {wd : WDialect}

theorem QuotingWriter.delim (hw : QuotingWriter wd q) : PlainDelim wd.delimiter := by
  simpa [PlainDelim] using hw.delimiter

theorem QuotingWriter.plainQuote (hw : QuotingWriter wd q) : PlainQuote q := by
  simpa [PlainQuote] using hw.quote

theorem QuotingWriter.lineEnd (hw : QuotingWriter wd q) : IsLineEnd wd.lineterminator := by
  rcases hw.terminator with h | h
  · exact .inl h
  · exact .inr (.inl h)

theorem QuotingWriter.special (hw : QuotingWriter wd q) (c : Char) :
    wd.special c = (decide (c = wd.delimiter) || decide (c = q) || decide (c = '\n') || decide (c = '\r')) := by
  have h1 : decide (some q = some c) = decide (c = q) := by simp [eq_comm]
  have h2 : decide ((none : Option Char) = some c) = false := by simp
  unfold WDialect.special
  rw [hw.escapechar, hw.quotechar, h1, h2]
  rcases hw.terminator with h | h <;> rw [h] <;> by_cases hn : c = '\n' <;> by_cases hr : c = '\r' <;> simp [hn, hr]

theorem QuotingWriter.chars (hw : QuotingWriter wd q) (s : Str) :
    wd.writeChars s = .ok (doubled q s, s.any wd.special) := by
  have hqn : wd.quoting ≠ .none := by rcases hw.quoting with h | h <;> simp [h]
  induction s with
  | nil => rfl
  | cons c s ih =>
    have hc : wd.writeChar c = .ok (if c = q then [q, q] else [c], wd.special c) := by
      unfold WDialect.writeChar
      cases hs : wd.special c with
      | false =>
        have : c ≠ q := by
          rintro rfl
          rw [hw.special] at hs
          simp at hs
        simp [this]
      | true =>
        simp only [Bool.not_true, Bool.false_eq_true, if_false, if_neg hqn, hw.quotechar, hw.doublequote, if_true,
          hw.escapechar]
        by_cases h : c = q
        · subst h; simp
        · simp [h, Ne.symm h]
    simp only [WDialect.writeChars, hc, ih, bind, Except.bind, pure, Except.pure]
    simp [doubled]

theorem QuotingWriter.field (hw : QuotingWriter wd q) (s : Str) :
    wd.writeField s = .ok (written q (inQuotes wd q s, s)) := by
  have hany : s.any wd.special = s.any fun c => c = wd.delimiter || c = q || c = '\n' || c = '\r' := by
    congr 1; funext c; exact hw.special c
  have hnn : (wd.quoting = .nonnumeric) = False := by rcases hw.quoting with h | h <;> simp [h]
  simp only [WDialect.writeField, hw.chars, bind, Except.bind, pure, Except.pure, written, inQuotes, hw.quotechar,
    hnn, ← hany]
  cases hs : s.any wd.special with
  | true => simp
  | false =>
    have hd : doubled q s = s := doubled_not_mem fun hm => by
      have := List.any_eq_false.mp hs q hm
      rw [hw.special] at this
      simp at this
    rcases hw.quoting with h | h <;> simp [h, hd]

theorem QuotingWriter.fields (hw : QuotingWriter wd q) : ∀ r : List Str,
    wd.writeFields r = .ok (joinWith wd.delimiter (r.map fun s => written q (inQuotes wd q s, s)))
  | [] => rfl
  | [s] => by
    rw [WDialect.writeFields, hw.field]
    rfl
  | s :: t :: r => by
    rw [WDialect.writeFields, hw.field, hw.fields (t :: r)]
    rfl

/-- The rows that a writer writes. -/
theorem QuotingWriter.gen (hw : QuotingWriter wd q) : ∀ {T : List (List Str)}, (∀ r ∈ T, 2 ≤ r.length) →
    wd.writeGen T = (T.map fun r => joinWith wd.delimiter (r.map fun s => written q (inQuotes wd q s, s)) ++
      wd.lineterminator, none)
  | [], _ => rfl
  | r :: T, hc => by
    have hrow : wd.writeRow r = .ok (joinWith wd.delimiter (r.map fun s => written q (inQuotes wd q s, s)) ++
        wd.lineterminator) := by
      have h1 := hw.fields r
      have h2 : joinWith wd.delimiter (r.map fun s => written q (inQuotes wd q s, s)) ≠ [] := by
        intro h0
        have := delim_mem_joinWith (d := wd.delimiter) (r := r.map fun s => written q (inQuotes wd q s, s))
          (by simpa using hc r (by simp))
        rw [h0] at this
        simp at this
      simp only [WDialect.writeRow, h1, h2, false_and, if_false, bind, Except.bind, pure, Except.pure]
    have ih := QuotingWriter.gen hw (T := T) (fun r hr => hc r (List.mem_cons_of_mem _ hr))
    simp only [WDialect.writeGen, hrow, ih, List.map_cons]

/-- The cells of a table with the flags of a writer. -/
def flagged (wd : WDialect) (q : Char) (T : List (List Str)) : List (List (Bool × Str)) :=
  T.map (·.map fun s => (inQuotes wd q s, s))

theorem values_flagged (wd : WDialect) (q : Char) (T : List (List Str)) : values (flagged wd q T) = T := by
  simp [values, flagged, Function.comp_def]

theorem QuotingWriter.text (hw : QuotingWriter wd q) {T : List (List Str)} (hc : ∀ r ∈ T, 2 ≤ r.length) :
    ∃ parts, wd.writeGen T = (parts, none) ∧
      parts.flatten = quotedText wd.delimiter q wd.lineterminator (flagged wd q T) := by
  refine ⟨_, hw.gen hc, ?_⟩
  simp only [quotedText, tableText, flagged, List.map_map, List.flatMap_def]
  congr 1
  apply List.map_congr_left
  intro r _
  simp [Function.comp_def]

end Clever.Props
