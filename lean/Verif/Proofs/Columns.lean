import Verif.Proofs.QuotedIO
import Verif.Spec.Column

/-!
# Files with a single column
-/

namespace Clever

open Spec

/-- `columnText` in terms of joined lines. -/
theorem columnText_lines {q : Option Char} {nl : Str} {L : List Str} (h0 : L ≠ []) {text : Str}
    (ht : text = columnText q nl L ∨ text ++ nl = columnText q nl L) :
    ∃ tail, (tail = [] ∨ tail = nl) ∧ text = joinStr nl (L.map (columnLine q)) ++ tail := by
  have key : ∀ {L : List Str}, L ≠ [] → columnText q nl L = joinStr nl (L.map (columnLine q)) ++ nl := by
    intro L
    induction L with
    | nil => intro h; exact absurd rfl h
    | cons s L ih =>
      intro _
      cases L with
      | nil => simp [columnText, joinStr]
      | cons s' L =>
        have := ih (by simp)
        simp only [columnText, List.flatMap_cons, List.map_cons, joinStr, List.append_assoc] at this ⊢
        rw [this]
  rw [key h0] at ht
  rcases ht with rfl | h
  · exact ⟨nl, .inr rfl, rfl⟩
  · exact ⟨[], .inl rfl, by simpa using h⟩

theorem calm_all {env : PyEnv} : ∀ {s : Str}, (∀ c ∈ s, isPotentialEscapechar env c = false) → s.IsChain (CalmPair env)
  | [], _ => .nil
  | [c], _ => .singleton c
  | c :: c' :: s, h => .cons_cons (fun _ => h c (by simp)) (calm_all fun x hx => h x (by simp [hx]))

/-- Parsing lines that are cells as a whole. -/
theorem parse_single {limit : Int} (hl : InLong limit) (D Q : Option Char) {L : List Str} {nl tail : Str} (h0 : L ≠ [])
    (hnl : IsLineEnd nl) (ht : tail = [] ∨ tail = nl) (h1 : ∀ l ∈ L, l ≠ [])
    (h2 : ∀ l ∈ L, ∀ c ∈ l, isNL c = false ∧ c ≠ NUL) (hok : ∀ l ∈ L, OkRow (Q.getD NUL) false l)
    (hone : ∀ l ∈ L, rawCells (D.getD NUL) (Q.getD NUL) false l = [l])
    (hfit : ∀ l ∈ L, ((undouble (Q.getD NUL) false l).length : Int) ≤ limit) :
    parseString limit (dialectOf D Q none) (joinStr nl L ++ tail) =
      (L.map fun l => [(cellValue (Q.getD NUL) l).1], none) := by
  have hrec := records_lines (q := Q.getD NUL) hnl ht h0 h1 (fun l hl c hc => (h2 l hl c hc).1) hok
  have hnul : NUL ∉ joinStr nl L ++ tail := by
    intro hm0
    have hN : ¬ (NUL ∈ nl) := by rcases hnl with rfl | rfl | rfl <;> decide
    rcases List.mem_append.mp hm0 with hm | hm
    · rcases mem_of_joinStr hm with hm | ⟨l, hl', hm⟩
      · exact hN hm
      · exact (h2 l hl' _ hm).2 rfl
    · rcases ht with rfl | rfl
      · simp at hm
      · exact hN hm
  have hsame : parseString limit (dialectOf D Q none) (joinStr nl L ++ tail) =
      parseString limit (dialectOf (some (D.getD NUL)) (some (Q.getD NUL)) none) (joinStr nl L ++ tail) := by
    rw [parseString_eq _ _ _ _ hl, parseString_eq _ _ _ _ hl]
    cases D <;> cases Q <;> rfl
  rw [hsame, Props.C05_quote_parity limit hl _ _ _ hnul ?_]
  · unfold Spec.parse
    rw [hrec, List.map_map]
    congr 1
    apply List.map_congr_left
    intro l hl'
    simp only [Function.comp_apply, recordRow]
    rw [if_neg (h1 l hl'), (hok l hl').even, hone l hl']
    rfl
  · intro r hr
    rw [hrec] at hr
    simp only [fits, hone r hr, List.all_cons, List.all_nil, Bool.and_true, decide_eq_true_eq]
    have := hfit r hr
    omega

theorem columnChar_form4 {c : Char} (h : ColumnChar c) : form4Char c = true := by
  unfold ColumnChar at h
  unfold form4Char isLow isUpp isDig
  rcases h with h | h | h | h
  · simp [h.1, h.2]
  · simp [h.1, h.2]
  · simp [h.1, h.2]
  · have : c = '.' ∨ c = '_' ∨ c = '&' ∨ c = '-' := by simpa using h
    simp [this]

variable {q : Option Char} {L : List Str}

/-- The characters of a column, but for the quotes. -/
theorem _root_.Clever.Spec.WordColumn.char (h : WordColumn q L) {s : Str} (hs : s ∈ L) {c : Char} (hc : c ∈ s) :
    (form4Char c || decide (c = ' ')) = true := by
  rcases h.chars s hs c hc with h' | ⟨-, rfl⟩
  · rw [columnChar_form4 h']; rfl
  · rfl

theorem form4_not {c x : Char} (h : (form4Char c || decide (c = ' ')) = true)
    (hx : (form4Char x || decide (x = ' ')) = false) : c ≠ x := by
  rintro rfl
  rw [h] at hx
  cases hx

theorem _root_.Clever.Spec.WordColumn.line_char (h : WordColumn q L) {l : Str} (hl : l ∈ L.map (columnLine q)) {c : Char}
    (hc : c ∈ l) : (form4Char c || decide (c = ' ')) = true ∨ (q = some c ∧ (c = '"' ∨ c = '\'')) := by
  obtain ⟨s, hs, rfl⟩ := List.mem_map.mp hl
  cases q with
  | none => exact .inl (h.char hs hc)
  | some q =>
    have hq : q = '"' ∨ q = '\'' := by simpa using h.quote
    simp only [columnLine, List.mem_cons, List.mem_append, List.not_mem_nil, or_false] at hc
    rcases hc with rfl | hc | rfl
    · exact .inr ⟨rfl, hq⟩
    · exact .inl (h.char hs hc)
    · exact .inr ⟨rfl, hq⟩

theorem _root_.Clever.Spec.WordColumn.line_ne (h : WordColumn q L) {l : Str} (hl : l ∈ L.map (columnLine q)) : l ≠ [] := by
  obtain ⟨s, hs, rfl⟩ := List.mem_map.mp hl
  cases q with
  | none => exact h.bare rfl s hs
  | some q => simp [columnLine]

theorem _root_.Clever.Spec.WordColumn.line_nl (h : WordColumn q L) {l : Str} (hl : l ∈ L.map (columnLine q)) {c : Char}
    (hc : c ∈ l) : isNL c = false ∧ c ≠ NUL := by
  rcases h.line_char hl hc with h' | ⟨-, rfl | rfl⟩
  · exact ⟨(form4_plain h').1, form4_not h' (by decide)⟩
  · decide
  · decide

theorem _root_.Clever.Spec.WordColumn.line_delim (h : WordColumn q L) {l : Str} (hl : l ∈ L.map (columnLine q)) {d : Char}
    (hd : PlainDelim d) : d ∉ l := by
  intro hc
  rcases h.line_char hl hc with h' | ⟨-, h'⟩
  · rcases hd with rfl | rfl | rfl | rfl <;> revert h' <;> decide
  · rcases hd with rfl | rfl | rfl | rfl <;> revert h' <;> decide

theorem infix_char {d : Char} : ∀ {l : Str}, isInfixOf [d] l = true → d ∈ l
  | [], h => by simp [isInfixOf] at h
  | c :: l, h => by
    simp only [isInfixOf, Bool.or_eq_true] at h
    rcases h with h | h
    · simp [List.isPrefixOf] at h
      exact h ▸ List.mem_cons_self ..
    · exact List.mem_cons_of_mem _ (infix_char h)

/-- Without the delimiter in the first row none of the forms with delimiters holds. -/
theorem no_delim_forms {d : Char} {l : Str} {rows : List Str} (hl : d ∉ l) (q : Str) :
    isForm1 (l :: rows) [d] q = false ∧ isForm2 (l :: rows) [d] q = false ∧ isForm3 (l :: rows) [d] q = false ∧
      isForm5 (l :: rows) [d] q = false := by
  have h0 : isInfixOf [d] l = false := by
    cases h : isInfixOf [d] l with
    | false => rfl
    | true => exact absurd (infix_char h) hl
  have h1 : everyRowSameLength (l :: rows) [d] q = false := by simp [everyRowSameLength, h0]
  have h2 : everyRowHasDelim (l :: rows) [d] = false := by simp [everyRowHasDelim, h0]
  simp [isForm1, isForm2, isForm3, isForm5, h1, h2]

/-- The normal forms recognise a single column. -/
theorem _root_.Clever.Spec.WordColumn.normal (h : WordColumn q L) {env : PyEnv} (ha : env.Ascii) {nl tail : Str}
    (hnl : IsLineEnd nl) (ht : tail = [] ∨ tail = nl) :
    detectDialectNormal env (joinStr nl (L.map (columnLine q)) ++ tail) = some (dialectOf none q none) := by
  have hL : L ≠ [] := by rintro rfl; simpa using h.rows
  have hsplit := splitFile_lines (L := L.map (columnLine q)) (by simpa using hL) (fun l hl => h.line_ne hl)
    (fun l hl c hc => (h.line_nl hl hc).1) hnl ht
  have hcalm : (joinStr nl (L.map (columnLine q)) ++ tail).IsChain (CalmPair env) := by
    refine calm_all fun c hc => ?_
    cases hp : isPotentialEscapechar env c with
    | false => rfl
    | true =>
      obtain ⟨g1, g2, g3, g4, g5, g6⟩ := form4Char_category ha hp
      have hn : ∀ x, (x = nl ∨ x = tail) → c ∉ x := by
        intro x hx hm
        have : x = [] ∨ x = ['\n'] ∨ x = ['\r', '\n'] ∨ x = ['\r'] := by
          rcases hx with rfl | rfl
          · exact .inr hnl
          · rcases ht with rfl | rfl
            · exact .inl rfl
            · exact .inr hnl
        rcases this with rfl | rfl | rfl | rfl <;> simp_all
      rcases List.mem_append.mp hc with hc | hc
      · rcases mem_of_joinStr hc with hc | ⟨l, hl, hc⟩
        · exact absurd hc (hn _ (.inl rfl))
        · rcases h.line_char hl hc with h' | ⟨-, h' | h'⟩
          · rw [g1] at h'; exact absurd (by simpa using h') g2
          · exact absurd h' g5
          · exact absurd h' g6
      · exact absurd hc (hn _ (.inr rfl))
  unfold detectDialectNormal
  simp only [Option.getD_none]
  rw [if_neg ?_]
  · rw [hsplit]
    have hds : ∀ x ∈ nfDelims, ∃ d', PlainDelim d' ∧ x = [d'] := by
      intro x hx
      simp only [nfDelims, List.mem_cons, List.not_mem_nil, or_false] at hx
      rcases hx with rfl | rfl | rfl | rfl
      · exact ⟨_, .inl rfl, rfl⟩
      · exact ⟨_, .inr (.inl rfl), rfl⟩
      · exact ⟨_, .inr (.inr (.inl rfl)), rfl⟩
      · exact ⟨_, .inr (.inr (.inr rfl)), rfl⟩
    have hno : ∀ d', PlainDelim d' → ∀ q', isForm1 (L.map (columnLine q)) [d'] q' = false ∧
        isForm2 (L.map (columnLine q)) [d'] q' = false ∧ isForm3 (L.map (columnLine q)) [d'] q' = false ∧
        isForm5 (L.map (columnLine q)) [d'] q' = false := by
      intro d' hd' q'
      cases L with
      | nil => exact absurd rfl hL
      | cons s L => exact no_delim_forms (h.line_delim (by simp) hd') q'
    have hlen : (decide (1 < (L.map (columnLine q)).length)) = true := by
      have := h.rows
      simp only [List.length_map, decide_eq_true_eq]
      omega
    rw [← List.append_nil (formTests nfDelims)]
    refine find_dialect ?_ ?_
    · have hmem : (⟨4, mkDialect [] q.toList [], fun rows => isForm4 rows q.toList⟩ : FormTest) ∈ formTests nfDelims := by
        have := h.quote
        simp only [List.mem_cons, List.not_mem_nil, or_false] at this
        unfold formTests
        rcases this with rfl | rfl | rfl
        · exact List.mem_append_right _ (by simp)
        · exact List.mem_append_left _ (List.mem_append_right _ (by simp [nfQuotechars]))
        · exact List.mem_append_left _ (List.mem_append_right _ (by simp [nfQuotechars]))
      refine ⟨_, hmem, ?_⟩
      simp only [isForm4, hlen, Bool.true_and, List.all_eq_true, List.mem_map]
      rintro _ ⟨s, hs, rfl⟩
      cases q with
      | none =>
        have hc : ∀ c ∈ s, form4Char c = true := by
          intro c hc
          rcases h.chars s hs c hc with h' | ⟨h', -⟩
          · exact columnChar_form4 h'
          · exact absurd rfl h'
        simp only [Option.toList_none, List.isEmpty_nil, if_true, columnLine, Bool.and_eq_true, Bool.not_eq_true', List.all_eq_true]
        refine ⟨?_, hc⟩
        cases s with
        | nil => rfl
        | cons c s =>
          have h1 := hc c (by simp)
          have h2 : c ≠ '"' := by rintro rfl; revert h1; decide
          have h3 : c ≠ '\'' := by rintro rfl; revert h1; decide
          simp only [isAnyQuotedCell, not_quoted h2, not_quoted h3, Bool.or_self]
      | some q =>
        simp only [Option.toList_some, List.isEmpty_cons, Bool.false_eq_true, if_false, columnLine, Bool.and_eq_true,
          List.all_eq_true]
        refine ⟨by simp [isQuotedCell, List.getLast?_cons], ?_⟩
        simp only [inner, List.drop_succ_cons, List.drop_zero, List.dropLast_concat]
        exact fun c hc => h.char hs hc
    · intro t ht hne
      unfold formTests at ht
      rcases List.mem_append.mp ht with ht | ht
      · rcases List.mem_append.mp ht with ht | ht
        · rcases List.mem_append.mp ht with ht | ht
          · obtain ⟨x, hx, rfl⟩ := List.mem_map.mp ht
            obtain ⟨d', hd', rfl⟩ := hds x hx
            exact (hno d' hd' _).2.1
          · obtain ⟨x, hx, ht⟩ := List.mem_flatMap.mp ht
            obtain ⟨y, hy, ht⟩ := List.mem_flatMap.mp ht
            obtain ⟨d', hd', rfl⟩ := hds x hx
            obtain ⟨g1, -, g3, g5⟩ := hno d' hd' y
            simp only [List.mem_cons, List.not_mem_nil, or_false] at ht
            rcases ht with rfl | rfl | rfl
            · exact g1
            · exact g3
            · exact g5
        · obtain ⟨x, hx, rfl⟩ := List.mem_map.mp ht
          obtain ⟨q', rfl, hq'⟩ : ∃ q', x = [q'] ∧ (q' = '"' ∨ q' = '\'') := by
            simp only [nfQuotechars, List.mem_cons, List.not_mem_nil, or_false] at hx
            rcases hx with rfl | rfl
            · exact ⟨_, rfl, .inr rfl⟩
            · exact ⟨_, rfl, .inl rfl⟩
          have hqq : q ≠ some q' := by
            rintro rfl
            exact hne rfl
          cases L with
          | nil => exact absurd rfl hL
          | cons s L =>
            have hl := List.mem_map_of_mem (f := columnLine q) (List.mem_cons_self (a := s) (l := L))
            cases hh : columnLine q s with
            | nil => exact absurd hh (h.line_ne hl)
            | cons c l =>
              have hc : c ≠ q' := by
                rintro rfl
                rcases h.line_char hl (c := c) (by rw [hh]; simp) with h' | ⟨h', -⟩
                · rcases hq' with rfl | rfl <;> revert h' <;> decide
                · exact hqq h'
              show isForm4 _ [q'] = false
              simp [isForm4, hh, not_quoted hc]
      · simp only [List.mem_singleton] at ht
        subst ht
        cases q with
        | none => exact absurd rfl hne
        | some q =>
          have hq : q = '"' ∨ q = '\'' := by simpa using h.quote
          cases L with
          | nil => exact absurd rfl hL
          | cons s L =>
            have hf : form4Char q = false := by rcases hq with rfl | rfl <;> decide
            show isForm4 _ [] = false
            simp [isForm4, columnLine, hf]
  · rw [Bool.not_eq_true, List.any_eq_false]
    intro d' hd'
    rw [Bool.not_eq_true, List.any_eq_false]
    intro q hq
    rw [calm_maybe hcalm hd' hq]
    simp

theorem undouble_single {q : Char} {s : Str} (h : q ∉ s) : undouble q false (q :: (s ++ [q])) = q :: (s ++ [q]) := by
  have := undouble_doubled (q := q) (s := s)
  rw [doubled_not_mem h] at this
  simp only [undouble_false, beq_self_eq_true, this]

theorem cellValue_single {q : Char} {s : Str} (h : q ∉ s) : cellValue q (q :: (s ++ [q])) = (s, true) := by
  rw [cellValue, undouble_single h]
  cases s with
  | nil => simp [stripOuter]
  | cons c s =>
    have hlast : (c :: (s ++ [q])).getLast? = some q := by rw [← List.cons_append, List.getLast?_concat]
    rw [List.cons_append, stripOuter, if_pos ⟨rfl, hlast⟩, ← List.cons_append, List.dropLast_concat]

/-- Parsing a single column. -/
theorem _root_.Clever.Spec.WordColumn.parse (h : WordColumn q L) {limit : Int} (hl : InLong limit) {nl tail : Str}
    (hnl : IsLineEnd nl) (ht : tail = [] ∨ tail = nl) (hlen : ∀ s ∈ L, ((columnLine q s).length : Int) ≤ limit) :
    parseString limit (dialectOf none q none) (joinStr nl (L.map (columnLine q)) ++ tail) = (L.map ([·]), none) := by
  have hL : L ≠ [] := by rintro rfl; simpa using h.rows
  have hN : ∀ l ∈ L.map (columnLine q), NUL ∉ l := fun l hl' hm => (h.line_nl hl' hm).2 rfl
  have hqs : ∀ s ∈ L, q.getD NUL ∉ s := by
    intro s hs hm
    have := h.char hs hm
    cases q with
    | none => revert this; decide
    | some q =>
      have hq : q = '"' ∨ q = '\'' := by simpa using h.quote
      rcases hq with rfl | rfl <;> revert this <;> decide
  rw [parse_single hl none q (by simpa using hL) hnl ht (fun l hl' => h.line_ne hl') (fun l hl' c hc => h.line_nl hl' hc)
    ?_ (fun l hl' => rawCells_no_delim (hN l hl')) ?_]
  · congr 1
    rw [List.map_map]
    apply List.map_congr_left
    intro s hs
    have := hqs s hs
    cases q with
    | none =>
      simp only [Function.comp_apply, columnLine, cellValue]
      rw [undouble_of_not_mem _ _ this, stripOuter_of_not_mem _ _ this]
    | some q => simp only [Function.comp_apply, columnLine, Option.getD_some, cellValue_single (q := q) this]
  · intro l hl'
    obtain ⟨s, hs, rfl⟩ := List.mem_map.mp hl'
    cases q with
    | none => exact okRow_plain (hqs s hs) fun c hc => (h.line_nl hl' hc).1
    | some q => exact okRow_quoted (hqs s hs) (h.line_nl hl' (by simp [columnLine])).1
  · intro l hl'
    obtain ⟨s, hs, rfl⟩ := List.mem_map.mp hl'
    have hn := hlen s hs
    cases q with
    | none =>
      simp only [columnLine]
      rw [undouble_of_not_mem _ _ (hqs s hs)]
      exact hn
    | some q =>
      simp only [columnLine, Option.getD_some] at hn ⊢
      rw [undouble_single (q := q) (hqs s hs)]
      exact hn

/-! ## Rows in quotes as a whole -/

theorem all_congr_mem {α : Type} {p p' : α → Bool} : ∀ {l : List α}, (∀ x ∈ l, p x = p' x) → l.all p = l.all p'
  | [], _ => rfl
  | x :: l, h => by
    rw [List.all_cons, List.all_cons, h x (by simp), all_congr_mem fun y hy => h y (List.mem_cons_of_mem _ hy)]

theorem isForm2_quote {rows : List Str} {d q : Char} (h : ∀ l ∈ rows, q ∉ l) :
    isForm2 rows [d] [q] = isForm2 rows [d] [] := by
  have hs : ∀ l ∈ rows, splitRow l [d] [q] = splitRow l [d] [] := by
    intro l hl
    unfold splitRow
    rw [isInfixOf_single (h l hl)]
    rfl
  have hsame : everyRowSameLength rows [d] [q] = everyRowSameLength rows [d] [] := by
    unfold everyRowSameLength
    cases rows with
    | nil => rfl
    | cons r rows =>
      simp only
      rw [hs r (by simp)]
      refine all_congr_mem fun l hl => ?_
      rw [hs l hl]
  unfold isForm2
  rw [hsame]
  congr 1
  refine all_congr_mem fun l hl => ?_
  rw [hs l hl]

variable {T : List (List Str)}

/-- The normal forms recognise rows in quotes as a whole. -/
theorem _root_.Clever.Spec.PlainTable.whole_normal (h : PlainTable T) (htwo : 2 ≤ T.length) {d q : Char} (hd : PlainDelim d)
    (hq : PlainQuote q) {env : PyEnv} {nl tail : Str} (hnl : IsLineEnd nl) (ht : tail = [] ∨ tail = nl)
    (hcalm : (joinStr nl ((T.map (joinWith d)).map (columnLine (some q))) ++ tail).IsChain (CalmPair env)) :
    detectDialectNormal env (joinStr nl ((T.map (joinWith d)).map (columnLine (some q))) ++ tail) =
      some (dialectOf (some d) (some q) none) := by
  have hdq := delim_ne_quote hd hq
  have hline : ∀ l ∈ T.map (joinWith d), ∀ c ∈ l, isNL c = false := fun l hl c hc => h.line_nl hd hl hc
  have hqline : ∀ l ∈ T.map (joinWith d), q ∉ l := by
    intro l hl hm
    rcases h.line_char hl hm with h' | h'
    · exact hdq h'.symm
    · rw [plainQuote_elementary hq] at h'; cases h'
  have hsplit := splitFile_lines (L := (T.map (joinWith d)).map (columnLine (some q))) (by simpa using h.rows)
    (fun l hl => by obtain ⟨s, -, rfl⟩ := List.mem_map.mp hl; simp [columnLine])
    (fun l hl c hc => by
      obtain ⟨s, hs, rfl⟩ := List.mem_map.mp hl
      simp only [columnLine, List.mem_cons, List.mem_append, List.not_mem_nil, or_false] at hc
      rcases hc with rfl | hc | rfl
      · exact plainQuote_nl hq
      · exact hline s hs c hc
      · exact plainQuote_nl hq) hnl ht
  obtain ⟨l0, hl0⟩ : ∃ l0, l0 ∈ T.map (joinWith d) := by
    cases hT : T with
    | nil => exact absurd hT h.rows
    | cons r T' => exact ⟨joinWith d r, by simp⟩
  have hmem0 : columnLine (some q) l0 ∈ (T.map (joinWith d)).map (columnLine (some q)) := List.mem_map_of_mem hl0
  have hdelim : ∀ l ∈ T.map (joinWith d), d ∈ l := by
    intro l hl
    obtain ⟨r, hr, rfl⟩ := List.mem_map.mp hl
    exact delim_mem_joinWith (h.columns r hr)
  have hds : ∀ x ∈ nfDelims, ∃ d', PlainDelim d' ∧ x = [d'] := by
    intro x hx
    simp only [nfDelims, List.mem_cons, List.not_mem_nil, or_false] at hx
    rcases hx with rfl | rfl | rfl | rfl
    · exact ⟨_, .inl rfl, rfl⟩
    · exact ⟨_, .inr (.inl rfl), rfl⟩
    · exact ⟨_, .inr (.inr (.inl rfl)), rfl⟩
    · exact ⟨_, .inr (.inr (.inr rfl)), rfl⟩
  have hqs : ∀ x ∈ nfQuotechars, ∃ q', PlainQuote q' ∧ x = [q'] := by
    intro x hx
    simp only [nfQuotechars, List.mem_cons, List.not_mem_nil, or_false] at hx
    rcases hx with rfl | rfl
    · exact ⟨_, by simp [PlainQuote], rfl⟩
    · exact ⟨_, by simp [PlainQuote], rfl⟩
  unfold detectDialectNormal
  simp only [Option.getD_none]
  rw [if_neg ?_]
  · rw [hsplit]
    generalize hrows : (T.map (joinWith d)).map (columnLine (some q)) = rows at hmem0
    have hpiece : ∀ d' q', PlainDelim d' → d' ≠ q' → ∃ y, (q :: y) ∈ splitRow (columnLine (some q) l0) [d'] [q'] :=
      fun d' q' hd' hne => first_piece hne (delim_ne_quote hd' hq).symm
    rw [← List.append_nil (formTests nfDelims)]
    refine find_dialect ?_ ?_
    · have hmem : (⟨5, mkDialect [d] [q] [], fun rows => isForm5 rows [d] [q]⟩ : FormTest) ∈ formTests nfDelims := by
        unfold formTests
        refine List.mem_append_left _ (List.mem_append_left _ (List.mem_append_right _ ?_))
        refine List.mem_flatMap.mpr ⟨[d], ?_, List.mem_flatMap.mpr ⟨[q], ?_, by simp⟩⟩
        · rcases hd with rfl | rfl | rfl | rfl <;> decide
        · rcases hq with rfl | rfl <;> decide
      refine ⟨_, hmem, ?_⟩
      simp only [isForm5, Bool.and_eq_true, List.all_eq_true, decide_eq_true_eq]
      subst hrows
      refine ⟨⟨⟨?_, by simp only [List.length_map]; omega⟩, ?_⟩, ?_⟩
      · simp only [everyRowHasDelim, List.all_eq_true]
        intro l hl
        obtain ⟨s, hs, rfl⟩ := List.mem_map.mp hl
        exact isInfixOf_of_mem (by simp [columnLine, hdelim s hs])
      · intro l hl
        obtain ⟨s, hs, rfl⟩ := List.mem_map.mp hl
        have := List.length_pos_of_mem (hdelim s hs)
        refine ⟨by simp [columnLine]; omega, by simp [columnLine, isQuotedCell, List.getLast?_cons]⟩
      · have : ((T.map (joinWith d)).map (columnLine (some q))).map inner = T.map (joinWith d) := by
          rw [List.map_map]
          conv => rhs; rw [← List.map_id (T.map (joinWith d))]
          apply List.map_congr_left
          intro s _
          simp [columnLine, inner]
        rw [this, isForm2_quote hqline]
        exact h.form2 hd
    · intro t ht hne
      unfold formTests at ht
      have other : ∀ d' q', PlainDelim d' → d' ≠ d →
          isForm1 rows [d'] q' = false ∧ isForm2 rows [d'] q' = false ∧ isForm3 rows [d'] q' = false ∧
            isForm5 rows [d'] q' = false := by
        intro d' q' hd' hdd
        cases rows with
        | nil => simp at hmem0
        | cons l rows =>
          refine no_delim_forms ?_ q'
          have : l ∈ (T.map (joinWith d)).map (columnLine (some q)) := by rw [hrows]; simp
          obtain ⟨s, hs, rfl⟩ := List.mem_map.mp this
          intro hm
          simp only [columnLine, List.mem_cons, List.mem_append, List.not_mem_nil, or_false] at hm
          have hd'q := delim_ne_quote hd' hq
          rcases hm with hm | hm | hm
          · exact hd'q hm
          · rcases h.line_char hs hm with h' | h'
            · exact hdd h'
            · rw [plainDelim_elementary hd'] at h'; cases h'
          · exact hd'q hm
      rcases List.mem_append.mp ht with ht | ht
      · rcases List.mem_append.mp ht with ht | ht
        · rcases List.mem_append.mp ht with ht | ht
          · obtain ⟨x, hx, rfl⟩ := List.mem_map.mp ht
            obtain ⟨d', hd', rfl⟩ := hds x hx
            show isForm2 rows [d'] [] = false
            rw [Bool.eq_false_iff]
            intro hf
            have hN : NUL ∉ columnLine (some q) l0 := by
              intro hm
              simp only [columnLine, List.mem_cons, List.mem_append, List.not_mem_nil, or_false] at hm
              rcases hm with hm | hm | hm
              · rcases hq with rfl | rfl <;> revert hm <;> decide
              · rcases h.line_char hl0 hm with h' | h'
                · rcases hd with rfl | rfl | rfl | rfl <;> revert h' <;> decide
                · revert h'; decide
              · rcases hq with rfl | rfl <;> revert hm <;> decide
            obtain ⟨y, ys, hy⟩ := rawCells_head (d := d') (q := NUL) (c := q) (x := l0 ++ [q]) (delim_ne_quote hd' hq).symm
            have := (form2_cell hf hmem0 (q :: y) (by
              rw [splitRow_nil, ← rawCells_splitOn _ _ _ hN]
              rw [columnLine, hy]
              simp)).2
            rcases this with h' | h'
            · cases h'
            · rw [not_elementary (c := q) (by simp) (plainQuote_elementary hq)] at h'; cases h'
          · obtain ⟨x, hx, ht⟩ := List.mem_flatMap.mp ht
            obtain ⟨y, hy, ht⟩ := List.mem_flatMap.mp ht
            obtain ⟨d', hd', rfl⟩ := hds x hx
            obtain ⟨q', hq', rfl⟩ := hqs y hy
            have key : isForm1 rows [d'] [q'] = false ∧ isForm3 rows [d'] [q'] = false ∧ isForm5 rows [d'] [q'] = false := by
              by_cases hdd : d' = d
              · have hqq : q ≠ q' := by
                  rintro rfl
                  subst hdd
                  apply hne
                  simp only [List.mem_cons, List.not_mem_nil, or_false] at ht
                  rcases ht with rfl | rfl | rfl <;> rfl
                obtain ⟨z, hz⟩ := hpiece d' q' hd' (delim_ne_quote hd' hq')
                refine ⟨?_, ?_, ?_⟩ <;> rw [Bool.eq_false_iff] <;> intro hf
                · have := (form1_cell hf hmem0).2 _ hz
                  rw [not_quoted hqq] at this
                  cases this
                · rcases (form3_cell hf hmem0).2 _ hz with h' | h'
                  · rw [not_quoted hqq] at h'; cases h'
                  · rw [not_elementary (c := q) (by simp) (plainQuote_elementary hq)] at h'; cases h'
                · have := (form5_row hf).1 _ hmem0
                  rw [columnLine, not_quoted hqq] at this
                  cases this
              · obtain ⟨g1, -, g3, g5⟩ := other d' [q'] hd' hdd
                exact ⟨g1, g3, g5⟩
            simp only [List.mem_cons, List.not_mem_nil, or_false] at ht
            rcases ht with rfl | rfl | rfl
            · exact key.1
            · exact key.2.1
            · exact key.2.2
        · obtain ⟨x, hx, rfl⟩ := List.mem_map.mp ht
          obtain ⟨q', hq', rfl⟩ := hqs x hx
          show isForm4 rows [q'] = false
          rw [Bool.eq_false_iff]
          intro hf
          simp only [isForm4, Bool.and_eq_true, List.all_eq_true, List.isEmpty_cons, Bool.false_eq_true, if_false] at hf
          have := (hf.2 _ hmem0).2 d (by
            simp only [columnLine, inner, List.drop_succ_cons, List.drop_zero, List.dropLast_concat]
            exact hdelim l0 hl0)
          rcases hd with rfl | rfl | rfl | rfl <;> revert this <;> decide
      · simp only [List.mem_singleton] at ht
        subst ht
        show isForm4 rows [] = false
        rw [Bool.eq_false_iff]
        intro hf
        simp only [isForm4, Bool.and_eq_true, List.all_eq_true, List.isEmpty_nil, if_true] at hf
        have := (hf.2 _ hmem0).2 q (by simp [columnLine])
        rcases hq with rfl | rfl <;> revert this <;> decide
  · rw [Bool.not_eq_true, List.any_eq_false]
    intro d' hd'
    rw [Bool.not_eq_true, List.any_eq_false]
    intro q hq
    rw [calm_maybe hcalm hd' hq]
    simp

/-- Each row is one cell. -/
theorem _root_.Clever.Spec.PlainTable.whole_parse (h : PlainTable T) {d q : Char} (hd : PlainDelim d)
    (hq : PlainQuote q) {limit : Int} (hl : InLong limit) {nl tail : Str} (hnl : IsLineEnd nl)
    (ht : tail = [] ∨ tail = nl) (hlen : ∀ r ∈ T, ((joinWith d r).length : Int) + 2 ≤ limit) :
    parseString limit (dialectOf (some d) (some q) none)
      (joinStr nl ((T.map (joinWith d)).map (columnLine (some q))) ++ tail) = (T.map fun r => [joinWith d r], none) := by
  have hdq := delim_ne_quote hd hq
  have hqline : ∀ r ∈ T, q ∉ joinWith d r := by
    intro r hr hm
    rcases h.line_char (List.mem_map_of_mem hr) hm with h' | h'
    · exact hdq h'.symm
    · rw [plainQuote_elementary hq] at h'; cases h'
  have hform : ∀ l ∈ (T.map (joinWith d)).map (columnLine (some q)), ∃ r ∈ T, l = q :: (joinWith d r ++ [q]) := by
    intro l hl'
    obtain ⟨s, hs, rfl⟩ := List.mem_map.mp hl'
    obtain ⟨r, hr, rfl⟩ := List.mem_map.mp hs
    exact ⟨r, hr, rfl⟩
  rw [parse_single hl (some d) (some q) (by simpa using h.rows) hnl ht ?_ ?_ ?_ ?_ ?_]
  · congr 1
    rw [List.map_map, List.map_map]
    apply List.map_congr_left
    intro r hr
    simp only [Function.comp_apply, columnLine, Option.getD_some, cellValue_single (hqline r hr)]
  · intro l hl'
    obtain ⟨r, -, rfl⟩ := hform l hl'
    simp
  · intro l hl' c hc
    obtain ⟨r, hr, rfl⟩ := hform l hl'
    have hQ : isNL q = false ∧ q ≠ NUL := by rcases hq with rfl | rfl <;> decide
    simp only [List.mem_cons, List.mem_append, List.not_mem_nil, or_false] at hc
    rcases hc with rfl | hc | rfl
    · exact hQ
    · refine ⟨h.line_nl hd (List.mem_map_of_mem hr) hc, ?_⟩
      rintro rfl
      rcases h.line_char (List.mem_map_of_mem hr) hc with h' | h'
      · rcases hd with rfl | rfl | rfl | rfl <;> revert h' <;> decide
      · revert h'; decide
    · exact hQ
  · intro l hl'
    obtain ⟨r, hr, rfl⟩ := hform l hl'
    exact okRow_quoted (hqline r hr) (plainQuote_nl hq)
  · intro l hl'
    obtain ⟨r, hr, rfl⟩ := hform l hl'
    exact rawCells_quoted (hqline r hr)
  · intro l hl'
    obtain ⟨r, hr, rfl⟩ := hform l hl'
    simp only [Option.getD_some]
    rw [undouble_single (hqline r hr)]
    have := hlen r hr
    simp only [List.length_cons, List.length_append, List.length_nil]
    omega

end Clever
