import Verif.Props.StrictMode

/-!
# C11 exactly

When the record that ends in an escape character is dropped: just if the escape character stands at the beginning of a cell.  That
is told by what the parser reads if the escape character is replaced by a letter: a last cell that consists of the letter only.
-/

namespace Clever

/-- Cells have been begun in the states within cells, and not in the others; a quote that the parser has looked ahead to is the
next character. -/
structure Begun {α : Type} (cfg : Cfg) (o : PObj α) (next : Option Char) : Prop where
  fresh : o.state = .startRecord ∨ o.state = .startField ∨ o.state = .eatCRNL → o.field = []
  begun : o.state = .inField ∨ o.state = .afterEscapedCRNL ∨ o.state = .inQuotedField ∨ o.state = .escapeInQuotedField ∨
    o.state = .quoteInQuotedField → o.field ≠ []
  ahead : o.state = .quoteInQuotedField → next = some cfg.quotechar

theorem begun_init {α : Type} (cfg : Cfg) (n : Option Char) : Begun cfg (PObj.init : PObj α) n :=
  ⟨fun _ => rfl, by simp [PObj.init], by simp [PObj.init]⟩

theorem addChar_nonempty {α : Type} {cfg : Cfg} {o o' : PObj α} {c : Char} (h : addChar cfg o c = .ok o') : o'.field ≠ [] := by
  obtain ⟨-, rfl⟩ := addChar_eq_ok h
  simp

/-- A character of the text. -/
theorem begun_next {α : Type} {cfg : Cfg} {mk : Str → Bool → α} {o o' : PObj α} {u v : Char} {n n' : Option Char} (hu : u ≠ NUL)
    (hb : Begun cfg o n) (h : processChar cfg mk o u v = .ok o') (hv : v = cfg.quotechar → u = cfg.quotechar → n' = some v) :
    Begun cfg o' n' ∧ (o'.state = .escapedChar → u = cfg.escapechar) := by
  obtain ⟨h1, h2, h3⟩ := hb
  cases hst : o.state <;> simp only [processChar, hst, stepStartField, stepInField, bind, Except.bind, pure, Except.pure] at h <;>
    repeat' split at h
  all_goals first
    | (cases h; done)
    | (exact absurd (by assumption) hu)
    | skip
  all_goals first
    | (have a1 := addChar_state h
       have a2 := addChar_nonempty h
       refine ⟨⟨?_, ?_, ?_⟩, ?_⟩ <;> simp_all [PObj.to]; done)
    | (rename_i hx
       have a2 := addChar_nonempty hx
       cases h
       refine ⟨⟨?_, ?_, ?_⟩, ?_⟩ <;> simp_all [PObj.to]; done)
    | (cases h
       refine ⟨⟨?_, ?_, ?_⟩, ?_⟩ <;> simp_all [PObj.to, saveField]; done)

/-- The end of a line. -/
theorem begun_eol {α : Type} {cfg : Cfg} {mk : Str → Bool → α} {o o' : PObj α} (n : Option Char) (hb : Begun cfg o none)
    (he : o.state ≠ .escapedChar) (h : processChar cfg mk o NUL NUL = .ok o') : Begun cfg o' n := by
  obtain ⟨h1, h2, h3⟩ := hb
  cases hst : o.state <;> simp only [processChar, hst, stepStartField, stepInField, bind, Except.bind, pure, Except.pure] at h <;>
    repeat' split at h
  all_goals first
    | (cases h; done)
    | (exact absurd hst he)
    | (rw [hst] at h3; exact absurd (h3 rfl) (by simp))
    | (rename_i hx
       have a2 := addChar_nonempty hx
       cases h
       refine ⟨?_, ?_, ?_⟩ <;> simp_all [PObj.to]; done)
    | (exact absurd rfl (by assumption))
    | (rename_i hx
       exact absurd (by simp) hx)
    | (rename_i hx _
       exact absurd (by simp) hx)
    | (rename_i hx _ _
       exact absurd (by simp) hx)
    | (rename_i hx _ _ _
       exact absurd (by simp) hx)
    | (cases h
       refine ⟨?_, ?_, ?_⟩ <;> simp_all [PObj.to, saveField, NUL, isNL]; done)

/-- What is read with the escape character and with the letter at the end. -/
def Spec.DropsLast (c : Char) (R S : List (List (Str × Bool))) : Prop :=
  ∃ row, S.getLast? = some row ∧
    (row.getLast? = some ([c], false) → R = S.dropLast) ∧ (row.getLast? ≠ some ([c], false) → R.length = S.length)

open Spec

theorem dropsLast_cons {c : Char} {R S : List (List (Str × Bool))} (r : List (Str × Bool)) (h : DropsLast c R S) :
    DropsLast c (r :: R) (r :: S) := by
  obtain ⟨row, h1, h2, h3⟩ := h
  cases S with
  | nil => simp at h1
  | cons s S =>
    refine ⟨row, by simpa using h1, fun h => ?_, fun h => ?_⟩
    · rw [h2 h]
      rfl
    · simp [h3 h]

/-- A cell of two or more characters that does not end with a quote is not the letter alone, unless it is quoted. -/
theorem saveCell_long {q c : Char} {f : Str} {t : Bool} (hf : f ≠ []) (hq : c ≠ q) :
    saveCell q (f ++ [c]) t ≠ ([c], false) := by
  have h1 : quoteCond (f ++ [c]) q = false := by
    unfold quoteCond endsWithChar
    split
    · rfl
    · split
      · rfl
      · simp [hq]
  unfold saveCell
  rw [h1]
  simp only [Bool.false_eq_true, if_false]
  split
  · simp
  · intro h
    have := congrArg Prod.fst h
    simp [hf] at this

theorem saveCell_single {q c : Char} (hq : c ≠ q) (t : Bool) : saveCell q [c] t = ([c], false) := by
  unfold saveCell quoteCond startsWithChar
  simp [hq]

/-- The end of the last line, and of the text. -/
def endOf (cfg : Cfg) (o : PObj (Str × Bool)) : List (List (Str × Bool)) × Option PErr :=
  match processChar cfg mkQuoted o NUL NUL with
  | .error e => ([], some e)
  | .ok o' => emit o' fun o => atEOF cfg mkQuoted o

theorem textRun_single (cfg : Cfg) (o : PObj (Str × Bool)) {x : Char} (hx : x ≠ NUL) : textRun cfg mkQuoted o [x] =
    match processChar cfg mkQuoted o x NUL with
    | .error e => ([], some e)
    | .ok o' => endOf cfg o' := by
  simp only [textRun, if_neg hx, List.isEmpty_nil, Bool.or_true, if_true, endOf]
  cases processChar cfg mkQuoted o x NUL with
  | error e => rfl
  | ok o' =>
    simp only
    cases processChar cfg mkQuoted o' NUL NUL <;> rfl

/-- A cell that has been begun gives a last row. -/
theorem endOf_row {cfg : Cfg} (hs : cfg.strict = false) {o : PObj (Str × Bool)} (hf : o.field ≠ [])
    (ho : o.state = .inField ∨ o.state = .afterEscapedCRNL ∨ o.state = .inQuotedField ∨ o.state = .escapedChar) :
    ∃ t, (endOf cfg o).1 = [o.fields ++ [saveCell cfg.quotechar o.field t]] := by
  rcases ho with ho | ho | ho | ho
  · exact ⟨false, by simp [endOf, processChar, ho, stepInField, emit, saveField, PObj.to, mkQuoted, PObj.init, atEOF]⟩
  · exact ⟨true, by simp [endOf, processChar, ho, emit, saveField, mkQuoted, atEOF, hf, hs]⟩
  · exact ⟨true, by simp [endOf, processChar, ho, emit, saveField, mkQuoted, atEOF, hf, hs]⟩
  · refine ⟨true, ?_⟩
    have h1 : processChar cfg mkQuoted o NUL NUL = .ok (o.to .inField) := by
      simp [processChar, ho, bind, Except.bind, isNL, NUL]
    simp [endOf, h1, emit, saveField, PObj.to, mkQuoted, atEOF, hf, hs]

theorem endOf_escapeInQuoted {cfg : Cfg} (hs : cfg.strict = false) {o : PObj (Str × Bool)}
    (ho : o.state = .escapeInQuotedField) (h : (endOf cfg o).2 = none) : (endOf cfg o).1.length = 1 := by
  unfold endOf at h ⊢
  cases hp : processChar cfg mkQuoted o NUL NUL with
  | error e => simp [hp] at h
  | ok o' =>
    simp [emit, escapeInQuoted_next ho hp, atEOF, hs]

theorem endOf_dropped {cfg : Cfg} {o : PObj (Str × Bool)} (hf : o.field = []) (ho : o.state = .escapedChar) :
    (endOf cfg o).1 = [] := by
  have h1 : processChar cfg mkQuoted o NUL NUL = .ok (o.to .inField) := by
    simp [processChar, ho, bind, Except.bind, isNL, NUL]
  simp [endOf, h1, emit, PObj.to, atEOF, hf]

/-- The letter as last character. -/
theorem step_letter {cfg : Cfg} {c : Char} (hc : c ≠ NUL) (hcn : isNL c = false)
    (hcq : c ≠ cfg.quotechar) (hce : c ≠ cfg.escapechar) (hcd : c ≠ cfg.delimiter) {o o' : PObj (Str × Bool)}
    (hb : Begun cfg o none) (h : processChar cfg mkQuoted o c NUL = .ok o') :
    ((o.state = .startRecord ∨ o.state = .startField) ∧ o'.state = .inField ∧ o'.field = [c] ∧ o'.fields = o.fields) ∨
    (¬ (o.state = .startRecord ∨ o.state = .startField) ∧
      (o'.state = .inField ∨ o'.state = .afterEscapedCRNL ∨ o'.state = .inQuotedField ∨ o'.state = .escapedChar) ∧
      ∃ f, f ≠ [] ∧ o'.field = f ++ [c]) := by
  obtain ⟨h1, h2, h3⟩ := hb
  have add : ∀ {o o' : PObj (Str × Bool)} {x : Char}, addChar cfg o x = .ok o' → o' = { o with field := o.field ++ [x] } := by
    intro o o' x h
    exact (addChar_eq_ok h).2
  cases hst : o.state <;>
    simp only [processChar, hst, stepStartField, stepInField, bind, Except.bind, pure, Except.pure, hcn, hc, hcq, hce, hcd,
      Bool.false_or, decide_false, Bool.false_eq_true, if_false, ne_eq, not_false_eq_true, and_self, if_true] at h <;>
    repeat' split at h
  all_goals first
    | (cases h; done)
    | (rw [hst] at h3; exact absurd (h3 rfl) (by simp))
    | (have a := add h
       subst a
       simp_all [PObj.to]; done)
    | (rename_i hx
       have a := add hx
       subst a
       cases h
       simp_all [PObj.to]; done)
    | (rename_i hx' _ _ hx
       have a := add hx
       have a' := add hx'
       subst a'
       subst a
       cases h
       exact .inr ⟨by simp, by simp [PObj.to], o.field ++ [cfg.escapechar], by simp, by simp [PObj.to]⟩)

/-- The escape character as last character. -/
theorem step_escape {cfg : Cfg} (hen : isNL cfg.escapechar = false) (he : cfg.escapechar ≠ NUL)
    (heq : cfg.escapechar ≠ cfg.quotechar) {o o' : PObj (Str × Bool)}
    (hb : Begun cfg o none) (h : processChar cfg mkQuoted o cfg.escapechar NUL = .ok o') :
    ((o.state = .startRecord ∨ o.state = .startField) ∧ o'.state = .escapedChar ∧ o'.field = []) ∨
    (¬ (o.state = .startRecord ∨ o.state = .startField) ∧
      (o'.state = .escapeInQuotedField ∨
        (o'.state = .inField ∨ o'.state = .afterEscapedCRNL ∨ o'.state = .inQuotedField ∨ o'.state = .escapedChar) ∧
        o'.field ≠ [])) := by
  obtain ⟨h1, h2, h3⟩ := hb
  cases hst : o.state <;>
    simp only [processChar, hst, stepStartField, stepInField, bind, Except.bind, pure, Except.pure, hen, he, heq,
      Bool.false_or, decide_false, Bool.false_eq_true, if_false, ne_eq, not_true_eq_false, false_and, and_false, if_true] at h <;>
    repeat' split at h
  all_goals first
    | (cases h; done)
    | (rw [hst] at h3; exact absurd (h3 rfl) (by simp))
    | (have a1 := addChar_state h
       have a2 := addChar_nonempty h
       simp_all [PObj.to]; done)
    | (rename_i hx
       have a2 := addChar_nonempty hx
       cases h
       simp_all [PObj.to]; done)
    | (cases h
       simp_all [PObj.to]; done)

/-- The last character. -/
theorem drops_last (cfg : Cfg) (hs : cfg.strict = false) {c : Char} (hen : isNL cfg.escapechar = false)
    (he : cfg.escapechar ≠ NUL) (heq : cfg.escapechar ≠ cfg.quotechar) (hc : c ≠ NUL) (hcn : isNL c = false)
    (hcq : c ≠ cfg.quotechar) (hce : c ≠ cfg.escapechar) (hcd : c ≠ cfg.delimiter) (o : PObj (Str × Bool))
    (hb : Begun cfg o none)
    (h1 : (textRun cfg mkQuoted o [cfg.escapechar]).2 = none) (h2 : (textRun cfg mkQuoted o [c]).2 = none) :
    DropsLast c (textRun cfg mkQuoted o [cfg.escapechar]).1 (textRun cfg mkQuoted o [c]).1 := by
  rw [textRun_single _ _ he] at h1 ⊢
  rw [textRun_single _ _ hc] at h2 ⊢
  cases p1 : processChar cfg mkQuoted o cfg.escapechar NUL with
  | error x => simp [p1] at h1
  | ok o₁ =>
    cases p2 : processChar cfg mkQuoted o c NUL with
    | error x => simp [p2] at h2
    | ok o₂ =>
      simp only [p1, p2] at h1 h2 ⊢
      rcases step_letter hc hcn hcq hce hcd hb p2 with ⟨s1, s2, s3, s4⟩ | ⟨s1, s2, f, hf, s3⟩
      · rcases step_escape hen he heq hb p1 with ⟨-, t2, t3⟩ | ⟨t1, -⟩
        · obtain ⟨t, ht⟩ := endOf_row hs (o := o₂) (by rw [s3]; simp) (.inl s2)
          rw [endOf_dropped t3 t2, ht, s3, saveCell_single hcq]
          exact ⟨_, rfl, fun _ => rfl, fun h => absurd (by simp) h⟩
        · exact absurd s1 t1
      · rcases step_escape hen he heq hb p1 with ⟨t1, -⟩ | ⟨-, t2⟩
        · exact absurd t1 s1
        · obtain ⟨t, ht⟩ := endOf_row hs (o := o₂) (by rw [s3]; simp) s2
          have hone : (endOf cfg o₁).1.length = 1 := by
            rcases t2 with t2 | ⟨t2, t3⟩
            · exact endOf_escapeInQuoted hs t2 h1
            · obtain ⟨t, ht⟩ := endOf_row hs t3 t2
              rw [ht]
              rfl
          rw [ht, s3]
          refine ⟨_, rfl, fun h => ?_, fun _ => by rw [hone]; rfl⟩
          have h' : some (saveCell cfg.quotechar (f ++ [c]) t) = some ([c], false) := by
            rw [← h]
            simp
          exact absurd (Option.some.inj h') (saveCell_long hf hcq)

/-- The parser looks ahead only for quotes. -/
theorem processChar_ahead {α : Type} {cfg : Cfg} {mk : Str → Bool → α} {o : PObj α} {u v v' : Char}
    (h : v = cfg.quotechar ↔ v' = cfg.quotechar) : processChar cfg mk o u v = processChar cfg mk o u v' := by
  unfold processChar
  simp only [h]

theorem drops_run (cfg : Cfg) (hs : cfg.strict = false) {c : Char} (hen : isNL cfg.escapechar = false)
    (he : cfg.escapechar ≠ NUL) (heq : cfg.escapechar ≠ cfg.quotechar) (hc : c ≠ NUL) (hcn : isNL c = false)
    (hcq : c ≠ cfg.quotechar) (hce : c ≠ cfg.escapechar) (hcd : c ≠ cfg.delimiter) (u : Str) : ∀ o : PObj (Str × Bool),
    Begun cfg o u.head? → (textRun cfg mkQuoted o (u ++ [cfg.escapechar])).2 = none →
    (textRun cfg mkQuoted o (u ++ [c])).2 = none →
    DropsLast c (textRun cfg mkQuoted o (u ++ [cfg.escapechar])).1 (textRun cfg mkQuoted o (u ++ [c])).1 := by
  induction u with
  | nil =>
    intro o hb h1 h2
    exact drops_last cfg hs hen he heq hc hcn hcq hce hcd o hb h1 h2
  | cons a u ih =>
    intro o hb h1 h2
    have hnl : ∀ x : Char, isNL x = false → x ≠ '\n' := by
      rintro x hx rfl
      simp [isNL] at hx
    have hem : ∀ x : Char, (u ++ [x]).isEmpty = false := fun x => by simp
    have hle : lineEndAfter a (u ++ [cfg.escapechar]) = lineEndAfter a (u ++ [c]) := by
      unfold lineEndAfter
      cases u with
      | nil => simp [hnl _ hen, hnl _ hcn]
      | cons b u => rfl
    have hvq : (u ++ [cfg.escapechar]).headD NUL = cfg.quotechar ↔ (u ++ [c]).headD NUL = cfg.quotechar := by
      cases u with
      | nil => simp [heq, hcq]
      | cons b u => rfl
    simp only [List.cons_append, textRun, hem, Bool.or_false, hle,
      processChar_ahead hvq] at h1 h2 ⊢
    by_cases ha : a = NUL
    · rw [if_pos ha] at h1
      simp at h1
    rw [if_neg ha] at h1 h2 ⊢
    rw [if_neg ha]
    cases hl : lineEndAfter a (u ++ [c]) with
    | true =>
      simp only [hl, if_true] at h1 h2 ⊢
      have hanl : isNL a = true := by
        unfold lineEndAfter at hl
        simp only [Bool.or_eq_true, Bool.and_eq_true, decide_eq_true_eq] at hl
        unfold isNL
        rcases hl with h | h <;> simp [h]
      cases hp : processChar cfg mkQuoted o a NUL with
      | error x => simp [hp] at h1
      | ok o₁ =>
        simp only [hp] at h1 h2 ⊢
        obtain ⟨b1, b2⟩ := begun_next (n' := none) ha hb hp (by
          intro h3 h4
          exact absurd (h4.trans h3.symm) ha)
        have b3 : o₁.state ≠ .escapedChar := by
          intro h3
          rw [b2 h3, hen] at hanl
          cases hanl
        cases hp2 : processChar cfg mkQuoted o₁ NUL NUL with
        | error x => simp [hp2] at h1
        | ok o₂ =>
          simp only [hp2] at h1 h2 ⊢
          have b4 := begun_eol u.head? b1 b3 hp2
          unfold emit at h1 h2 ⊢
          by_cases hst : o₂.state = .startRecord
          · simp only [if_pos hst] at h1 h2 ⊢
            exact dropsLast_cons _ (ih PObj.init (begun_init _ _) h1 h2)
          · simp only [if_neg hst] at h1 h2 ⊢
            exact ih o₂ b4 h1 h2
    | false =>
      simp only [hl, Bool.false_eq_true, if_false] at h1 h2 ⊢
      cases hp : processChar cfg mkQuoted o a ((u ++ [c]).headD NUL) with
      | error x =>
        simp only [hp] at h1
        cases h1
      | ok o₁ =>
        simp only [hp] at h1 h2 ⊢
        obtain ⟨b1, -⟩ := begun_next (n' := u.head?) ha hb hp (by
          intro h3 _
          cases u with
          | nil => exact absurd h3 hcq
          | cons b u => rfl)
        exact ih o₁ b1 h1 h2

namespace Props

/-- **C11 exactly.**  A text that ends in the escape character is read like the text with an ordinary character instead, as far as
the number of records is concerned, except if that character would be a cell on its own: then the last record is dropped, and all
others are as with the ordinary character. -/
theorem C11_exact (limit : Int) (hl : InLong limit) (d q : Option Char) (e c : Char) (u : Str)
    (hen : isNL e = false) (he : e ≠ NUL) (heq : q ≠ some e) (hc : c ≠ NUL) (hcn : isNL c = false) (hcq : q ≠ some c)
    (hce : c ≠ e) (hcd : d ≠ some c)
    (h1 : (parseStringQuoted limit (dialectOf d q (some e)) (u ++ [e])).2 = none)
    (h2 : (parseStringQuoted limit (dialectOf d q (some e)) (u ++ [c])).2 = none) :
    DropsLast c (parseStringQuoted limit (dialectOf d q (some e)) (u ++ [e])).1
      (parseStringQuoted limit (dialectOf d q (some e)) (u ++ [c])).1 := by
  rw [parseStringQuoted_eq _ _ _ _ hl] at h1 h2 ⊢
  rw [parseStringQuoted_eq _ _ _ _ hl]
  simp only [Option.map_eq_none_iff, parseText_eq_textRun] at h1 h2 ⊢
  have hq : ∀ x : Char, x ≠ NUL → q ≠ some x → x ≠ q.getD NUL := by
    intro x hx hq
    cases q with
    | none => exact hx
    | some y =>
      rintro rfl
      exact hq rfl
  have hd : c ≠ d.getD NUL := by
    cases d with
    | none => exact hc
    | some y =>
      rintro rfl
      exact hcd rfl
  exact drops_run (cfgOf d q (some e) limit false) rfl hen he (hq e he heq) hc hcn (hq c hc hcq) hce hd u PObj.init
    (begun_init _ _) h1 h2

-- the record of the escape character is dropped at the beginning of a cell, and kept in a cell and in quotes
example : (parseStringQuoted 99 (dialectOf (some ',') (some '"') (some '|')) "x,y\na,|".toList).1.length = 1 ∧
    (parseStringQuoted 99 (dialectOf (some ',') (some '"') (some '|')) "x,y\na,z".toList).1.getLast? =
      some [(['a'], false), (['z'], false)] ∧
    (parseStringQuoted 99 (dialectOf (some ',') (some '"') (some '|')) "x,y\na,b|".toList).1.length = 2 ∧
    (parseStringQuoted 99 (dialectOf (some ',') (some '"') (some '|')) "x,y\na,\"|".toList).1.length = 2 ∧
    (parseStringQuoted 99 (dialectOf (some ',') (some '"') (some '|')) "x,y\na,\"z".toList).1.getLast? =
      some [(['a'], false), (['z'], true)] := by decide

end Props

end Clever
