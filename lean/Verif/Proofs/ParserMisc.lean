import Verif.Proofs.ParserInv

/-!
# Consumption of input, naturality in the cell constructor, strict mode
-/

set_option linter.unusedSimpArgs false

namespace Clever

variable {α β : Type}

/-- If input is left over, the outcome depends only on the input that was used. -/
theorem nextRowFrom_local (cfg : Cfg) (mk : Str → Bool → α) (items : List Item) (o : PObj α)
    {out : Outcome α} {rest : List Item} (h : nextRowFrom cfg mk o items = (out, rest))
    (hr : rest ≠ []) :
    ∃ used, used ≠ [] ∧ items = used ++ rest ∧
      ∀ rest', nextRowFrom cfg mk o (used ++ rest') = (out, rest') := by
  induction items generalizing o with
  | nil =>
    simp only [nextRowFrom] at h
    split at h
    · split at h <;> · simp at h; exact absurd h.2 hr
    · simp at h; exact absurd h.2 hr
  | cons it items ih =>
    cases it with
    | raise =>
      simp [nextRowFrom] at h; obtain ⟨rfl, rfl⟩ := h
      exact ⟨[.raise], by simp, rfl, fun rest' => by simp [nextRowFrom]⟩
    | nonstr =>
      simp [nextRowFrom] at h; obtain ⟨rfl, rfl⟩ := h
      exact ⟨[.nonstr], by simp, rfl, fun rest' => by simp [nextRowFrom]⟩
    | str l =>
      rw [nextRowFrom] at h
      cases hf : feedLine cfg mk o l with
      | error e =>
        rw [hf] at h; simp at h; obtain ⟨rfl, rfl⟩ := h
        exact ⟨[.str l], by simp, rfl, fun rest' => by simp [nextRowFrom, hf]⟩
      | ok o' =>
        rw [hf] at h
        simp only at h
        by_cases hs : o'.state = .startRecord
        · rw [if_pos hs] at h; simp at h; obtain ⟨rfl, rfl⟩ := h
          exact ⟨[.str l], by simp, rfl, fun rest' => by simp [nextRowFrom, hf, hs]⟩
        · rw [if_neg hs] at h
          obtain ⟨used, _, h2, h3⟩ := ih o' h
          exact ⟨.str l :: used, by simp, by simp [h2], fun rest' => by
            simp [nextRowFrom, hf, hs, h3]⟩

/-- `n` successive calls of `next()`, all of which return a row: the rows, and the input that is
left. -/
def takeRows (cfg : Cfg) (mk : Str → Bool → α) :
    Nat → List Item → Option (List (List α) × List Item)
  | 0, items => some ([], items)
  | n + 1, items =>
    match nextRow cfg mk items with
    | (.row r, rest) => (takeRows cfg mk n rest).map fun p => (r :: p.1, p.2)
    | _ => none

theorem takeRows_suffix (cfg : Cfg) (mk : Str → Bool → α) (n : Nat) (items : List Item)
    {p : List (List α) × List Item} (h : takeRows cfg mk n items = some p) : p.2 <:+ items := by
  induction n generalizing items p with
  | zero => simp [takeRows] at h; subst h; exact List.suffix_refl _
  | succ n ih =>
    rw [takeRows] at h
    split at h
    · rename_i r rest hn
      simp only [Option.map_eq_some_iff] at h
      obtain ⟨p', h1, rfl⟩ := h
      have := nextRowFrom_suffix cfg mk PObj.init items
      rw [← nextRow, hn] at this
      exact (ih rest h1).trans this
    · simp at h

theorem parseRows_takeRows (cfg : Cfg) (mk : Str → Bool → α) (n : Nat) (items : List Item)
    {rows : List (List α)} {rest : List Item} (h : takeRows cfg mk n items = some (rows, rest)) :
    parseRows cfg mk items = (rows ++ (parseRows cfg mk rest).1, (parseRows cfg mk rest).2) := by
  induction n generalizing items rows with
  | zero => simp [takeRows] at h; obtain ⟨rfl, rfl⟩ := h; simp
  | succ n ih =>
    rw [takeRows] at h
    split at h
    · rename_i r rest' hn
      simp only [Option.map_eq_some_iff] at h
      obtain ⟨⟨rows', rest''⟩, h1, h2⟩ := h
      simp at h2; obtain ⟨rfl, rfl⟩ := h2
      rw [parseRows_eq, hn]
      simp only
      rw [ih rest' h1]
      simp
    · simp at h

theorem takeRows_local (cfg : Cfg) (mk : Str → Bool → α) (n : Nat) (a b : List Item) (hb : b ≠ [])
    {rows : List (List α)} (h : takeRows cfg mk n (a ++ b) = some (rows, b)) (b' : List Item) :
    takeRows cfg mk n (a ++ b') = some (rows, b') := by
  induction n generalizing a rows with
  | zero =>
    simp [takeRows] at h
    obtain ⟨rfl, h2⟩ := h
    subst h2
    simp [takeRows]
  | succ n ih =>
    rw [takeRows] at h
    split at h
    · rename_i r rest hn
      simp only [Option.map_eq_some_iff] at h
      obtain ⟨⟨rows', rest''⟩, h1, h2⟩ := h
      simp at h2; obtain ⟨rfl, rfl⟩ := h2
      have hsuf := takeRows_suffix cfg mk n rest h1
      simp only at hsuf
      have hr : rest ≠ [] := by
        rintro rfl
        exact hb (by simpa using hsuf)
      obtain ⟨used, _, h2, h3⟩ := nextRowFrom_local cfg mk _ _ hn hr
      obtain ⟨mid, rfl⟩ := hsuf
      have ha : a = used ++ mid := by
        rw [← List.append_assoc] at h2
        exact List.append_cancel_right h2
      subst ha
      have := h3 (mid ++ b')
      rw [takeRows, nextRow, List.append_assoc, this]
      simp only [ih mid h1]
      simp
    · simp at h

/-! ### Naturality in the cell constructor -/

/-- Change the cells of a parser object. -/
def PObj.map (g : α → β) (o : PObj α) : PObj β := ⟨o.fields.map g, o.field, o.state⟩

theorem addChar_map (cfg : Cfg) (g : α → β) (o : PObj α) (c : Char) :
    addChar cfg (o.map g) c = (addChar cfg o c).map (PObj.map g) := by
  by_cases h : (o.field.length : Int) ≥ cfg.fieldLimit <;>
    simp [addChar, PObj.map, h, Except.map]

theorem saveField_map (cfg : Cfg) (mk : Str → Bool → α) (g : α → β) (o : PObj α) (t : Bool) :
    saveField cfg (fun s b => g (mk s b)) (o.map g) t = (saveField cfg mk o t).map g := by
  simp [saveField, PObj.map]

theorem PObj.to_map (g : α → β) (o : PObj α) (s : PState) : (o.map g).to s = (o.to s).map g := rfl

theorem bind_map {ε γ δ : Type} (x : Except ε γ) (f : γ → δ) {ζ : Type} (k : δ → Except ε ζ) :
    (x.map f >>= k) = (x >>= fun a => k (f a)) := by
  cases x <;> rfl

theorem map_bind {ε γ δ ζ : Type} (x : Except ε γ) (k : γ → Except ε δ) (f : δ → ζ) :
    (x >>= k).map f = (x >>= fun a => (k a).map f) := by
  cases x <;> rfl

theorem stepStartField_map (cfg : Cfg) (mk : Str → Bool → α) (g : α → β) (o : PObj α) (u : Char) :
    stepStartField cfg (fun s b => g (mk s b)) (o.map g) u =
      (stepStartField cfg mk o u).map (PObj.map g) := by
  simp only [stepStartField, saveField_map, addChar_map, PObj.to_map, bind_map]
  repeat' split
  all_goals first | rfl | (rw [map_bind]; rfl)

theorem stepInField_map (cfg : Cfg) (mk : Str → Bool → α) (g : α → β) (o : PObj α) (u : Char) :
    stepInField cfg (fun s b => g (mk s b)) (o.map g) u =
      (stepInField cfg mk o u).map (PObj.map g) := by
  simp only [stepInField, saveField_map, addChar_map, PObj.to_map, bind_map]
  repeat' split
  all_goals first | rfl | (rw [map_bind]; rfl)

theorem processChar_map (cfg : Cfg) (mk : Str → Bool → α) (g : α → β) (o : PObj α) (u v : Char) :
    processChar cfg (fun s b => g (mk s b)) (o.map g) u v =
      (processChar cfg mk o u v).map (PObj.map g) := by
  obtain ⟨fs, f, st⟩ := o
  have hm : ∀ st, (PObj.map g ⟨fs, f, st⟩ : PObj β) = ⟨fs.map g, f, st⟩ := fun _ => rfl
  cases st <;> simp only [processChar, hm] <;> simp only [← hm, PObj.to_map, stepStartField_map,
    stepInField_map, addChar_map, saveField_map, bind_map] <;> (repeat' split) <;>
    first
    | rfl
    | (rw [map_bind]; rfl)
    | (by_cases h1 : cfg.fieldLimit ≤ (f.length : Int) <;>
        by_cases h2 : cfg.fieldLimit ≤ (f.length : Int) + 1 <;>
        simp [*, addChar, PObj.map, PObj.to, bind, Except.bind, Except.map])

theorem feedLine_map (cfg : Cfg) (mk : Str → Bool → α) (g : α → β) (l : Str) (o : PObj α) :
    feedLine cfg (fun s b => g (mk s b)) (o.map g) l =
      (feedLine cfg mk o l).map (PObj.map g) := by
  induction l generalizing o with
  | nil => exact processChar_map cfg mk g o NUL NUL
  | cons u rest ih =>
    rw [feedLine, feedLine]
    split
    · rfl
    · rw [processChar_map]
      cases processChar cfg mk o u (rest.headD NUL) with
      | error e => rfl
      | ok o' => exact ih o'

/-- Change the cells of an outcome. -/
def Outcome.map (g : α → β) : Outcome α → Outcome β
  | .row r => .row (r.map g)
  | .stop => .stop
  | .error e => .error e

theorem nextRowFrom_map (cfg : Cfg) (mk : Str → Bool → α) (g : α → β) (items : List Item)
    (o : PObj α) :
    nextRowFrom cfg (fun s b => g (mk s b)) (o.map g) items =
      ((nextRowFrom cfg mk o items).1.map g, (nextRowFrom cfg mk o items).2) := by
  induction items generalizing o with
  | nil =>
    simp only [nextRowFrom, saveField_map]
    have h1 : (o.map g).field = o.field := rfl
    have h2 : (o.map g).state = o.state := rfl
    rw [h1, h2]
    repeat' split
    all_goals rfl
  | cons it rest ih =>
    cases it with
    | raise => rfl
    | nonstr => rfl
    | str l =>
      rw [nextRowFrom, nextRowFrom, feedLine_map]
      cases feedLine cfg mk o l with
      | error e => rfl
      | ok o' =>
        simp only [Except.map]
        have h2 : (o'.map g).state = o'.state := rfl
        rw [h2]
        split
        · rfl
        · exact ih o'

theorem parseRows_map (cfg : Cfg) (mk : Str → Bool → α) (g : α → β) (items : List Item) :
    parseRows cfg (fun s b => g (mk s b)) items =
      ((parseRows cfg mk items).1.map (·.map g), (parseRows cfg mk items).2) := by
  unfold parseRows
  generalize items.length + 1 = n
  induction n generalizing items with
  | zero => rfl
  | succ n ih =>
    have h := nextRowFrom_map cfg mk g items PObj.init
    have hi : (PObj.init : PObj α).map g = PObj.init := rfl
    rw [hi] at h
    rw [parseRowsAux, parseRowsAux, nextRow, nextRow, h]
    rcases nextRowFrom cfg mk PObj.init items with ⟨out, rest⟩
    cases out with
    | stop => rfl
    | error e => rfl
    | row r => simp [Outcome.map, ih]

/-! ### Strict mode only adds errors -/

theorem processChar_strict {cfg : Cfg} {mk : Str → Bool → α} {o o' : PObj α} {u v : Char}
    (h : processChar cfg mk o u v = .ok o') :
    processChar { cfg with strict := false } mk o u v = .ok o' := by
  obtain ⟨d, q, e, lim, strict⟩ := cfg
  cases strict with
  | false => exact h
  | true =>
    obtain ⟨fs, f, st⟩ := o
    cases st <;> simp only [processChar, stepStartField, stepInField, addChar, saveField] at h ⊢ <;>
      first | exact h | ((repeat' split at h) <;> first | (simp_all; done) | (simp [*] at h ⊢; exact h))

theorem feedLine_strict {cfg : Cfg} {mk : Str → Bool → α} {l : Str} {o o' : PObj α}
    (h : feedLine cfg mk o l = .ok o') :
    feedLine { cfg with strict := false } mk o l = .ok o' := by
  induction l generalizing o with
  | nil => exact processChar_strict h
  | cons u rest ih =>
    rw [feedLine] at h ⊢
    split at h
    · simp at h
    · rename_i hu
      rw [if_neg hu]
      split at h
      · simp at h
      · rename_i heq
        rw [processChar_strict heq]
        exact ih h

theorem nextRowFrom_strict {cfg : Cfg} {mk : Str → Bool → α} {items : List Item} {o : PObj α}
    {out : Outcome α} {rest : List Item}
    (h : nextRowFrom cfg mk o items = (out, rest)) (hne : ∀ e, out ≠ .error e) :
    nextRowFrom { cfg with strict := false } mk o items = (out, rest) := by
  induction items generalizing o with
  | nil =>
    rw [nextRowFrom] at h ⊢
    split at h
    · rename_i hc
      rw [if_pos hc]
      split at h
      · simp at h; exact absurd h.1.symm (hne _)
      · simpa [saveField] using h
    · rename_i hc; rw [if_neg hc]; exact h
  | cons it items ih =>
    cases it with
    | raise => simp [nextRowFrom] at h; exact absurd h.1.symm (hne _)
    | nonstr => simp [nextRowFrom] at h; exact absurd h.1.symm (hne _)
    | str l =>
      rw [nextRowFrom] at h ⊢
      split at h
      · simp at h; exact absurd h.1.symm (hne _)
      · rename_i heq
        rw [feedLine_strict heq]
        simp only
        split at h
        · rename_i hs; rw [if_pos hs]; exact h
        · rename_i hs; rw [if_neg hs]; exact ih h

theorem parseRows_strict {cfg : Cfg} {mk : Str → Bool → α} {items : List Item}
    (h : (parseRows cfg mk items).2 = none) :
    parseRows { cfg with strict := false } mk items = parseRows cfg mk items := by
  unfold parseRows at *
  generalize items.length + 1 = n at *
  induction n generalizing items with
  | zero => rfl
  | succ n ih =>
    rw [parseRowsAux] at h ⊢
    rw [parseRowsAux]
    rcases hn : nextRow cfg mk items with ⟨out, rest⟩
    rw [hn] at h
    cases out with
    | error e => simp at h
    | stop =>
      rw [nextRow, nextRowFrom_strict hn (by simp)]
    | row r =>
      rw [nextRow, nextRowFrom_strict hn (by simp)]
      simp only at h ⊢
      rw [ih h]

/-! ### When the parser stops without having returned the last lines -/

theorem processChar_afterEsc {cfg : Cfg} {mk : Str → Bool → α} {o o' : PObj α} {u v : Char}
    (ho : o.state = .afterEscapedCRNL → o.field ≠ [])
    (h : processChar cfg mk o u v = .ok o') :
    (o'.state = .afterEscapedCRNL → o'.field ≠ []) ∧
    (o'.state = .quoteInQuotedField → v = cfg.quotechar ∧ cfg.quotechar ≠ NUL) ∧
    (o'.state = .escapedChar → u = cfg.escapechar ∧ u ≠ NUL) := by
  obtain ⟨fs, f, st⟩ := o
  cases st <;>
    simp only [processChar, stepStartField, stepInField, bind, Except.bind, PObj.to,
      saveField] at h <;>
    (repeat' split at h) <;> (try simp only [Except.ok.injEq, reduceCtorEq] at h) <;>
    (try subst h)
  all_goals
    repeat
      (rename addChar _ _ _ = Except.ok _ => heq; have hh := addChar_eq_ok heq; clear heq
       obtain ⟨_, rfl⟩ := hh)
  all_goals simp_all

/-- What is known about the parser object after the end-of-line pseudo character. -/
theorem processChar_nul {cfg : Cfg} {mk : Str → Bool → α} {o o' : PObj α}
    (hq : o.state ≠ .quoteInQuotedField)
    (h : processChar cfg mk o NUL NUL = .ok o') :
    o'.state = .startRecord ∨ o'.state = .inQuotedField ∨
    (o'.state = .afterEscapedCRNL ∧ o.state = .afterEscapedCRNL ∧ o'.field = o.field) ∨
    (o'.state = .inField ∧ o.state = .escapedChar) := by
  obtain ⟨fs, f, st⟩ := o
  cases st <;>
    simp only [processChar, stepStartField, stepInField, bind, Except.bind, PObj.to,
      saveField] at h <;>
    (repeat' split at h) <;> (try simp only [Except.ok.injEq, reduceCtorEq] at h) <;>
    (try subst h)
  all_goals
    repeat
      (rename addChar _ _ _ = Except.ok _ => heq; have hh := addChar_eq_ok heq; clear heq
       obtain ⟨_, rfl⟩ := hh)
  all_goals simp_all [isNL, NUL]

/-- The parser object after a line: if no row is complete then the field is non-empty, or the parser
is inside quotes, or the line ended in the escape character. -/
theorem feedLine_end {cfg : Cfg} {mk : Str → Bool → α} {l : Str} {o o' : PObj α} (prev : Option Char)
    (hcr : o.state = .afterEscapedCRNL → o.field ≠ [])
    (hq : o.state = .quoteInQuotedField → l.head? = some cfg.quotechar)
    (hesc : o.state = .escapedChar → prev = some cfg.escapechar ∧ cfg.escapechar ≠ NUL)
    (h : feedLine cfg mk o l = .ok o') :
    (o'.state = .afterEscapedCRNL → o'.field ≠ []) ∧ o'.state ≠ .quoteInQuotedField ∧
    o'.state ≠ .escapedChar ∧
    (o'.state = .startRecord ∨ o'.state = .inQuotedField ∨ o'.field ≠ [] ∨
      (l.getLast?.or prev = some cfg.escapechar ∧ cfg.escapechar ≠ NUL)) := by
  induction l generalizing o prev with
  | nil =>
    rw [feedLine] at h
    rcases processChar_nul (fun hh => by simpa using hq hh) h with h1 | h1 | ⟨h1, h2, h3⟩ | ⟨h1, h2⟩
    · simp [h1]
    · simp [h1]
    · have := hcr h2; simp [h1, h3, this]
    · have := hesc h2; simp [h1, this.1, this.2]
  | cons u rest ih =>
    rw [feedLine] at h
    split at h
    · simp at h
    · split at h
      · simp at h
      · rename_i hu _ o₁ heq
        obtain ⟨f1, f2, f3⟩ := processChar_afterEsc hcr heq
        have := ih (some u) f1
          (fun hs => by
            obtain ⟨hv, hn⟩ := f2 hs
            cases rest with
            | nil => simp at hv; exact absurd hv.symm hn
            | cons x r => simp at hv; simp [hv])
          (fun hs => by
            obtain ⟨hv, hn⟩ := f3 hs
            subst hv; exact ⟨rfl, hn⟩) h
        obtain ⟨g1, g2, g3, g4⟩ := this
        refine ⟨g1, g2, g3, ?_⟩
        cases rest with
        | nil => simpa using g4
        | cons x r =>
          rw [List.getLast?_cons_cons]
          rcases hl : (x :: r).getLast? with _ | y
          · simp at hl
          · rw [hl] at g4; simpa using g4

/-- The last line read, if any, ends in the escape character. -/
def EndsInEscape (cfg : Cfg) (items : List Item) : Prop :=
  ∃ l, items.getLast? = some (.str l) ∧ l.getLast? = some cfg.escapechar ∧ cfg.escapechar ≠ NUL

theorem nextRowFrom_stop {cfg : Cfg} {mk : Str → Bool → α} {items : List Item} {o : PObj α}
    {rest : List Item} (hns : cfg.strict = false)
    (hcr : o.state = .afterEscapedCRNL → o.field ≠ [])
    (hq : o.state ≠ .quoteInQuotedField) (hesc : o.state ≠ .escapedChar)
    (h : nextRowFrom cfg mk o items = (.stop, rest)) :
    (items = [] ∧ o.field = [] ∧ o.state ≠ .inQuotedField) ∨ 
    (∃ l, items.getLast? = some (.str l) ∧
      (l.getLast? = some cfg.escapechar ∧ cfg.escapechar ≠ NUL)) := by
  induction items generalizing o with
  | nil =>
    simp only [nextRowFrom, hns] at h
    split at h
    · simp at h
    · rename_i hh; simp [not_or] at hh; exact Or.inl ⟨rfl, hh.1, hh.2⟩
  | cons it items ih =>
    cases it with
    | raise => simp [nextRowFrom] at h
    | nonstr => simp [nextRowFrom] at h
    | str l =>
      rw [nextRowFrom] at h
      split at h
      · simp at h
      · rename_i o₁ heq
        obtain ⟨g1, g2, g3, g4⟩ := feedLine_end none hcr (fun hh => absurd hh hq)
          (fun hh => absurd hh hesc) heq
        split at h
        · simp at h
        · rename_i hns'
          rcases ih g1 g2 g3 h with ⟨h1, h2, h3⟩ | ⟨l', h1, h2⟩
          · subst h1
            refine Or.inr ⟨l, by simp, ?_⟩
            rcases g4 with g4 | g4 | g4 | g4
            · exact absurd g4 hns'
            · exact absurd g4 h3
            · exact absurd h2 g4
            · simpa using g4
          · refine Or.inr ⟨l', ?_, h2⟩
            cases items with
            | nil => simp at h1
            | cons => simpa using h1

end Clever
