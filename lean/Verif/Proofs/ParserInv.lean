import Verif.Proofs.Parser

/-!
# Invariants of the parser, for all configurations
-/

set_option linter.unusedSimpArgs false

namespace Clever

variable {α : Type}

theorem addChar_eq_ok {cfg : Cfg} {o o' : PObj α} {c : Char} (h : addChar cfg o c = .ok o') :
    (o.field.length : Int) < cfg.fieldLimit ∧ o' = { o with field := o.field ++ [c] } := by
  unfold addChar at h
  split at h
  · simp at h
  · simp at h; exact ⟨by omega, h.symm⟩

theorem addChar_eq_error {cfg : Cfg} {o : PObj α} {c : Char} {e : PErr}
    (h : addChar cfg o c = .error e) :
    cfg.fieldLimit ≤ o.field.length ∧ e = .fieldLimit cfg.fieldLimit := by
  unfold addChar at h
  split at h
  · simp at h; exact ⟨by omega, h.symm⟩
  · simp at h

/-- Number of characters read but not yet in the field (a pending escape or quote). -/
def pending : PState → Nat
  | .escapedChar | .escapeInQuotedField | .quoteInQuotedField => 1
  | _ => 0

/-- All the ways in which `processChar` can change the object. -/
structure StepFacts (cfg : Cfg) (mk : Str → Bool → α) (o o' : PObj α) (u : Char) : Prop where
  change :
    (∃ added, o'.fields = o.fields ∧ o'.field = o.field ++ added ∧
      (added ≠ [] → (o'.field.length : Int) ≤ cfg.fieldLimit) ∧
      (∀ c ∈ added, (c = u ∧ u ≠ NUL) ∨
        (c = cfg.escapechar ∧ (o.state = .escapedChar ∨ o.state = .escapeInQuotedField)) ∨
        (c = '\n' ∧ o.state = .escapeInQuotedField)) ∧
      added.length + pending o'.state ≤ pending o.state + (if u = NUL then 0 else 1)) ∨
    (o'.fields = o.fields ++ [mk (saveCell cfg.quotechar o.field false).1
        (saveCell cfg.quotechar o.field false).2] ∧ o'.field = [] ∧ pending o'.state = 0)
  escape : (o'.state = .escapedChar ∨ o'.state = .escapeInQuotedField) →
    u = cfg.escapechar ∧ u ≠ NUL
  quoteIn : o'.state = .quoteInQuotedField → u = cfg.quotechar ∧ u ≠ NUL

theorem processChar_ok {cfg : Cfg} {mk : Str → Bool → α} {o o' : PObj α} {u v : Char}
    (hq : o.state = .quoteInQuotedField → cfg.quotechar ≠ NUL)
    (h : processChar cfg mk o u v = .ok o') : StepFacts cfg mk o o' u := by
  obtain ⟨fs, f, st⟩ := o
  have hnn : isNL u = true → u ≠ NUL := by rintro h rfl; simp [isNL, NUL] at h
  cases st <;>
    simp only [processChar, stepStartField, stepInField, bind, Except.bind, PObj.to,
      saveField] at h <;>
    (repeat' split at h) <;> (try simp only [Except.ok.injEq, reduceCtorEq] at h) <;>
    (try subst h)
  all_goals
    repeat
      (rename addChar _ _ _ = Except.ok _ => heq; have hh := addChar_eq_ok heq; clear heq
       obtain ⟨_, rfl⟩ := hh)
  all_goals refine ⟨?_, by simp_all [pending], by simp_all [pending]⟩
  all_goals
    first
    | (right; simp [pending]; done)
    | (left; refine ⟨[], ?_⟩; simp_all [pending]; done)
    | (left; refine ⟨[u], ?_⟩; simp_all [pending]; done)
    | (left; refine ⟨[u], ?_⟩; simp_all [pending]; omega)
    | (left; refine ⟨[cfg.escapechar, u], ?_⟩; simp_all [pending]; omega)
    | (left; refine ⟨[cfg.escapechar], ?_⟩; simp_all [pending]; omega)
    | (left; refine ⟨['\n'], ?_⟩; simp_all [pending]; omega)
    | (by_cases hu : u = NUL
       · left; refine ⟨['\n'], ?_⟩; simp_all [pending]; omega
       · left; refine ⟨[u], ?_⟩; simp_all [pending]; omega)
    | skip

/-- All the ways in which `processChar` can fail. -/
theorem processChar_error {cfg : Cfg} {mk : Str → Bool → α} {o : PObj α} {u v : Char} {e : PErr}
    (hq : o.state = .quoteInQuotedField → cfg.quotechar ≠ NUL)
    (h : processChar cfg mk o u v = .error e) :
    (e = .fieldLimit cfg.fieldLimit ∧
      cfg.fieldLimit ≤ ((o.field.length + pending o.state : Nat) : Int) ∧
      (u = NUL → cfg.fieldLimit < ((o.field.length + pending o.state : Nat) : Int))) ∨
    (cfg.strict = true ∧ e = .expectedAfter cfg.delimiter cfg.quotechar) ∨
    (e = .newlineInUnquoted ∧ o.state = .eatCRNL ∧ isNL u = false ∧ u ≠ NUL) := by
  obtain ⟨fs, f, st⟩ := o
  have hnn : isNL u = true → u ≠ NUL := by rintro h rfl; simp [isNL, NUL] at h
  cases st <;>
    simp only [processChar, stepStartField, stepInField, bind, Except.bind, PObj.to,
      saveField] at h <;>
    (repeat' split at h) <;> (try simp only [Except.error.injEq, reduceCtorEq] at h) <;>
    (try subst h)
  all_goals
    repeat
      (rename addChar _ _ _ = Except.ok _ => heq; have hh := addChar_eq_ok heq; clear heq
       obtain ⟨_, rfl⟩ := hh)
  all_goals
    try
      (rename addChar _ _ _ = Except.error _ => heq; have hh := addChar_eq_error heq; clear heq
       obtain ⟨_, rfl⟩ := hh)
  all_goals
    first
    | (simp_all [pending]; done)
    | (left; simp_all [pending]; omega)

/-- Leaving a step in state `EAT_CRNL` means that the character was a newline. -/
theorem processChar_eat {cfg : Cfg} {mk : Str → Bool → α} {o o' : PObj α} {u v : Char}
    (h : processChar cfg mk o u v = .ok o') (hs : o'.state = .eatCRNL) : isNL u = true := by
  obtain ⟨fs, f, st⟩ := o
  cases st <;>
    simp only [processChar, stepStartField, stepInField, bind, Except.bind, PObj.to,
      saveField] at h <;>
    (repeat' split at h) <;> (try simp only [Except.ok.injEq, reduceCtorEq] at h) <;>
    (try subst h)
  all_goals
    repeat
      (rename addChar _ _ _ = Except.ok _ => heq; have hh := addChar_eq_ok heq; clear heq
       obtain ⟨_, rfl⟩ := hh)
  all_goals simp_all

/-- Invariant of the parser object. -/
structure Inv (cfg : Cfg) (P : α → Prop) (o : PObj α) : Prop where
  esc : o.state = .escapedChar ∨ o.state = .escapeInQuotedField → cfg.escapechar ≠ NUL
  quo : o.state = .quoteInQuotedField → cfg.quotechar ≠ NUL
  noNul : NUL ∉ o.field
  len : o.field.length ≤ cfg.fieldLimit.toNat
  cells : ∀ c ∈ o.fields, P c

/-- Cells built from good fields satisfy `P`. -/
def GoodMk (cfg : Cfg) (mk : Str → Bool → α) (P : α → Prop) : Prop :=
  ∀ f t, NUL ∉ f → f.length ≤ cfg.fieldLimit.toNat →
    P (mk (saveCell cfg.quotechar f t).1 (saveCell cfg.quotechar f t).2)

theorem Inv.init (cfg : Cfg) (P : α → Prop) : Inv cfg P PObj.init := by
  constructor <;> simp [PObj.init]

theorem mem_saveCell {q : Char} {f : Str} {t : Bool} {c : Char} (h : c ∈ (saveCell q f t).1) :
    c ∈ f := by
  unfold saveCell at h
  simp only at h
  have key : ∀ c, c ∈ (if quoteCond f q = true then ((f.drop 1).dropLast, true) else (f, false)).1 →
      c ∈ f := by
    intro c hc
    split at hc
    · exact List.mem_of_mem_drop (List.dropLast_subset _ hc)
    · exact hc
  generalize (if quoteCond f q = true then ((f.drop 1).dropLast, true) else (f, false)) = r at h key
  split at h
  · exact key c (List.mem_of_mem_drop h)
  · exact key c h

theorem length_saveCell (q : Char) (f : Str) (t : Bool) : (saveCell q f t).1.length ≤ f.length := by
  unfold saveCell
  simp only
  have key : (if quoteCond f q = true then ((f.drop 1).dropLast, true) else (f, false)).1.length ≤
      f.length := by
    split <;> simp; omega
  generalize (if quoteCond f q = true then ((f.drop 1).dropLast, true) else (f, false)) = r at key ⊢
  split
  · simp only [List.length_drop]; omega
  · exact key

theorem GoodMk.save {cfg : Cfg} {mk : Str → Bool → α} {P : α → Prop} (hP : GoodMk cfg mk P)
    {o : PObj α} (ho : Inv cfg P o) (t : Bool) :
    P (mk (saveCell cfg.quotechar o.field t).1 (saveCell cfg.quotechar o.field t).2) :=
  hP _ _ ho.noNul ho.len

theorem Inv.step {cfg : Cfg} {mk : Str → Bool → α} {P : α → Prop} (hP : GoodMk cfg mk P)
    {o o' : PObj α} {u v : Char} (ho : Inv cfg P o) (h : processChar cfg mk o u v = .ok o') :
    Inv cfg P o' := by
  have f := processChar_ok ho.quo h
  refine ⟨fun hs => ?_, fun hs => ?_, ?_, ?_, ?_⟩
  · obtain ⟨rfl, hn⟩ := f.escape hs; exact hn
  · obtain ⟨rfl, hn⟩ := f.quoteIn hs; exact hn
  · rcases f.change with ⟨added, _, h2, _, h4, _⟩ | ⟨_, h2, _⟩
    · rw [h2, List.mem_append, not_or]
      refine ⟨ho.noNul, fun hm => ?_⟩
      rcases h4 _ hm with ⟨rfl, hn⟩ | ⟨h5, h6⟩ | ⟨h5, _⟩
      · exact hn rfl
      · exact ho.esc h6 h5.symm
      · simp [NUL] at h5
    · simp [h2]
  · rcases f.change with ⟨added, _, h2, h3, _, _⟩ | ⟨_, h2, _⟩
    · by_cases ha : added = []
      · subst ha; rw [h2]; simpa using ho.len
      · have := h3 ha; omega
    · simp [h2]
  · rcases f.change with ⟨_, h1, _⟩ | ⟨h1, _⟩
    · rw [h1]; exact ho.cells
    · rw [h1]
      intro c hc
      rcases List.mem_append.1 hc with hc | hc
      · exact ho.cells c hc
      · simp at hc; subst hc; exact hP.save ho false

theorem Inv.feedLine {cfg : Cfg} {mk : Str → Bool → α} {P : α → Prop} (hP : GoodMk cfg mk P)
    {l : Str} {o o' : PObj α} (ho : Inv cfg P o) (h : feedLine cfg mk o l = .ok o') :
    Inv cfg P o' := by
  induction l generalizing o with
  | nil => exact ho.step hP h
  | cons u rest ih =>
    rw [Clever.feedLine] at h
    split at h
    · simp at h
    · split at h
      · simp at h
      · rename_i heq; exact ih (ho.step hP heq) h

theorem Inv.nextRowFrom {cfg : Cfg} {mk : Str → Bool → α} {P : α → Prop} (hP : GoodMk cfg mk P)
    {items : List Item} {o : PObj α} (ho : Inv cfg P o) {r : List α} {rest : List Item}
    (h : nextRowFrom cfg mk o items = (.row r, rest)) : ∀ c ∈ r, P c := by
  induction items generalizing o with
  | nil =>
    rw [Clever.nextRowFrom] at h
    split at h
    · split at h
      · simp at h
      · simp at h
        obtain ⟨rfl, _⟩ := h
        intro c hc
        simp [saveField] at hc
        rcases hc with hc | rfl
        · exact ho.cells c hc
        · exact hP.save ho true
    · simp at h
  | cons it items ih =>
    cases it with
    | raise => simp [Clever.nextRowFrom] at h
    | nonstr => simp [Clever.nextRowFrom] at h
    | str l =>
      rw [Clever.nextRowFrom] at h
      split at h
      · simp at h
      · rename_i heq
        have ho' := ho.feedLine hP heq
        split at h
        · simp at h; obtain ⟨rfl, _⟩ := h; exact ho'.cells
        · exact ih ho' h

theorem parseRows_cells {cfg : Cfg} {mk : Str → Bool → α} {P : α → Prop} (hP : GoodMk cfg mk P)
    (items : List Item) : ∀ r ∈ (parseRows cfg mk items).1, ∀ c ∈ r, P c := by
  have main : ∀ n (items : List Item), items.length ≤ n →
      ∀ r ∈ (parseRows cfg mk items).1, ∀ c ∈ r, P c := by
    intro n
    induction n with
    | zero =>
      intro items h r hr
      have : items = [] := by cases items <;> simp_all
      subst this
      simp [parseRows_nil] at hr
    | succ n ih =>
      intro items hlen r hr
      rw [parseRows_eq] at hr
      by_cases hi : items = []
      · subst hi; simp [nextRow_nil] at hr
      · have hlt := nextRowFrom_lt cfg mk PObj.init items hi
        rw [← nextRow] at hlt
        rcases hn : nextRow cfg mk items with ⟨out, rest⟩
        rw [hn] at hr hlt
        cases out with
        | stop => simp at hr
        | error e => simp at hr
        | row r' =>
          simp at hr hlt
          rcases hr with rfl | hr
          · exact (Inv.init cfg P).nextRowFrom hP hn
          · exact ih rest (by omega) r hr
  exact main items.length items (Nat.le_refl _)

/-- The only errors when parsing a text. -/
theorem textRun_errors {cfg : Cfg} {mk : Str → Bool → α} (t : Str) (o : PObj α) (n : Nat)
    (ho : Inv cfg (fun _ => True) o) (heat : o.state = .eatCRNL → t.head? = some '\n')
    (hn : o.field.length + pending o.state ≤ n) {e : PErr} (h : (textRun cfg mk o t).2 = some e) :
    (e = .nullByte ∧ NUL ∈ t) ∨
    (e = .fieldLimit cfg.fieldLimit ∧ cfg.fieldLimit < ((n + t.length : Nat) : Int)) ∨
    (cfg.strict = true ∧ (e = .unexpectedEnd ∨ e = .expectedAfter cfg.delimiter cfg.quotechar)) := by
  have hP : GoodMk cfg mk (fun _ : α => True) := fun _ _ _ _ => trivial
  induction t generalizing o n with
  | nil =>
    simp only [textRun, atEOF] at h
    split at h
    · split at h
      · rename_i hst; simp at h; subst h; exact Or.inr (Or.inr ⟨hst, Or.inl rfl⟩)
      · simp at h
    · simp at h
  | cons c rest ih =>
    -- potential after a step
    have pot : ∀ {o o' : PObj α} {u v : Char}, Inv cfg (fun _ => True) o →
        processChar cfg mk o u v = .ok o' →
        o'.field.length + pending o'.state ≤
          o.field.length + pending o.state + (if u = NUL then 0 else 1) := by
      intro o o' u v ho hs
      rcases (processChar_ok ho.quo hs).change with ⟨added, _, h2, _, _, h5⟩ | ⟨_, h2, h3⟩
      · rw [h2]; simp only [List.length_append]; omega
      · simp [h2, h3]
    rw [textRun] at h
    by_cases hc : c = NUL
    · rw [if_pos hc] at h; simp at h; subst h; subst hc; exact Or.inl ⟨rfl, by simp⟩
    · rw [if_neg hc] at h
      -- errors of the step on `c`
      have err : ∀ {v e}, processChar cfg mk o c v = .error e →
          (e = .nullByte ∧ NUL ∈ c :: rest) ∨
          (e = .fieldLimit cfg.fieldLimit ∧ cfg.fieldLimit < ((n + (c :: rest).length : Nat) : Int)) ∨
          (cfg.strict = true ∧
            (e = .unexpectedEnd ∨ e = .expectedAfter cfg.delimiter cfg.quotechar)) := by
        intro v e he
        rcases processChar_error ho.quo he with ⟨h1, h2, _⟩ | ⟨h1, h2⟩ | ⟨_, h2, h3, _⟩
        · refine Or.inr (Or.inl ⟨h1, ?_⟩)
          simp only [List.length_cons]; omega
        · exact Or.inr (Or.inr ⟨h1, Or.inr h2⟩)
        · have := heat h2
          simp at this; subst this; simp [isNL] at h3
      -- the rest of the text
      have cont : ∀ {o' : PObj α}, Inv cfg (fun _ => True) o' →
          (o'.state = .eatCRNL → rest.head? = some '\n') →
          o'.field.length + pending o'.state ≤ n + 1 →
          (textRun cfg mk o' rest).2 = some e →
          (e = .nullByte ∧ NUL ∈ c :: rest) ∨
          (e = .fieldLimit cfg.fieldLimit ∧ cfg.fieldLimit < ((n + (c :: rest).length : Nat) : Int)) ∨
          (cfg.strict = true ∧
            (e = .unexpectedEnd ∨ e = .expectedAfter cfg.delimiter cfg.quotechar)) := by
        intro o' ho' heat' hn' h'
        rcases ih o' (n + 1) ho' heat' hn' h' with ⟨h1, h2⟩ | ⟨h1, h2⟩ | h1
        · exact Or.inl ⟨h1, by simp [h2]⟩
        · refine Or.inr (Or.inl ⟨h1, ?_⟩)
          simp only [List.length_cons]; omega
        · exact Or.inr (Or.inr h1)
      split at h
      · rename_i hend
        split at h
        · rename_i e' he; simp at h; subst h; exact err he
        · rename_i o₁ h₁
          have ho₁ := ho.step hP h₁
          have hp₁ := pot ho h₁
          rw [if_neg hc] at hp₁
          split at h
          · rename_i e' he
            simp at h; subst h
            rcases processChar_error ho₁.quo he with ⟨h1, _, h2⟩ | ⟨h1, h2⟩ | ⟨_, _, _, h3⟩
            · have := h2 rfl
              refine Or.inr (Or.inl ⟨h1, ?_⟩)
              simp only [List.length_cons]; omega
            · exact Or.inr (Or.inr ⟨h1, Or.inr h2⟩)
            · exact absurd rfl h3
          · rename_i o₂ h₂
            have ho₂ := ho₁.step hP h₂
            have hp₂ := pot ho₁ h₂
            rw [if_pos rfl] at hp₂
            simp only [emit] at h
            split at h
            · exact cont (Inv.init _ _) (by simp [PObj.init]) (by simp [PObj.init, pending]) h
            · refine cont ho₂ (fun hs => ?_) (by omega) h
              have := processChar_eat h₂ hs
              simp [isNL, NUL] at this
      · rename_i hend
        split at h
        · rename_i e' he; simp at h; subst h; exact err he
        · rename_i o₁ h₁
          have hp₁ := pot ho h₁
          rw [if_neg hc] at hp₁
          refine cont (ho.step hP h₁) (fun hs => ?_) (by omega) h
          have := processChar_eat h₁ hs
          simp [lineEndAfter] at hend
          simp [isNL] at this
          rcases this with rfl | rfl
          · exact hend.1.2 rfl
          · simp at hend

end Clever
