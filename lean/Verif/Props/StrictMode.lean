import Verif.Props.Parsing
import Verif.Props.RoundTrip

/-!
# C12 and C13 exactly

When strict mode accepts a text, and what becomes of an unterminated quoted cell.
-/

namespace Clever

open Spec

/-- The text has a quote character that is not escaped.  (The first argument tells whether an escape character comes
before the text.) -/
def Spec.bareQuote (q e : Char) : Bool → Str → Bool
  | _, [] => false
  | true, _ :: rest => bareQuote q e false rest
  | false, c :: rest => if c = q then true else bareQuote q e (c == e) rest

theorem escapeInQuoted_next {α : Type} {cfg : Cfg} {mk : Str → Bool → α} {o o' : PObj α} {u v : Char}
    (ho : o.state = .escapeInQuotedField) (h : processChar cfg mk o u v = .ok o') : o'.state = .inQuotedField := by
  simp only [processChar, ho, bind, Except.bind] at h
  repeat' split at h
  all_goals first
    | (cases h; done)
    | (cases h; rfl)
    | simp at h

/-- In strict mode quotes are never closed. -/
theorem strict_stuck {α : Type} (cfg : Cfg) (mk : Str → Bool → α) (hs : cfg.strict = true) (hq : cfg.quotechar ≠ NUL)
    (t : Str) : ∀ o : PObj α, o.state = .inQuotedField ∨ (o.state = .escapeInQuotedField ∧ t ≠ []) ∨
      (o.state = .quoteInQuotedField ∧ t.head? = some cfg.quotechar) → (textRun cfg mk o t).2 ≠ none := by
  induction t with
  | nil =>
    intro o ho
    have : o.state = .inQuotedField := by simpa using ho
    simp [textRun, atEOF, this, hs]
  | cons c rest ih =>
    intro o ho
    rw [textRun]
    by_cases hc : c = NUL
    · rw [if_pos hc]; simp
    rw [if_neg hc]
    -- one character within quotes: an error, or still within quotes
    have step : ∀ v o', (v = NUL ∨ rest.head? = some v) → processChar cfg mk o c v = .ok o' →
        o'.state = .inQuotedField ∨ o'.state = .escapeInQuotedField ∨
          (o'.state = .quoteInQuotedField ∧ rest.head? = some cfg.quotechar ∧ v ≠ NUL) := by
      intro v o' hv h
      rcases ho with ho | ⟨ho, -⟩ | ⟨ho, hh⟩
      · simp only [processChar, ho, if_neg hc, hs] at h
        split at h
        · cases h; simp [PObj.to]
        split at h
        · split at h
          · rename_i hvq
            cases h
            rcases hv with hv | hv
            · exact absurd (hvq.symm.trans hv) hq
            · exact .inr (.inr ⟨rfl, by rw [hv, hvq], by rw [hvq]; exact hq⟩)
          · simp at h
        · obtain ⟨-, rfl⟩ := addChar_eq_ok h
          exact .inl ho
      · exact .inl (escapeInQuoted_next ho h)
      · have hcq : c = cfg.quotechar := by simpa using hh
        simp only [processChar, ho, if_pos hcq, bind, Except.bind] at h
        split at h
        · simp at h
        · cases h; exact .inl rfl
    split
    · cases h1 : processChar cfg mk o c NUL with
      | error e => simp
      | ok o₁ =>
        simp only
        cases h2 : processChar cfg mk o₁ NUL NUL with
        | error e => simp
        | ok o₂ =>
          simp only
          have h3 : o₂.state = .inQuotedField := by
            rcases step NUL o₁ (.inl rfl) h1 with h | h | h
            · simp only [processChar, h, if_true] at h2
              cases h2; exact h
            · exact escapeInQuoted_next h h2
            · exact absurd rfl h.2.2
          rw [emit, if_neg (by rw [h3]; decide)]
          exact ih o₂ (.inl h3)
    · rename_i hl
      have hne : rest ≠ [] := by
        rintro rfl
        simp at hl
      cases h1 : processChar cfg mk o c (rest.headD NUL) with
      | error e => simp
      | ok o₁ =>
        simp only
        have hv : rest.headD NUL = NUL ∨ rest.head? = some (rest.headD NUL) := by
          cases rest with
          | nil => exact absurd rfl hne
          | cons a r => exact .inr rfl
        rcases step _ o₁ hv h1 with h | h | h
        · exact ih o₁ (.inl h)
        · exact ih o₁ (.inr (.inl ⟨h, hne⟩))
        · exact ih o₁ (.inr (.inr ⟨h.1, h.2.1⟩))

/-- The states outside quotes in which nothing is escaped. -/
def PState.outside : PState → Bool
  | .startRecord | .startField | .inField | .eatCRNL | .afterEscapedCRNL => true
  | _ => false

theorem addChar_state {α : Type} {cfg : Cfg} {o o' : PObj α} {c : Char} (h : addChar cfg o c = .ok o') :
    o'.state = o.state := by
  obtain ⟨-, rfl⟩ := addChar_eq_ok h
  rfl

theorem stepInField_next {α : Type} {cfg : Cfg} {mk : Str → Bool → α} {o o' : PObj α} {u : Char}
    (ho : o.state.outside = true) (hqe : cfg.quotechar ≠ cfg.escapechar)
    (h : stepInField cfg mk o u = .ok o') :
    (u ≠ NUL ∧ isNL u = false ∧ u = cfg.quotechar ∧ o'.state = .inQuotedField) ∨
    (u ≠ NUL ∧ u ≠ cfg.quotechar ∧ u = cfg.escapechar ∧ o'.state = .escapedChar) ∨
    ((u = NUL ∨ isNL u = true ∨ (u ≠ cfg.quotechar ∧ u ≠ cfg.escapechar)) ∧ o'.state.outside = true) := by
  unfold stepInField at h
  simp only [bind, Except.bind] at h
  split at h
  · rename_i hn
    cases h
    simp only [Bool.or_eq_true, decide_eq_true_eq] at hn
    right; right
    refine ⟨by rcases hn with h | h <;> simp [h], ?_⟩
    simp only [PObj.to]
    split <;> rfl
  rename_i hn
  simp only [Bool.or_eq_true, decide_eq_true_eq, not_or, Bool.not_eq_true] at hn
  split at h
  · rename_i he
    cases h
    exact .inr (.inl ⟨hn.2, fun h => hqe (h.symm.trans he), he, rfl⟩)
  rename_i he
  split at h
  · rename_i hq
    split at h
    · simp at h
    · cases h
      exact .inl ⟨hn.2, hn.1, hq, rfl⟩
  rename_i hq
  split at h
  · cases h
    exact .inr (.inr ⟨.inr (.inr ⟨hq, he⟩), rfl⟩)
  · rw [← addChar_state h] at ho
    exact .inr (.inr ⟨.inr (.inr ⟨hq, he⟩), ho⟩)

theorem stepStartField_next {α : Type} {cfg : Cfg} {mk : Str → Bool → α} {o o' : PObj α} {u : Char}
    (ho : o.state.outside = true) (h : stepStartField cfg mk o u = .ok o') :
    (u ≠ NUL ∧ isNL u = false ∧ u = cfg.quotechar ∧ o'.state = .inQuotedField) ∨
    (u ≠ NUL ∧ u ≠ cfg.quotechar ∧ u = cfg.escapechar ∧ o'.state = .escapedChar) ∨
    ((u = NUL ∨ isNL u = true ∨ (u ≠ cfg.quotechar ∧ u ≠ cfg.escapechar)) ∧ o'.state.outside = true) := by
  unfold stepStartField at h
  simp only [bind, Except.bind] at h
  split at h
  · rename_i hn
    cases h
    simp only [Bool.or_eq_true, decide_eq_true_eq] at hn
    right; right
    refine ⟨by rcases hn with h | h <;> simp [h], ?_⟩
    simp only [PObj.to]
    split <;> rfl
  rename_i hn
  simp only [Bool.or_eq_true, decide_eq_true_eq, not_or, Bool.not_eq_true] at hn
  split at h
  · rename_i hq
    split at h
    · simp at h
    · cases h
      exact .inl ⟨hn.2, hn.1, hq, rfl⟩
  rename_i hq
  split at h
  · rename_i he
    cases h
    exact .inr (.inl ⟨hn.2, hq, he, rfl⟩)
  rename_i he
  split at h
  · cases h
    exact .inr (.inr ⟨.inr (.inr ⟨hq, he⟩), ho⟩)
  · split at h
    · simp at h
    · cases h
      exact .inr (.inr ⟨.inr (.inr ⟨hq, he⟩), rfl⟩)

theorem outside_next {α : Type} {cfg : Cfg} {mk : Str → Bool → α} {o o' : PObj α} {u v : Char}
    (ho : o.state.outside = true) (hqe : cfg.quotechar ≠ cfg.escapechar)
    (h : processChar cfg mk o u v = .ok o') :
    (u ≠ NUL ∧ isNL u = false ∧ u = cfg.quotechar ∧ o'.state = .inQuotedField) ∨
    (u ≠ NUL ∧ u ≠ cfg.quotechar ∧ u = cfg.escapechar ∧ o'.state = .escapedChar) ∨
    ((u = NUL ∨ isNL u = true ∨ (u ≠ cfg.quotechar ∧ u ≠ cfg.escapechar)) ∧ o'.state.outside = true) := by
  cases hst : o.state with
  | startRecord =>
    simp only [processChar, hst] at h
    split at h
    · rename_i hu
      cases h
      exact .inr (.inr ⟨.inl hu, ho⟩)
    split at h
    · rename_i hu
      cases h
      exact .inr (.inr ⟨.inr (.inl hu), rfl⟩)
    · exact stepStartField_next (by rfl) h
  | startField =>
    simp only [processChar, hst] at h
    exact stepStartField_next ho h
  | inField =>
    simp only [processChar, hst] at h
    exact stepInField_next ho hqe h
  | afterEscapedCRNL =>
    simp only [processChar, hst] at h
    split at h
    · rename_i hu
      cases h
      exact .inr (.inr ⟨.inl hu, ho⟩)
    · exact stepInField_next ho hqe h
  | eatCRNL =>
    simp only [processChar, hst] at h
    split at h
    · rename_i hu
      cases h
      exact .inr (.inr ⟨.inr (.inl hu), ho⟩)
    split at h
    · rename_i hu
      cases h
      exact .inr (.inr ⟨.inl hu, rfl⟩)
    · simp at h
  | escapedChar => simp [hst, PState.outside] at ho
  | inQuotedField => simp [hst, PState.outside] at ho
  | escapeInQuotedField => simp [hst, PState.outside] at ho
  | quoteInQuotedField => simp [hst, PState.outside] at ho

theorem escaped_next {α : Type} {cfg : Cfg} {mk : Str → Bool → α} {o o' : PObj α} {u v : Char}
    (ho : o.state = .escapedChar) (h : processChar cfg mk o u v = .ok o') : o'.state.outside = true := by
  simp only [processChar, ho, bind, Except.bind] at h
  repeat' split at h
  all_goals first
    | (cases h; done)
    | (cases h; rfl)
    | simp at h

/-- A quote that is not escaped is an error in strict mode. -/
theorem strict_bareQuote {α : Type} (cfg : Cfg) (mk : Str → Bool → α) (hs : cfg.strict = true) (hq : cfg.quotechar ≠ NUL)
    (hqn : isNL cfg.quotechar = false) (hen : isNL cfg.escapechar = false) (hqe : cfg.quotechar ≠ cfg.escapechar) (t : Str) :
    ∀ (o : PObj α) (esc : Bool), (if esc then o.state = .escapedChar else o.state.outside = true) →
      bareQuote cfg.quotechar cfg.escapechar esc t = true → (textRun cfg mk o t).2 ≠ none := by
  induction t with
  | nil => intro o esc _ h; cases esc <;> simp [bareQuote] at h
  | cons c rest ih =>
    intro o esc ho hb
    rw [textRun]
    by_cases hc : c = NUL
    · rw [if_pos hc]; simp
    rw [if_neg hc]
    have nul : ∀ {o₁ o₂ : PObj α}, o₁.state.outside = true → processChar cfg mk o₁ NUL NUL = .ok o₂ →
        o₂.state.outside = true := by
      intro o₁ o₂ h1 h2
      rcases outside_next h1 hqe h2 with h | h | h
      · exact absurd rfl h.1
      · exact absurd rfl h.1
      · exact h.2
    have hemit : ∀ {o₂ : PObj α}, o₂.state.outside = true → bareQuote cfg.quotechar cfg.escapechar false rest = true →
        (emit o₂ fun o => textRun cfg mk o rest).2 ≠ none := by
      intro o₂ h1 h2
      unfold emit
      split
      · exact ih PObj.init false (by simp [PObj.init, PState.outside]) h2
      · exact ih o₂ false (by simpa using h1) h2
    cases esc with
    | true =>
      simp only [if_true] at ho
      simp only [bareQuote] at hb
      split
      · cases h1 : processChar cfg mk o c NUL with
        | error e => simp
        | ok o₁ =>
          simp only
          cases h2 : processChar cfg mk o₁ NUL NUL with
          | error e => simp
          | ok o₂ => exact hemit (nul (escaped_next ho h1) h2) hb
      · cases h1 : processChar cfg mk o c (rest.headD NUL) with
        | error e => simp
        | ok o₁ => exact ih o₁ false (by simpa using escaped_next ho h1) hb
    | false =>
      simp only [Bool.false_eq_true, if_false] at ho
      simp only [bareQuote] at hb
      split
      · rename_i hl
        cases h1 : processChar cfg mk o c NUL with
        | error e => simp
        | ok o₁ =>
          simp only
          cases h2 : processChar cfg mk o₁ NUL NUL with
          | error e => simp
          | ok o₂ =>
            simp only
            rcases outside_next ho hqe h1 with h | h | h
            · have h3 : o₂.state = .inQuotedField := by
                simp only [processChar, h.2.2.2, if_true] at h2
                cases h2; exact h.2.2.2
              rw [emit, if_neg (by rw [h3]; decide)]
              exact strict_stuck cfg mk hs hq rest o₂ (.inl h3)
            · rw [if_neg h.2.1] at hb
              have : rest = [] := by
                simp only [Bool.or_eq_true, List.isEmpty_iff] at hl
                rcases hl with hl | hl
                · have : isNL c = true := by
                    unfold lineEndAfter at hl
                    simp only [Bool.or_eq_true, Bool.and_eq_true, decide_eq_true_eq] at hl
                    unfold isNL
                    rcases hl with h | h <;> simp [h]
                  rw [h.2.2.1, hen] at this
                  cases this
                · exact hl
              subst this
              simp [bareQuote] at hb
            · have hne : c ≠ cfg.quotechar ∧ (c == cfg.escapechar) = false := by
                rcases h.1 with h | h | h
                · exact absurd h hc
                · constructor
                  · rintro rfl; rw [hqn] at h; cases h
                  · simp only [beq_eq_false_iff_ne]; rintro rfl; rw [hen] at h; cases h
                · exact ⟨h.1, by simpa using h.2⟩
              rw [if_neg hne.1, hne.2] at hb
              exact hemit (nul h.2 h2) hb
      · rename_i hl
        cases h1 : processChar cfg mk o c (rest.headD NUL) with
        | error e => simp
        | ok o₁ =>
          simp only
          rcases outside_next ho hqe h1 with h | h | h
          · exact strict_stuck cfg mk hs hq rest o₁ (.inl h.2.2.2)
          · rw [if_neg h.2.1, h.2.2.1, beq_self_eq_true] at hb
            exact ih o₁ true (by simpa using h.2.2.2) hb
          · have hne : c ≠ cfg.quotechar ∧ (c == cfg.escapechar) = false := by
              rcases h.1 with h | h | h
              · exact absurd h hc
              · constructor
                · rintro rfl; rw [hqn] at h; cases h
                · simp only [beq_eq_false_iff_ne]; rintro rfl; rw [hen] at h; cases h
              · exact ⟨h.1, by simpa using h.2⟩
            rw [if_neg hne.1, hne.2] at hb
            exact ih o₁ false (by simpa using h.2) hb

/-- Outside quotes and without escape characters `strict` makes no difference. -/
theorem textRun_unquoted_strict {α : Type} (cfg : Cfg) (mk : Str → Bool → α) (he : cfg.escapechar = NUL) (b : Bool)
    (hqn : cfg.quotechar ≠ NUL) (t : Str) : ∀ (o : PObj α), cfg.quotechar ∉ t → o.state.outside = true →
      o.state ≠ .afterEscapedCRNL → (t = [] → o.field = []) →
      textRun cfg mk o t = textRun { cfg with strict := b } mk o t := by
  have hstep : ∀ (o : PObj α) (u v : Char), o.state.outside = true →
      processChar cfg mk o u v = processChar { cfg with strict := b } mk o u v := by
    intro o u v ho
    cases hst : o.state <;> first
      | (simp [hst, PState.outside] at ho; done)
      | (simp only [processChar, hst] <;> rfl)
  have hqe : cfg.quotechar ≠ cfg.escapechar := by rw [he]; exact hqn
  have hafter : ∀ (o o' : PObj α) (u v : Char), o.state.outside = true → o.state ≠ .afterEscapedCRNL →
      processChar cfg mk o u v = .ok o' → o'.state ≠ .afterEscapedCRNL := by
    intro o o' u v ho ha h
    cases hst : o.state <;> simp only [processChar, hst, stepStartField, stepInField, bind, Except.bind] at h <;>
      first
        | (simp [hst, PState.outside] at ho; done)
        | (exact absurd hst ha)
        | (repeat' split at h
           all_goals first
             | (cases h; done)
             | (cases h; simp [PObj.to, saveField, hst]; done)
             | (cases h; simp only [PObj.to]; split <;> simp; done)
             | (rw [addChar_state h, hst]; simp; done)
             | simp at h)
  induction t with
  | nil =>
    intro o _ ho _ hf
    have hs : o.state ≠ .inQuotedField := by intro h; simp [h, PState.outside] at ho
    simp [textRun, atEOF, hf rfl, hs]
  | cons c rest ih =>
    intro o hq ho ha _
    simp only [List.mem_cons, not_or] at hq
    rw [textRun, textRun]
    by_cases hc : c = NUL
    · rw [if_pos hc, if_pos hc]
    rw [if_neg hc, if_neg hc]
    have hnext : ∀ {o' : PObj α} {v : Char}, processChar cfg mk o c v = .ok o' → o'.state.outside = true := by
      intro o' v h
      rcases outside_next ho hqe h with h | h | h
      · exact absurd h.2.2.1 (Ne.symm hq.1)
      · exact absurd (h.2.2.1.trans he) hc
      · exact h.2
    split
    · rw [← hstep o c NUL ho]
      cases h1 : processChar cfg mk o c NUL with
      | error e => rfl
      | ok o₁ =>
        simp only
        rw [← hstep o₁ NUL NUL (hnext h1)]
        have h3 := hafter o o₁ c NUL ho ha h1
        cases h2 : processChar cfg mk o₁ NUL NUL with
        | error e => rfl
        | ok o₂ =>
          have h4 : o₂.state = .startRecord := by
            have := hnext h1
            cases hst : o₁.state <;> simp only [hst, PState.outside, Bool.false_eq_true] at this <;>
              simp only [processChar, hst, stepStartField, stepInField] at h2 <;> first
                | exact absurd hst h3
                | (cases h2; exact hst)
                | (cases h2; rfl)
          simp only [emit, if_pos h4]
          rw [ih PObj.init hq.2 (by rfl) (by simp [PObj.init]) (fun _ => rfl)]
    · rename_i hl
      rw [← hstep o c (rest.headD NUL) ho]
      cases h1 : processChar cfg mk o c (rest.headD NUL) with
      | error e => rfl
      | ok o₁ =>
        simp only
        refine ih o₁ hq.2 (hnext h1) (hafter o o₁ c _ ho ha h1) ?_
        rintro rfl
        simp at hl

theorem bareQuote_nul {q : Char} {t : Str} (hn : NUL ∉ t) : bareQuote q NUL false t = true ↔ q ∈ t := by
  induction t with
  | nil => simp [bareQuote]
  | cons c t ih =>
    simp only [List.mem_cons, not_or] at hn
    rw [bareQuote, show (c == NUL) = false by simpa using Ne.symm hn.1]
    split
    · rename_i h; simp [h]
    · rename_i h; rw [ih hn.2]; simp [Ne.symm h]

/-- A NUL character is an error, if nothing before it is. -/
theorem textRun_nul {α : Type} (cfg : Cfg) (mk : Str → Bool → α) (t : Str) : ∀ o : PObj α, NUL ∈ t →
    (textRun cfg mk o t).2 ≠ none := by
  induction t with
  | nil => intro o h; simp at h
  | cons c rest ih =>
    intro o h
    rw [textRun]
    by_cases hc : c = NUL
    · rw [if_pos hc]; simp
    rw [if_neg hc]
    have hr : NUL ∈ rest := by
      rcases List.mem_cons.1 h with h | h
      · exact absurd h.symm hc
      · exact h
    split
    · cases processChar cfg mk o c NUL with
      | error e => simp
      | ok o₁ =>
        simp only
        cases processChar cfg mk o₁ NUL NUL with
        | error e => simp
        | ok o₂ =>
          simp only [emit]
          split
          · exact ih _ hr
          · exact ih _ hr
    · cases processChar cfg mk o c (rest.headD NUL) with
      | error e => simp
      | ok o₁ => exact ih _ hr

/-- Without an escape character a text in strict mode is parsed as without strict mode if it has no quote character, and
is an error if it has one. -/
theorem strict_cases {α : Type} (cfg : Cfg) (mk : Str → Bool → α) (hs : cfg.strict = true) (he : cfg.escapechar = NUL)
    (hq : cfg.quotechar ≠ NUL) (hqn : isNL cfg.quotechar = false) (t : Str) :
    (cfg.quotechar ∉ t → parseText cfg mk t = parseText { cfg with strict := false } mk t) ∧
    (cfg.quotechar ∈ t → (parseText cfg mk t).2 ≠ none) := by
  simp only [parseText_eq_textRun]
  constructor
  · intro h
    exact textRun_unquoted_strict cfg mk he false hq t PObj.init h (by rfl) (by simp [PObj.init]) (fun _ => rfl)
  · intro h
    by_cases hn : NUL ∈ t
    · exact textRun_nul cfg mk t _ hn
    · refine strict_bareQuote cfg mk hs hq hqn (by rw [he]; decide) (by rw [he]; exact hq) t PObj.init false
        (by simp [PObj.init, PState.outside]) ?_
      rw [he]
      exact (bareQuote_nul hn).2 h

namespace Props

/-- **C12, what strict mode rejects**: a text with a quote character that is not escaped is an error in strict mode, even
if all quotes are closed. -/
theorem C12_bare_quote_partial (limit : Int) (hl : InLong limit) (d e : Option Char) (q : Char) (t : Str) (hq : q ≠ NUL)
    (hqn : isNL q = false) (hen : isNL (e.getD NUL) = false) (hqe : q ≠ e.getD NUL)
    (hb : bareQuote q (e.getD NUL) false t = true) :
    (parseString limit (dialectOf d (some q) e true) t).2 ≠ none := by
  rw [parseString_eq _ _ _ _ hl, parseText_eq_textRun]
  simp only [ne_eq, Option.map_eq_none_iff]
  exact strict_bareQuote (cfgOf d (some q) e limit true) mkPlain rfl hq hqn hen hqe t PObj.init false
    (by simp [PObj.init, PState.outside]) hb

/-- **C12 exactly**, without an escape character: strict mode accepts a text if and only if the text does not contain
the quote character and is accepted without strict mode. -/
theorem C12_iff (limit : Int) (hl : InLong limit) (d : Option Char) (q : Char) (t : Str) (hq : q ≠ NUL)
    (hqn : isNL q = false) :
    (parseString limit (dialectOf d (some q) none true) t).2 = none ↔
      q ∉ t ∧ (parseString limit (dialectOf d (some q) none false) t).2 = none := by
  obtain ⟨k1, k2⟩ := strict_cases (cfgOf d (some q) none limit true) mkPlain rfl rfl hq hqn t
  simp only [parseString_eq _ _ _ _ hl, Option.map_eq_none_iff]
  by_cases h : q ∈ t
  · exact ⟨fun h' => absurd h' (k2 h), fun h' => absurd h h'.1⟩
  · rw [k1 h]
    exact ⟨fun h' => ⟨h, h'⟩, fun h' => h'.2⟩

/-- **C02 in strict mode**, without an escape character: a table that is written is read back if and only if nothing had to
be quoted. -/
theorem C02_strict_iff_partial (limit : Int) (hl : InLong limit) (d q : Char)
    (hd : d ≠ NUL ∧ isNL d = false) (hq : q ≠ NUL ∧ isNL q = false) (hdq : d ≠ q)
    (rows : List (List Str)) (hn : ∀ row ∈ rows, ∀ s ∈ row, NUL ∉ s)
    (hfit : ∀ row ∈ rows, ∀ s ∈ row, (s.length + 2 : Int) ≤ limit) :
    ∃ wd text, mkWriter (.simple (dialectOf (some d) (some q) none true)) = .ok wd ∧ wd.writeRows rows = (text, none) ∧
      (q ∉ text → readText limit (.simple (dialectOf (some d) (some q) none true)) {} text = .ok rows) ∧
      (q ∈ text → ∃ e, readText limit (.simple (dialectOf (some d) (some q) none true)) {} text = .error e) := by
  obtain ⟨wd, text, h1, h2, h3⟩ := C02_round_trip_partial limit hl d q none hd hq hdq (by simp) rows hn hfit
  refine ⟨wd, text, ?_, h2, ?_⟩
  · rw [mkWriter_simple] at h1 ⊢
    exact h1
  rw [readText_of limit hl _ _ _ _ _ _ (makeSimpleDialect_dialectOf _ _ _ _)] at h3 ⊢
  obtain ⟨k1, k2⟩ := strict_cases (cfgOf (some d) (some q) none limit true) mkPlain rfl rfl hq.1 hq.2 text
  constructor
  · intro h
    rw [k1 h]
    exact h3
  · intro h
    have := k2 h
    cases hx : parseText (cfgOf (some d) (some q) none limit true) mkPlain text with
    | mk r o =>
      rw [hx] at this
      cases o with
      | none => exact absurd rfl this
      | some e => exact ⟨_, rfl⟩

/-- A text with a quoted cell, one with an escaped quote, and one without quotes. -/
example : (parseString 99 (dialectOf (some ',') (some '"') none true) "a,\"b\"\n".toList).2 ≠ none ∧
    (parseString 99 (dialectOf (some ',') (some '"') (some '|') true) "a,|\"b\n".toList) =
      ([["a".toList, "\"b".toList]], none) ∧
    (parseString 99 (dialectOf (some ',') (some '"') none true) "a,b\n".toList).2 = none := by decide

/-- **C13 exactly**: the last cell of a text that ends in quotes is the text after the quote with doubled quotes halved,
unless this ends in a quote; then that quote is lost, and if the rest begins with a quote, this is lost too. -/
theorem C13_exact (d q : Char) (r body : Str) (cells : List Str) (hr : rawCells d q false r = cells ++ [q :: body])
    (hodd : oddQuotes q r = true) :
    recordRow d q r = cells.map (cellValue q) ++ [(
      let s := undouble q true body
      if s.getLast? = some q then (if s.dropLast.head? = some q then s.dropLast.tail else s.dropLast) else s, true)] := by
  by_cases hend : (undouble q true body).getLast? = some q
  · have hne : r ≠ [] := by rintro rfl; simp [oddQuotes] at hodd
    simp only [recordRow, hne, if_false, hodd, if_true, hr]
    simp only [List.dropLast_concat, List.getLast?_append, List.getLast?_singleton, Option.some_or,
      Option.map_some, Option.toList_some]
    congr 2
    simp only [openCellValue, undouble_false, beq_self_eq_true, hend, if_true]
    cases hu : undouble q true body with
    | nil => simp [hu] at hend
    | cons a t =>
      rw [hu] at hend
      simp only [stripOuter, hend, and_self, if_true]
      cases ht : (a :: t).dropLast with
      | nil => simp [stripOpen]
      | cons x xs =>
        by_cases hx : x = q <;> simp [stripOpen, hx]
  · rw [C13_open_cell_partial d q r body cells hr hodd hend]
    simp [hend]

/-- **C13 if and only if**: the last cell keeps its content exactly when the content does not end in a quote. -/
theorem C13_iff (d q : Char) (r body : Str) (cells : List Str) (hr : rawCells d q false r = cells ++ [q :: body])
    (hodd : oddQuotes q r = true) :
    recordRow d q r = cells.map (cellValue q) ++ [(undouble q true body, true)] ↔
      (undouble q true body).getLast? ≠ some q := by
  refine ⟨fun h hend => ?_, C13_open_cell_partial d q r body cells hr hodd⟩
  rw [C13_exact d q r body cells hr hodd] at h
  simp only [List.append_cancel_left_eq, List.cons.injEq, Prod.mk.injEq, and_true] at h
  rw [if_pos hend] at h
  have h1 := congrArg List.length h
  have h2 : undouble q true body ≠ [] := by intro h; simp [h] at hend
  have h3 := List.length_pos_iff.2 h2
  split at h1 <;> simp at h1 <;> omega

/-- A content that ends in a quote, and one that is nothing but quotes. -/
example : parseString 99 (dialectOf (some ',') (some '"') none) "x,\"a\"\"\"\"".toList =
      ([["x".toList, "a\"".toList]], none) ∧
    parseString 99 (dialectOf (some ',') (some '"') none) "\"\"\"\"\"".toList = ([[[]]], none) := by decide

end Props

end Clever
