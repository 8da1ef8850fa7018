import Verif.Proofs.ExactFit
import Verif.Props.RoundTrip
import Mathlib.Tactic.Tauto

/-!
# Helper lemmas: writing without quotes, cells with double quotes
-/

namespace Clever

open Props

variable {α : Type}

/-- The escape character in front of every double quote. -/
def escQuotes (e : Char) (s : Str) : Str := s.flatMap fun c => if c = '"' then [e, c] else [c]

/-- `t'` is `t` with the escape characters in front of some double quotes doubled. -/
inductive Dup (e : Char) : Str → Str → Prop
  | nil : Dup e [] []
  | char {c : Char} {t t' : Str} : c ≠ e → Dup e t t' → Dup e (c :: t) (c :: t')
  | esc {c : Char} {t t' : Str} : Dup e t t' → Dup e (e :: c :: t) (e :: c :: t')
  | quote {t t' : Str} : Dup e t t' → Dup e (e :: '"' :: t) (e :: e :: '"' :: t')

theorem Dup.append {e : Char} {a a' b b' : Str} (h : Dup e a a') (hb : Dup e b b') : Dup e (a ++ b) (a' ++ b') := by
  induction h with
  | nil => exact hb
  | char h1 _ ih => exact .char h1 ih
  | esc _ ih => exact .esc ih
  | quote _ ih => exact .quote ih

theorem Dup.head {e : Char} {a a' : Str} (h : Dup e a a') : a.head? = a'.head? := by
  cases h <;> rfl

theorem Dup.plain {e : Char} : ∀ {s : Str}, e ∉ s → Dup e s s
  | [], _ => .nil
  | c :: s, h => .char (fun he => h (by simp [he])) (Dup.plain fun hm => h (by simp [hm]))

/-- States outside quotes and not after an escape character. -/
def PlainState (s : PState) : Prop :=
  s = .startRecord ∨ s = .startField ∨ s = .inField ∨ s = .afterEscapedCRNL ∨ s = .eatCRNL

section
variable {cfg : Cfg} {mk : Str → Bool → α}

theorem addChar_keeps_state {o o₁ : PObj α} {c : Char} (h : addChar cfg o c = .ok o₁) : o₁.state = o.state := by
  rw [addChar] at h
  split at h
  · cases h
  · cases h
    rfl

theorem plain_step (hq : cfg.quotechar = NUL) {o o₁ : PObj α} {c v : Char} (he : c ≠ cfg.escapechar) (hs : PlainState o.state)
    (h : processChar cfg mk o c v = .ok o₁) : PlainState o₁.state := by
  have start : ∀ o : PObj α, o.state = .startField → stepStartField cfg mk o c = .ok o₁ → PlainState o₁.state := by
    intro o ho h
    rw [stepStartField] at h
    split at h
    · cases h
      simp only [PObj.to, PlainState]
      split <;> simp
    · split at h
      · rename_i h1 h2
        simp [h2, hq] at h1
      · split at h
        · cases h
          simp [saveField, PlainState, ho]
        · simp only [bind, Except.bind] at h
          split at h
          · cases h
          · cases h
            simp [PObj.to, PlainState]
  have field : ∀ o : PObj α, (o.state = .inField ∨ o.state = .afterEscapedCRNL) → stepInField cfg mk o c = .ok o₁ →
      PlainState o₁.state := by
    intro o ho h
    rw [stepInField] at h
    split at h
    · cases h
      simp only [PObj.to, PlainState]
      split <;> simp
    · split at h
      · rename_i h1 h2
        simp [h2, hq] at h1
      · split at h
        · cases h
          simp [PObj.to, PlainState]
        · rw [PlainState, addChar_keeps_state h]
          rcases ho with ho | ho <;> simp [ho]
  rcases hs with hs | hs | hs | hs | hs <;> simp only [processChar, hs] at h
  · split at h
    · cases h
      simp [PlainState, hs]
    · split at h
      · cases h
        simp [PObj.to, PlainState]
      · exact start _ rfl h
  · exact start _ hs h
  · exact field _ (.inl hs) h
  · split at h
    · cases h
      simp [PlainState, hs]
    · exact field _ (.inr hs) h
  · split at h
    · cases h
      simp [PlainState, hs]
    · split at h
      · cases h
        simp [PObj.to, PlainState]
      · cases h

theorem esc_step {e : Char} (hq : cfg.quotechar = NUL) (hce : cfg.escapechar = e) (heN : e ≠ NUL) (heL : isNL e = false)
    {o : PObj α} (hs : PlainState o.state) (v : Char) :
    processChar cfg mk o e v = if o.state = .eatCRNL then .error .newlineInUnquoted else .ok (o.to .escapedChar) := by
  rcases hs with hs | hs | hs | hs | hs <;>
    simp [processChar, hs, heN, heL, hq, hce, stepStartField, stepInField, PObj.to]

theorem escaped_step {o o₁ : PObj α} {c v : Char} (hs : o.state = .escapedChar)
    (h : processChar cfg mk o c v = .ok o₁) : PlainState o₁.state := by
  simp only [processChar, hs, bind, Except.bind] at h
  repeat' split at h
  all_goals first
    | (cases h; simp [PObj.to, PlainState]; done)
    | cases h

/-- One character on both sides. -/
theorem textRun_same {o : PObj α} {c : Char} {t t' : Str} (hh : t.head? = t'.head?)
    (hk : ∀ o₁ v, processChar cfg mk o c v = .ok o₁ →
      textRun cfg mk o₁ t = textRun cfg mk o₁ t' ∧
      ∀ o₂, processChar cfg mk o₁ NUL NUL = .ok o₂ → textRun cfg mk o₂ t = textRun cfg mk o₂ t')
    (hi : textRun cfg mk PObj.init t = textRun cfg mk PObj.init t') :
    textRun cfg mk o (c :: t) = textRun cfg mk o (c :: t') := by
  have h1 : lineEndAfter c t = lineEndAfter c t' := by simp [lineEndAfter, hh]
  have h2 : t.isEmpty = t'.isEmpty := by
    cases t <;> cases t' <;> simp_all
  have h3 : t.headD NUL = t'.headD NUL := by
    cases t <;> cases t' <;> simp_all
  rw [textRun, textRun, h1, h2, h3]
  split
  · rfl
  · split
    · cases hp : processChar cfg mk o c NUL with
      | error e => rfl
      | ok o₁ =>
        simp only
        cases hp2 : processChar cfg mk o₁ NUL NUL with
        | error e => rfl
        | ok o₂ =>
          simp only [emit, hi, (hk o₁ _ hp).2 o₂ hp2]
    · cases hp : processChar cfg mk o c (t'.headD NUL) with
      | error e => rfl
      | ok o₁ => exact (hk o₁ _ hp).1

theorem textRun_dup {e : Char} (hq : cfg.quotechar = NUL) (hce : cfg.escapechar = e) (heN : e ≠ NUL) (heL : isNL e = false)
    (heQ : e ≠ '"') (hd : cfg.delimiter ≠ '"') {t t' : Str} (h : Dup e t t') :
    ∀ o : PObj α, PlainState o.state → textRun cfg mk o t = textRun cfg mk o t' := by
  have init : PlainState (PObj.init : PObj α).state := .inl rfl
  induction h with
  | nil => exact fun _ _ => rfl
  | @char c t t' hc hd ih =>
    intro o hs
    refine textRun_same hd.head (fun o₁ v hp => ?_) (ih _ init)
    have h1 := plain_step hq (hce ▸ hc) hs hp
    exact ⟨ih _ h1, fun o₂ hp2 => ih _ (plain_step hq (by rw [hce]; exact Ne.symm heN) h1 hp2)⟩
  | @esc c t t' hd ih =>
    intro o hs
    have hstep := esc_step (mk := mk) hq hce heN heL hs
    by_cases hc : o.state = .eatCRNL
    · rw [textRun_err heN (fun v => by rw [hstep, if_pos hc]), textRun_err heN (fun v => by rw [hstep, if_pos hc])]
    · rw [textRun_step heN heL (by simp) (by rw [hstep, if_neg hc]), textRun_step heN heL (by simp) (by rw [hstep, if_neg hc])]
      refine textRun_same hd.head (fun o₁ v hp => ?_) (ih _ init)
      have h1 := escaped_step (by rfl) hp
      exact ⟨ih _ h1, fun o₂ hp2 => ih _ (plain_step hq (by rw [hce]; exact Ne.symm heN) h1 hp2)⟩
  | @quote t t' hdd ih =>
    intro o hs
    have hstep := esc_step (mk := mk) hq hce heN heL hs
    by_cases hc : o.state = .eatCRNL
    · rw [textRun_err heN (fun v => by rw [hstep, if_pos hc]), textRun_err heN (fun v => by rw [hstep, if_pos hc])]
    · rw [textRun_step heN heL (by simp) (by rw [hstep, if_neg hc]), textRun_step heN heL (by simp) (by rw [hstep, if_neg hc])]
      have hn1 : isNL '"' = false := by decide
      have hn2 : '"' ≠ NUL := by decide
      have hL : ∀ v, processChar cfg mk (o.to .escapedChar) '"' v =
          (addChar cfg (o.to .escapedChar) e >>= fun o => addChar cfg o '"' >>= fun o => .ok (o.to .inField)) := by
        intro v
        simp [processChar, PObj.to, hn1, hn2, hce, Ne.symm hd, Ne.symm heQ, hq, bind, Except.bind]
      have hR : ∀ v, processChar cfg mk (o.to .escapedChar) e v =
          (addChar cfg (o.to .escapedChar) e >>= fun o => .ok (o.to .inField)) := by
        intro v
        simp [processChar, PObj.to, heL, heN, hce, bind, Except.bind, pure, Except.pure]
      have hR2 : ∀ (o : PObj α) v, o.state = .inField → processChar cfg mk o '"' v = addChar cfg o '"' := by
        intro o v ho
        simp [processChar, ho, stepInField, hn1, hn2, hce, Ne.symm hd, Ne.symm heQ, hq]
      cases ha : addChar cfg (o.to .escapedChar) e with
      | error err =>
        rw [textRun_err hn2 (fun v => by rw [hL, ha]; rfl), textRun_err heN (fun v => by rw [hR, ha]; rfl)]
      | ok o₁ =>
        rw [textRun_step (c := e) heN heL (by simp) (by rw [hR, ha]; rfl)]
        have hsame : ∀ v, processChar cfg mk (o.to .escapedChar) '"' v = processChar cfg mk (o₁.to .inField) '"' v := by
          intro v
          rw [hL, ha, hR2 _ v rfl]
          by_cases hx : cfg.fieldLimit ≤ (o₁.field.length : Int) <;> simp [bind, Except.bind, addChar, PObj.to, hx]
        have heq : textRun cfg mk (o.to .escapedChar) ('"' :: t) = textRun cfg mk (o₁.to .inField) ('"' :: t) := by
          rw [textRun, textRun]
          simp only [hsame]
        rw [heq]
        refine textRun_same hdd.head (fun o₂ v hp => ?_) (ih _ init)
        have h1 := plain_step hq (by rw [hce]; exact Ne.symm heQ) (.inr (.inr (.inl rfl))) hp
        exact ⟨ih _ h1, fun o₃ hp2 => ih _ (plain_step hq (by rw [hce]; exact Ne.symm heN) h1 hp2)⟩

end

/-! ## The writer -/

/-- The writer without quotes that does not know the double quote. -/
def bareWriter (d e : Char) : WDialect := { simpleWriter d none (some e) with quotechar := none }

section
variable {d e : Char}

theorem simple_writeChar (c : Char) :
    (simpleWriter d none (some e)).writeChar c =
      .ok (if c = d ∨ c = e ∨ c = '"' ∨ c = '\n' ∨ c = '\r' then [e, c] else [c], false) := by
  by_cases h : c = d ∨ c = e ∨ c = '"' ∨ c = '\n' ∨ c = '\r'
  · have : (simpleWriter d none (some e)).special c = true := by
      rcases h with h | h | h | h | h <;> simp [WDialect.special, simpleWriter, h]
    simp [WDialect.writeChar, this, h, WDialect.escaped, Except.map, simpleWriter]
    exact this
  · have : (simpleWriter d none (some e)).special c = false := by
      simp only [not_or] at h
      simp [WDialect.special, simpleWriter, h, Ne.symm h.2.1, Ne.symm h.2.2.1]
    simp [WDialect.writeChar, this, h]

theorem bare_writeChar (c : Char) :
    (bareWriter d e).writeChar c = .ok (if c = d ∨ c = e ∨ c = '\n' ∨ c = '\r' then [e, c] else [c], false) := by
  by_cases h : c = d ∨ c = e ∨ c = '\n' ∨ c = '\r'
  · have : (bareWriter d e).special c = true := by
      rcases h with h | h | h | h <;> simp [WDialect.special, bareWriter, simpleWriter, h]
    simp [WDialect.writeChar, this, h, WDialect.escaped, Except.map, simpleWriter, bareWriter]
    exact this
  · have : (bareWriter d e).special c = false := by
      simp only [not_or] at h
      simp [WDialect.special, simpleWriter, bareWriter, h, Ne.symm h.2.1]
    simp [WDialect.writeChar, this, h]

theorem writeChars_append {wd : WDialect} {a b x y : Str} {p q : Bool} (ha : wd.writeChars a = .ok (x, p))
    (hb : wd.writeChars b = .ok (y, q)) : wd.writeChars (a ++ b) = .ok (x ++ y, p || q) := by
  induction a generalizing x p with
  | nil =>
    simp only [WDialect.writeChars, Except.ok.injEq, Prod.mk.injEq] at ha
    obtain ⟨rfl, rfl⟩ := ha
    simpa using hb
  | cons c a ih =>
    obtain ⟨x₁, b₁, x₂, b₂, h1, h2, rfl, rfl⟩ := writeChars_cons ha
    rw [List.cons_append, WDialect.writeChars, h1]
    simp only [bind, Except.bind, ih h2, pure, Except.pure]
    simp [Bool.or_assoc]

theorem writeChars_dup (hdq : d ≠ '"') (heq : e ≠ '"') : ∀ s : Str, ∃ x x',
    (simpleWriter d none (some e)).writeChars s = .ok (x, false) ∧
      (bareWriter d e).writeChars (escQuotes e s) = .ok (x', false) ∧ Dup e x x'
  | [] => ⟨[], [], rfl, rfl, .nil⟩
  | c :: s => by
    obtain ⟨x, x', h1, h2, h3⟩ := writeChars_dup hdq heq s
    have hcons : ∀ (wd : WDialect) (c : Char) (a b : Str) (s : Str), wd.writeChar c = .ok (a, false) →
        wd.writeChars s = .ok (b, false) → wd.writeChars (c :: s) = .ok (a ++ b, false) := by
      intro wd c a b s ha hb
      rw [WDialect.writeChars, ha]
      simp [bind, Except.bind, hb, pure, Except.pure]
    have hesc : escQuotes e (c :: s) = (if c = '"' then [e, c] else [c]) ++ escQuotes e s := by
      simp [escQuotes]
    by_cases hc : c = '"'
    · subst hc
      refine ⟨_, _, hcons _ _ _ _ _ (simple_writeChar _) h1, by
        rw [hesc, if_pos rfl]
        exact hcons _ _ _ _ _ (bare_writeChar _) (hcons _ _ _ _ _ (bare_writeChar _) h2), ?_⟩
      have hx : ¬ ('"' = d ∨ '"' = e ∨ '"' = '\n' ∨ '"' = '\r') := by
        simp [Ne.symm hdq, Ne.symm heq]
      rw [if_pos (by simp), if_pos (by simp), if_neg hx]
      exact .quote h3
    · refine ⟨_, _, hcons _ _ _ _ _ (simple_writeChar _) h1, by
        rw [hesc, if_neg hc]
        exact hcons _ _ _ _ _ (bare_writeChar _) h2, ?_⟩
      by_cases hs : c = d ∨ c = e ∨ c = '\n' ∨ c = '\r'
      · rw [if_pos (by tauto), if_pos hs]
        exact .esc h3
      · rw [if_neg (by tauto), if_neg hs]
        exact .char (by tauto) h3

theorem writeField_none {wd : WDialect} (hq : wd.quoting = .none) {s x : Str} (h : wd.writeChars s = .ok (x, false)) :
    wd.writeField s = .ok x := by
  simp [WDialect.writeField, h, bind, Except.bind, pure, Except.pure, hq]

theorem escQuotes_nil {s : Str} : escQuotes e s = [] ↔ s = [] := by
  cases s with
  | nil => simp [escQuotes]
  | cons c s =>
    simp only [escQuotes, List.flatMap_cons, List.append_eq_nil_iff, reduceCtorEq, iff_false, not_and]
    intro h
    split at h <;> cases h

theorem writeFields_dup (hdq : d ≠ '"') (heq : e ≠ '"') (hde : d ≠ e) : ∀ row : List Str, ∃ x x',
    (simpleWriter d none (some e)).writeFields row = .ok x ∧
      (bareWriter d e).writeFields (row.map (escQuotes e)) = .ok x' ∧ Dup e x x'
  | [] => ⟨[], [], rfl, rfl, .nil⟩
  | [s] => by
    obtain ⟨x, x', h1, h2, h3⟩ := writeChars_dup hdq heq s
    exact ⟨x, x', writeField_none rfl h1, writeField_none rfl h2, h3⟩
  | s :: t :: r => by
    obtain ⟨x, x', h1, h2, h3⟩ := writeChars_dup hdq heq s
    obtain ⟨y, y', h4, h5, h6⟩ := writeFields_dup hdq heq hde (t :: r)
    refine ⟨x ++ d :: y, x' ++ d :: y', ?_, ?_, h3.append (.char hde h6)⟩
    · simp only [WDialect.writeFields, writeField_none rfl h1, h4, bind, Except.bind, pure, Except.pure]
      rfl
    · rw [List.map_cons] at h5
      simp only [List.map_cons, WDialect.writeFields, writeField_none rfl h2, h5, bind, Except.bind, pure, Except.pure]
      rfl

theorem writeRows_dup (hdq : d ≠ '"') (heq : e ≠ '"') (hde : d ≠ e) (heL : isNL e = false) :
    ∀ (rows : List (List Str)) (text : Str), (simpleWriter d none (some e)).writeRows rows = (text, none) →
      ∃ text', (bareWriter d e).writeRows (rows.map (·.map (escQuotes e))) = (text', none) ∧ Dup e text text'
  | [], text, h => by
    simp only [WDialect.writeRows, Prod.mk.injEq, and_true] at h
    subst h
    exact ⟨[], rfl, .nil⟩
  | row :: rows, text, h => by
    obtain ⟨x, x', h1, h2, h3⟩ := writeFields_dup hdq heq hde row
    have hxx : x' = [] ↔ x = [] := by
      have := h3.head
      cases x <;> cases x' <;> simp_all
    have hnl : Dup e ['\n'] ['\n'] := by
      refine .char ?_ .nil
      rintro rfl
      simp [isNL] at heL
    simp only [WDialect.writeRows, WDialect.writeRow, h1, bind, Except.bind] at h
    by_cases hx : x = [] ∧ row ≠ []
    · simp [hx, simpleWriter] at h
    · rw [if_neg hx] at h
      simp only [pure, Except.pure, Prod.mk.injEq] at h
      obtain ⟨rfl, h⟩ := h
      obtain ⟨t', h4, h5⟩ := writeRows_dup hdq heq hde heL rows _ (by rw [← h])
      refine ⟨(x' ++ ['\n']) ++ t', ?_, (h3.append hnl).append h5⟩
      have hx' : ¬ (x' = [] ∧ row.map (escQuotes e) ≠ []) := by
        rw [hxx]
        simpa using hx
      simp only [List.map_cons, WDialect.writeRows, WDialect.writeRow, h2, bind, Except.bind]
      rw [if_neg hx']
      simp only [pure, Except.pure, h4]
      rfl

end

end Clever
