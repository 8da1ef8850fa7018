import Verif.Model.Writer
import Verif.Proofs.ParseApi

/-!
# Reading what the writer wrote
-/

set_option linter.unusedSimpArgs false

namespace Clever

variable {α : Type}

/-- The writer's and the reader's dialects belong together. -/
structure RT (wd : WDialect) (cfg : Cfg) : Prop where
  del : cfg.delimiter = wd.delimiter
  esc : cfg.escapechar = wd.escapechar.getD NUL
  lax : cfg.strict = false
  dNul : wd.delimiter ≠ NUL
  dNL : isNL wd.delimiter = false
  eNul : ∀ e, wd.escapechar = some e → e ≠ NUL
  eNL : ∀ e, wd.escapechar = some e → isNL e = false
  eD : ∀ e, wd.escapechar = some e → e ≠ wd.delimiter
  lt : wd.lineterminator = ['\n'] ∨ wd.lineterminator = ['\r', '\n']
  quo : wd.quoting ≠ .none → wd.quotechar = some cfg.quotechar ∧ wd.doublequote = true ∧
    cfg.quotechar ≠ NUL ∧ isNL cfg.quotechar = false ∧ cfg.quotechar ≠ wd.delimiter ∧
    wd.escapechar ≠ some cfg.quotechar
  noq : wd.quoting = .none → cfg.quotechar = NUL

/-- Cells that can be written without quotes and read back: an escaped quote character must be the
delimiter or the escape character. -/
def CellOK (wd : WDialect) (s : Str) : Prop :=
  wd.quoting = .none → ∀ c ∈ s, wd.quotechar = some c → c = wd.delimiter ∨ wd.escapechar = some c

section
variable {wd : WDialect} {cfg : Cfg} {mk : Str → Bool → α}

def Unq (s : PState) : Prop := s = .startField ∨ s = .inField ∨ s = .afterEscapedCRNL

theorem addChar_fits {o : PObj α} {c : Char} (h : (o.field.length : Int) < cfg.fieldLimit) :
    addChar cfg o c = .ok { o with field := o.field ++ [c] } := by
  rw [addChar, if_neg (by omega)]

theorem addChar_fits' {o : PObj α} {c : Char} (h : (o.field.length : Int) < cfg.fieldLimit)
    (st : PState) :
    addChar cfg { o with state := st } c = .ok { o with field := o.field ++ [c], state := st } := by
  rw [addChar, if_neg (by simpa using h)]

theorem lineEndAfter_not_nl {c : Char} (h : isNL c = false) (rest : Str) :
    lineEndAfter c rest = false := by
  simp only [isNL, Bool.or_eq_false_iff, decide_eq_false_iff_not] at h
  simp [lineEndAfter, h.1, h.2]

/-- One step of the text machine on a character that ends no line. -/
theorem textRun_step {o o₁ : PObj α} {c : Char} {rest : Str} (hc : c ≠ NUL)
    (hnl : isNL c = false) (hr : rest ≠ [])
    (h : processChar cfg mk o c (rest.headD NUL) = .ok o₁) :
    textRun cfg mk o (c :: rest) = textRun cfg mk o₁ rest := by
  rw [textRun, if_neg hc]
  have h2 : rest.isEmpty = false := by simpa using hr
  simp only [lineEndAfter_not_nl hnl, h2, Bool.or_self, Bool.false_eq_true, if_false, h]

/-- One step that the end-of-line pseudo character does not affect. -/
theorem textRun_step_nl {o o₁ : PObj α} {c : Char} {rest : Str} (hc : c ≠ NUL)
    (h : ∀ v, processChar cfg mk o c v = .ok o₁)
    (hn : processChar cfg mk o₁ NUL NUL = .ok o₁) (hs : o₁.state ≠ .startRecord) :
    textRun cfg mk o (c :: rest) = textRun cfg mk o₁ rest := by
  rw [textRun, if_neg hc]
  simp only [h, hn, emit, if_neg hs]
  simp

theorem special_false (H : RT wd cfg) {c : Char} (h : wd.special c = false) (hc : c ≠ NUL) :
    isNL c = false ∧ c ≠ cfg.delimiter ∧ c ≠ cfg.escapechar ∧ c ≠ cfg.quotechar := by
  simp only [WDialect.special, Bool.or_eq_false_iff, decide_eq_false_iff_not] at h
  obtain ⟨⟨⟨⟨⟨h1, h2⟩, h3⟩, h4⟩, h5⟩, _⟩ := h
  refine ⟨by simp [isNL, h4, h5], by rw [H.del]; exact h1, ?_, ?_⟩
  · rw [H.esc]
    intro hh
    cases he : wd.escapechar with
    | none => simp [he] at hh; exact hc hh
    | some e => simp [he] at hh; exact h2 (by rw [he, hh])
  · intro hh
    by_cases hq : wd.quoting = .none
    · rw [H.noq hq] at hh; exact hc hh
    · exact h3 (by rw [(H.quo hq).1, hh])

/-- A special character outside quotes is escaped. -/
theorem writeChar_escaped (H : RT wd cfg) {c : Char} {x : Str} (hw : wd.writeChar c = .ok (x, false)) (hok : CellOK wd [c])
    (hsp : ¬ wd.special c = false) : ∃ e, wd.escapechar = some e ∧ x = [e, c] ∧
      (isNL c = true ∨ c = wd.delimiter ∨ c = e ∨ c = cfg.quotechar) := by
  have hsp' : wd.special c = true := by simpa using hsp
  simp only [WDialect.writeChar, hsp', Bool.not_true, Bool.false_eq_true, if_false,
    WDialect.escaped] at hw
  have hkind : wd.quoting = .none → ∀ e, wd.escapechar = some e →
      (isNL c = true ∨ c = wd.delimiter ∨ c = e ∨ c = cfg.quotechar) := by
    intro hq e he
    simp only [WDialect.special, Bool.or_eq_true, decide_eq_true_eq] at hsp'
    rcases hsp' with ((((h | h) | h) | h) | h) | h
    · exact Or.inr (Or.inl h)
    · rw [he] at h; exact Or.inr (Or.inr (Or.inl (by simpa using h.symm)))
    · rcases hok hq c (by simp) h with h' | h'
      · exact Or.inr (Or.inl h')
      · rw [he] at h'; exact Or.inr (Or.inr (Or.inl (by simpa using h'.symm)))
    · exact Or.inl (by simp [isNL, h])
    · exact Or.inl (by simp [isNL, h])
    · left
      rcases H.lt with hlt | hlt <;> rw [hlt] at h <;> simp at h <;>
        simp [isNL] <;> grind
  cases he : wd.escapechar with
  | none =>
    rw [he] at hw
    simp only [Except.map] at hw
    split at hw
    · simp at hw
    · split at hw
      · split at hw <;> simp at hw
      · simp at hw
  | some e =>
    rw [he] at hw
    simp only [Except.map] at hw
    refine ⟨e, rfl, ?_⟩
    split at hw
    · rename_i hq
      simp at hw
      exact ⟨hw.symm, hkind hq e he⟩
    · rename_i hq
      obtain ⟨h1, h2, _⟩ := H.quo hq
      split at hw
      · simp [h2] at hw
      · split at hw
        · rename_i h'
          simp at hw h'
          exact ⟨hw.symm, Or.inr (Or.inr (Or.inl h'.symm))⟩
        · simp at hw

/-- The encoding of one character outside quotes. -/
theorem run_unq_char (H : RT wd cfg) {o : PObj α} {c : Char} {x tail : Str}
    (hw : wd.writeChar c = .ok (x, false)) (hc : c ≠ NUL) (hok : CellOK wd [c])
    (hst : Unq o.state) (ht : tail ≠ []) (hl : (o.field.length : Int) < cfg.fieldLimit) :
    ∃ st, (st = .inField ∨ st = .afterEscapedCRNL) ∧
      textRun cfg mk o (x ++ tail) =
        textRun cfg mk { o with field := o.field ++ [c], state := st } tail := by
  by_cases hsp : wd.special c = false
  · simp only [WDialect.writeChar, hsp, Bool.not_false, if_true, Except.ok.injEq, Prod.mk.injEq,
      and_true] at hw
    subst hw
    obtain ⟨h1, h2, h3, h4⟩ := special_false H hsp hc
    rcases hst with hst | hst | hst
    · refine ⟨.inField, Or.inl rfl, ?_⟩
      apply textRun_step hc h1 ht
      simp [processChar, hst, stepStartField, h1, hc, h2, h3, h4, addChar_fits hl, bind,
        Except.bind, PObj.to]
    · refine ⟨.inField, Or.inl rfl, ?_⟩
      apply textRun_step hc h1 ht
      simp [processChar, hst, stepInField, h1, hc, h2, h3, h4, addChar_fits hl, bind,
        Except.bind, PObj.to]
    · refine ⟨.afterEscapedCRNL, Or.inr rfl, ?_⟩
      apply textRun_step hc h1 ht
      simp [processChar, hst, stepInField, h1, hc, h2, h3, h4, addChar_fits hl, bind,
        Except.bind, PObj.to]
  · -- the character is escaped
    obtain ⟨e, he, rfl, hkind⟩ := writeChar_escaped H hw hok hsp
    have heNul := H.eNul e he
    have heNL := H.eNL e he
    have hcfge : cfg.escapechar = e := by rw [H.esc, he]; rfl
    have hed : e ≠ cfg.delimiter := by rw [H.del]; exact H.eD e he
    have heq : e ≠ cfg.quotechar := by
      intro hh
      by_cases hq : wd.quoting = .none
      · rw [H.noq hq] at hh; exact heNul hh
      · exact (H.quo hq).2.2.2.2.2 (by rw [he, hh])
    have hstep : ∀ v, processChar cfg mk o e v = .ok (o.to .escapedChar) := by
      intro v
      rcases hst with hst | hst | hst <;>
        simp [processChar, hst, stepStartField, stepInField, heNL, heNul, heq, hcfge]
    have hrun : textRun cfg mk o ([e, c] ++ tail) = textRun cfg mk (o.to .escapedChar) (c :: tail) :=
      textRun_step heNul heNL (by simp) (hstep _)
    by_cases hnl : isNL c = true
    · refine ⟨.afterEscapedCRNL, Or.inr rfl, ?_⟩
      rw [hrun]
      apply textRun_step_nl hc
      · intro v
        simp [processChar, PObj.to, hnl, addChar_fits' hl, bind, Except.bind]
      · simp [processChar]
      · simp
    · have hnl' : isNL c = false := by simpa using hnl
      refine ⟨.inField, Or.inl rfl, ?_⟩
      rw [hrun]
      apply textRun_step hc hnl' ht
      have hk : c = cfg.delimiter ∨ c = cfg.escapechar ∨ c = cfg.quotechar := by
        rw [H.del, hcfge]
        rcases hkind with h | h | h | h
        · exact absurd h hnl
        · exact Or.inl h
        · exact Or.inr (Or.inl h)
        · exact Or.inr (Or.inr h)
      have hcond : ¬ (c ≠ NUL ∧ c ≠ cfg.delimiter ∧ c ≠ cfg.escapechar ∧ c ≠ cfg.quotechar) := by
        grind
      simp only [processChar, PObj.to, hnl', Bool.false_eq_true, if_false, if_neg hcond, bind,
        Except.bind, hc, addChar_fits' hl]

theorem writeChars_cons {c : Char} {cs x : Str} {b : Bool}
    (h : wd.writeChars (c :: cs) = .ok (x, b)) :
    ∃ x₁ b₁ x₂ b₂, wd.writeChar c = .ok (x₁, b₁) ∧ wd.writeChars cs = .ok (x₂, b₂) ∧
      x = x₁ ++ x₂ ∧ b = (b₁ || b₂) := by
  simp only [WDialect.writeChars, bind, Except.bind, pure, Except.pure] at h
  cases h1 : wd.writeChar c with
  | error e => simp [h1] at h
  | ok p =>
    cases h2 : wd.writeChars cs with
    | error e => simp [h1, h2] at h
    | ok r =>
      simp [h1, h2] at h
      exact ⟨p.1, p.2, r.1, r.2, rfl, rfl, h.1.symm, h.2.symm⟩

/-- The encoding of a whole cell outside quotes. -/
theorem run_unq (H : RT wd cfg) (s : Str) : ∀ {o : PObj α} {x tail : Str},
    wd.writeChars s = .ok (x, false) → NUL ∉ s → CellOK wd s → Unq o.state → tail ≠ [] →
    ((o.field.length + s.length : Nat) : Int) ≤ max cfg.fieldLimit o.field.length →
    ∃ st, (if s = [] then st = o.state else st = .inField ∨ st = .afterEscapedCRNL) ∧
      textRun cfg mk o (x ++ tail) =
        textRun cfg mk { o with field := o.field ++ s, state := st } tail := by
  induction s with
  | nil =>
    intro o x tail hw _ _ _ _ _
    simp [WDialect.writeChars] at hw
    subst hw
    exact ⟨o.state, by simp, by simp⟩
  | cons c cs ih =>
    intro o x tail hw hn hok hst ht hl
    obtain ⟨x₁, b₁, x₂, b₂, h1, h2, rfl, hb⟩ := writeChars_cons hw
    simp only [Bool.false_eq, Bool.or_eq_false_iff] at hb
    obtain ⟨rfl, rfl⟩ := hb
    simp only [List.mem_cons, not_or] at hn
    simp only [List.length_cons] at hl
    obtain ⟨st, hst', hr⟩ := run_unq_char (mk := mk) (tail := x₂ ++ tail) H h1 (Ne.symm hn.1)
      (fun hq c' hc' => hok hq c' (by simp at hc'; simp [hc'])) hst (by simp [ht]) (by omega)
    obtain ⟨st₂, hst₂, hr₂⟩ := ih (o := { o with field := o.field ++ [c], state := st })
      (tail := tail) h2 hn.2
      (fun hq c' hc' => hok hq c' (by simp [hc'])) (by
        rcases hst' with h | h <;> simp [Unq, h]) ht (by simp; omega)
    refine ⟨st₂, ?_, ?_⟩
    · simp only [reduceCtorEq, if_false]
      by_cases hcs : cs = []
      · simp only [hcs, if_true] at hst₂; rw [hst₂]; exact hst'
      · simpa [hcs] using hst₂
    · rw [List.append_assoc, hr, hr₂]
      simp

/-- The encoding of one character inside quotes. -/
theorem run_quo_char (H : RT wd cfg) (hq : wd.quoting ≠ .none) {o : PObj α} {c : Char}
    {x tail : Str} {b : Bool}
    (hw : wd.writeChar c = .ok (x, b)) (hc : c ≠ NUL)
    (hst : o.state = .inQuotedField) (ht : tail ≠ [])
    (hl : (o.field.length : Int) < cfg.fieldLimit) :
    textRun cfg mk o (x ++ tail) = textRun cfg mk { o with field := o.field ++ [c] } tail := by
  obtain ⟨hq1, hdq, hqNul, hqNL, hqd, hqe⟩ := H.quo hq
  by_cases hcq : c = cfg.quotechar
  · have hsp : wd.special c = true := by simp [WDialect.special, hq1, hcq]
    simp only [WDialect.writeChar, hsp, Bool.not_true, Bool.false_eq_true, if_false, hq, hcq ▸ hq1,
      hdq, if_true, Except.ok.injEq, Prod.mk.injEq] at hw
    obtain ⟨rfl, _⟩ := hw
    have hne : cfg.quotechar ≠ cfg.escapechar := by
      rw [H.esc]
      cases he : wd.escapechar with
      | none => simpa using hqNul
      | some e => intro hh; simp at hh; exact hqe (by rw [he, hh])
    subst hcq
    have e1 : textRun cfg mk o ([cfg.quotechar, cfg.quotechar] ++ tail) =
        textRun cfg mk (o.to .quoteInQuotedField) (cfg.quotechar :: tail) := by
      apply textRun_step hc hqNL (by simp)
      simp [processChar, hst, hc, hne]
    rw [e1]
    apply textRun_step hc hqNL ht
    simp only [processChar, PObj.to, if_true, bind, Except.bind, addChar_fits' hl]
    simp [hst]
  · by_cases hce : c = cfg.escapechar
    · -- escaped escape character
      cases he : wd.escapechar with
      | none => rw [H.esc, he] at hce; exact absurd hce hc
      | some e =>
        have hcfge : cfg.escapechar = e := by rw [H.esc, he]; rfl
        rw [hcfge] at hce
        subst hce
        have hsp : wd.special c = true := by simp [WDialect.special, he]
        have hq2 : wd.quotechar ≠ some c := by rw [hq1]; simpa using Ne.symm hcq
        simp [WDialect.writeChar, hsp, hq, hq2, he, WDialect.escaped, Except.map] at hw
        obtain ⟨rfl, _⟩ := hw
        have e1 : textRun cfg mk o ([c, c] ++ tail) =
            textRun cfg mk (o.to .escapeInQuotedField) (c :: tail) := by
          apply textRun_step hc (H.eNL c he) (by simp)
          simp [processChar, hst, hc, hcfge]
        rw [e1]
        apply textRun_step hc (H.eNL c he) ht
        simp only [processChar, PObj.to, hcfge, ne_eq, not_true_eq_false, false_and, if_false, bind,
          Except.bind, hc, addChar_fits' hl]
        simp [hst]
    · -- plain
      have hx : x = [c] := by
        have h1 : wd.quotechar ≠ some c := by rw [hq1]; simpa using Ne.symm hcq
        have h2 : wd.escapechar ≠ some c := by
          intro hh; exact hce (by rw [H.esc, hh]; rfl)
        simp only [WDialect.writeChar, hq, h1, h2, if_false] at hw
        split at hw <;> simp at hw <;> exact hw.1.symm
      subst hx
      have hs : ∀ v, processChar cfg mk o c v = .ok { o with field := o.field ++ [c] } := by
        intro v
        simp [processChar, hst, hc, hce, hcq, addChar_fits hl]
      apply textRun_step_nl hc hs
      · simp [processChar, hst]
      · simp [hst]

/-- The encoding of a whole cell inside quotes. -/
theorem run_quo (H : RT wd cfg) (hq : wd.quoting ≠ .none) (s : Str) :
    ∀ {o : PObj α} {x tail : Str} {b : Bool},
    wd.writeChars s = .ok (x, b) → NUL ∉ s → o.state = .inQuotedField → tail ≠ [] →
    ((o.field.length + s.length : Nat) : Int) ≤ cfg.fieldLimit →
      textRun cfg mk o (x ++ tail) =
        textRun cfg mk { o with field := o.field ++ s } tail := by
  induction s with
  | nil =>
    intro o x tail b hw _ _ _ _
    simp [WDialect.writeChars] at hw
    obtain ⟨rfl, _⟩ := hw
    simp
  | cons c cs ih =>
    intro o x tail b hw hn hst ht hl
    obtain ⟨x₁, b₁, x₂, b₂, h1, h2, rfl, hb⟩ := writeChars_cons hw
    simp only [List.mem_cons, not_or] at hn
    simp only [List.length_cons] at hl
    have hr := run_quo_char (mk := mk) (tail := x₂ ++ tail) H hq h1 (Ne.symm hn.1) hst
      (by simp [ht]) (by omega)
    have hr₂ := ih (o := { o with field := o.field ++ [c] }) (tail := tail) h2 hn.2 hst ht
      (by simp; omega)
    rw [List.append_assoc, hr, hr₂]
    simp

/-- Is the field written in quotes? -/
def WDialect.quotes (wd : WDialect) (s : Str) : Bool :=
  match wd.writeChars s with
  | .ok x => x.2 || wd.quoting = .all || wd.quoting = .nonnumeric
  | .error _ => false

/-- Quotes are used only if they are enabled. -/
theorem writeChars_none (hq : wd.quoting = .none) (s : Str) {x : Str} {b : Bool}
    (h : wd.writeChars s = .ok (x, b)) : b = false := by
  induction s generalizing x b with
  | nil => simp [WDialect.writeChars] at h; exact h.2
  | cons c cs ih =>
    obtain ⟨x₁, b₁, x₂, b₂, h1, h2, rfl, rfl⟩ := writeChars_cons h
    rw [ih h2]
    simp only [WDialect.writeChar, hq, if_true, WDialect.escaped, Except.map] at h1
    split at h1
    · simp at h1; simp [h1.2]
    · cases he : wd.escapechar <;> simp [he] at h1
      simp [h1.2]

/-- Outside quotes there is no quote character (other than none at all). -/
theorem writeChars_noquote (H : RT wd cfg) (hq : wd.quoting ≠ .none) (s : Str) {x : Str}
    (h : wd.writeChars s = .ok (x, false)) : cfg.quotechar ∉ s := by
  induction s generalizing x with
  | nil => simp
  | cons c cs ih =>
    obtain ⟨x₁, b₁, x₂, b₂, h1, h2, rfl, hb⟩ := writeChars_cons h
    simp only [Bool.false_eq, Bool.or_eq_false_iff] at hb
    obtain ⟨rfl, rfl⟩ := hb
    simp only [List.mem_cons, not_or]
    refine ⟨?_, ih h2⟩
    rintro hh
    obtain ⟨hq1, hdq, _⟩ := H.quo hq
    have hsp : wd.special c = true := by simp [WDialect.special, hq1, hh]
    simp [WDialect.writeChar, hsp, hq, hh ▸ hq1, hdq] at h1

theorem saveCell_unq (H : RT wd cfg) {s x : Str} (h : wd.writeChars s = .ok (x, false))
    : saveCell cfg.quotechar s false = (s, false) := by
  by_cases hq : wd.quoting = .none
  · simp [saveCell, quoteCond, H.noq hq]
  · have := writeChars_noquote H hq s h
    have h2 : quoteCond s cfg.quotechar = false := by
      simp only [quoteCond, (H.quo hq).2.2.1, if_false]
      split
      · rfl
      · cases s with
        | nil => simp [startsWithChar]
        | cons a t =>
          have : a ≠ cfg.quotechar := fun e => this (by simp [e])
          simp [startsWithChar, this]
    simp [saveCell, h2]

theorem saveCell_quo (q : Char) (hq : q ≠ NUL) (s : Str) :
    saveCell q (q :: s ++ [q]) false = (s, true) := by
  have : quoteCond (q :: s ++ [q]) q = true := by
    have h2 : (q :: (s ++ [q])).getLast? = some q := by
      rw [← List.cons_append, List.getLast?_append]; rfl
    simp [quoteCond, hq, startsWithChar, endsWithChar, h2]
  simp only [saveCell, this, if_true, Bool.false_and, Bool.false_eq_true, if_false]
  simp

/-- The characters that a cell takes in the buffer of the parser. -/
def room (s : Str) (quoted : Bool) : Nat := if quoted then s.length + 2 else s.length

theorem room_le (s : Str) (b : Bool) : room s b ≤ s.length + 2 := by
  unfold room
  split <;> omega

/-- A whole written field, from the start of a field up to the character after it. -/
theorem run_field (H : RT wd cfg) (s : Str) {o : PObj α} {x tail : Str}
    (hw : wd.writeField s = .ok x) (hn : NUL ∉ s) (hok : CellOK wd s)
    (hst : o.state = .startField) (hf : o.field = []) (t : Char) (rest : Str)
    (ht : tail = t :: rest)
    (htq : wd.quoting ≠ .none → t ≠ cfg.quotechar)
    (hl : (room s (wd.quotes s) : Int) ≤ max cfg.fieldLimit 0) :
    ∃ o₁, textRun cfg mk o (x ++ tail) = textRun cfg mk o₁ tail ∧ Unq o₁.state ∧
      o₁.fields = o.fields ∧ saveCell cfg.quotechar o₁.field false = (s, wd.quotes s) := by
  simp only [WDialect.writeField, bind, Except.bind, pure, Except.pure] at hw
  cases h1 : wd.writeChars s with
  | error e => simp [h1] at hw
  | ok p =>
    obtain ⟨y, b⟩ := p
    simp only [h1, Except.ok.injEq] at hw
    by_cases hb : (b || decide (wd.quoting = .all) || decide (wd.quoting = .nonnumeric)) = true
    · have hq : wd.quoting ≠ .none := by
        intro hq
        rw [writeChars_none hq s h1, hq] at hb
        simp at hb
      obtain ⟨hq1, hdq, hqNul, hqNL, hqd, hqe⟩ := H.quo hq
      simp only [hb, if_true, hq1, Option.toList_some] at hw
      subst hw
      have hquo : wd.quotes s = true := by rw [WDialect.quotes, h1]; exact hb
      rw [hquo] at hl
      simp only [room, if_true] at hl
      refine ⟨{ o with field := cfg.quotechar :: s ++ [cfg.quotechar], state := .inField },
        ?_, Or.inr (Or.inl rfl), rfl, ?_⟩
      · have e1 : textRun cfg mk o ([cfg.quotechar] ++ y ++ [cfg.quotechar] ++ tail) =
            textRun cfg mk { o with field := [cfg.quotechar], state := .inQuotedField }
              (y ++ (cfg.quotechar :: tail)) := by
          simp only [List.append_assoc, List.cons_append, List.nil_append]
          apply textRun_step hqNul hqNL (by simp)
          simp only [processChar, hst, stepStartField, hqNL, hqNul, decide_false, Bool.or_self,
            Bool.false_eq_true, if_false, if_true, bind, Except.bind, addChar, hf, List.length_nil]
          rw [if_neg (by omega)]
          simp [PObj.to]
        rw [e1, run_quo H hq s h1 hn rfl (by simp) (by simp; omega)]
        apply textRun_step hqNul hqNL (by simp [ht])
        have hne : cfg.quotechar ≠ cfg.escapechar := by
          rw [H.esc]
          cases he : wd.escapechar with
          | none => simpa using hqNul
          | some e => intro hh; simp at hh; exact hqe (by rw [he, hh])
        have hv : tail.headD NUL ≠ cfg.quotechar := by rw [ht]; exact htq hq
        simp only [processChar, hqNul, if_false, hne, if_true, hv, H.lax, Bool.false_eq_true, bind,
          Except.bind, addChar]
        rw [if_neg (by simp; omega)]
        simp [PObj.to]
      · rw [saveCell_quo _ hqNul, WDialect.quotes, h1]
        simp only [hb]
    · simp only [hb, if_false] at hw
      subst hw
      have hb' : b = false := by
        cases b <;> simp_all
      subst hb'
      have hquo : wd.quotes s = false := by rw [WDialect.quotes, h1]; exact Bool.eq_false_iff.2 hb
      rw [hquo] at hl
      simp only [room, Bool.false_eq_true, if_false] at hl
      obtain ⟨st, hst', hr⟩ := run_unq (mk := mk) (tail := tail) H s h1 hn hok (Or.inl hst)
        (by simp [ht]) (by simp [hf]; omega)
      refine ⟨_, hr, ?_, rfl, ?_⟩
      · by_cases hs : s = []
        · simp only [hs, if_true] at hst'; simp only [hst', hst]; exact Or.inl rfl
        · simp only [hs, if_false] at hst'
          rcases hst' with rfl | rfl
          · exact Or.inr (Or.inl rfl)
          · exact Or.inr (Or.inr rfl)
      · simp only [hf, List.nil_append]
        rw [saveCell_unq H h1, WDialect.quotes, h1]
        simp only [Bool.eq_false_iff.2 hb]

/-- The delimiter after a field. -/
theorem run_delim (H : RT wd cfg) {o : PObj α} {rest : Str} (hst : Unq o.state) (hr : rest ≠ []) :
    textRun cfg mk o (wd.delimiter :: rest) =
      textRun cfg mk ((saveField cfg mk o false).to .startField) rest := by
  apply textRun_step H.dNul H.dNL hr
  have h1 : wd.delimiter ≠ cfg.escapechar := by
    rw [H.esc]
    cases he : wd.escapechar with
    | none => simpa using H.dNul
    | some e => simpa using (H.eD e he).symm
  have h2 : wd.delimiter ≠ cfg.quotechar := by
    by_cases hq : wd.quoting = .none
    · rw [H.noq hq]; exact H.dNul
    · exact (H.quo hq).2.2.2.2.1.symm
  rcases hst with hst | hst | hst <;>
    simp [processChar, hst, stepStartField, stepInField, H.dNul, H.dNL, h1, h2, H.del, PObj.to,
      saveField]

/-- The line terminator after the last field. -/
theorem run_term (H : RT wd cfg) {o : PObj α} {rest : Str} (hst : Unq o.state) :
    textRun cfg mk o (wd.lineterminator ++ rest) =
      ((saveField cfg mk o false).fields :: (textRun cfg mk PObj.init rest).1,
        (textRun cfg mk PObj.init rest).2) := by
  have key : ∀ c, isNL c = true → ∀ v,
      processChar cfg mk o c v = .ok ((saveField cfg mk o false).to .eatCRNL) := by
    intro c hc v
    have hcn : c ≠ NUL := by rintro rfl; simp [isNL, NUL] at hc
    rcases hst with hst | hst | hst <;>
      simp [processChar, hst, stepStartField, stepInField, hc, hcn]
  rcases H.lt with h | h <;> rw [h]
  · exact textRun_newline o _ '\n' rest (by decide) (key _ (by decide)) rfl rest
      (Or.inr ⟨by simp [lineEndAfter], rfl⟩)
  · exact textRun_newline o _ '\r' ('\n' :: rest) (by decide) (key _ (by decide)) rfl rest
      (Or.inl ⟨rfl, rfl⟩)

/-- The line terminator of an empty row. -/
theorem run_term_empty (H : RT wd cfg) {rest : Str} :
    textRun cfg mk PObj.init (wd.lineterminator ++ rest) =
      ([] :: (textRun cfg mk PObj.init rest).1, (textRun cfg mk PObj.init rest).2) := by
  have key : ∀ c, isNL c = true → ∀ v,
      processChar cfg mk (PObj.init : PObj α) c v = .ok ((PObj.init : PObj α).to .eatCRNL) := by
    intro c hc v
    have hcn : c ≠ NUL := by rintro rfl; simp [isNL, NUL] at hc
    simp [processChar, PObj.init, hc, hcn]
  rcases H.lt with h | h <;> rw [h]
  · exact textRun_newline _ _ '\n' rest (by decide) (key _ (by decide)) rfl rest
      (Or.inr ⟨by simp [lineEndAfter], rfl⟩)
  · exact textRun_newline _ _ '\r' ('\n' :: rest) (by decide) (key _ (by decide)) rfl rest
      (Or.inl ⟨rfl, rfl⟩)

theorem lt_head (H : RT wd cfg) (rest : Str) :
    ∃ t r, wd.lineterminator ++ rest = t :: r ∧ isNL t = true := by
  rcases H.lt with h | h <;> rw [h]
  · exact ⟨'\n', rest, rfl, by decide⟩
  · exact ⟨'\r', '\n' :: rest, rfl, by decide⟩

theorem nl_ne_quote (H : RT wd cfg) {t : Char} (h : isNL t = true) :
    wd.quoting ≠ .none → t ≠ cfg.quotechar := by
  rintro hq rfl
  rw [(H.quo hq).2.2.2.1] at h
  simp at h

/-- The fields of a row, from the start of a field. -/
theorem run_fields (H : RT wd cfg) (row : List Str) :
    ∀ (s : Str) {o : PObj α} {x rest : Str},
    wd.writeFields (s :: row) = .ok x → (∀ s' ∈ s :: row, NUL ∉ s') →
    (∀ s' ∈ s :: row, CellOK wd s') →
    o.state = .startField → o.field = [] →
    (∀ s' ∈ s :: row, (room s' (wd.quotes s') : Int) ≤ max cfg.fieldLimit 0) →
    textRun cfg mk o (x ++ (wd.lineterminator ++ rest)) =
      ((o.fields ++ (s :: row).map (fun s => mk s (wd.quotes s))) ::
        (textRun cfg mk PObj.init rest).1, (textRun cfg mk PObj.init rest).2) := by
  induction row with
  | nil =>
    intro s o x rest hw hn hok hst hf hl
    simp only [WDialect.writeFields] at hw
    obtain ⟨t, r, ht, htn⟩ := lt_head H rest
    obtain ⟨o₁, h1, h2, h3, h4⟩ := run_field (mk := mk) H s hw (hn s (by simp)) (hok s (by simp))
      hst hf t r ht (nl_ne_quote H htn) (hl s (by simp))
    rw [h1, run_term H h2]
    simp [saveField, h3, h4]
  | cons s₂ row ih =>
    intro s o x rest hw hn hok hst hf hl
    simp only [WDialect.writeFields, bind, Except.bind, pure, Except.pure] at hw
    cases hx1 : wd.writeField s with
    | error e => simp [hx1] at hw
    | ok x1 =>
      cases hx2 : wd.writeFields (s₂ :: row) with
      | error e => simp [hx1, hx2] at hw
      | ok x2 =>
        simp [hx1, hx2] at hw
        subst hw
        obtain ⟨o₁, h1, h2, h3, h4⟩ := run_field (mk := mk)
          (tail := wd.delimiter :: (x2 ++ (wd.lineterminator ++ rest))) H s hx1
          (hn s (by simp)) (hok s (by simp)) hst hf _ _ rfl
          (fun hq => (H.quo hq).2.2.2.2.1.symm) (hl s (by simp))
        have hne : x2 ++ (wd.lineterminator ++ rest) ≠ [] := by
          obtain ⟨t, r, ht, _⟩ := lt_head H rest
          simp [ht]
        rw [List.append_assoc, List.cons_append, h1, run_delim H h2 hne]
        rw [ih s₂ hx2 (fun s' hs' => hn s' (by simp [hs'])) (fun s' hs' => hok s' (by simp [hs']))
          rfl rfl (fun s' hs' => hl s' (by simp [hs']))]
        simp [saveField, PObj.to, h3, h4]

theorem textRun_init {c : Char} {rest : Str} (hcn : c ≠ NUL) (hnl : isNL c = false) :
    textRun cfg mk (PObj.init : PObj α) (c :: rest) =
      textRun cfg mk ((PObj.init : PObj α).to .startField) (c :: rest) := by
  have hs : ∀ v, processChar cfg mk (PObj.init : PObj α) c v =
      processChar cfg mk ((PObj.init : PObj α).to .startField) c v := by
    intro v; simp [processChar, PObj.init, PObj.to, hcn, hnl]
  conv => lhs; rw [textRun]
  conv => rhs; rw [textRun]
  simp only [hs]

theorem writeChar_head (H : RT wd cfg) {c : Char} {x : Str} {b : Bool}
    (h : wd.writeChar c = .ok (x, b)) (hc : c ≠ NUL) (hb : b = false) :
    ∃ a r, x = a :: r ∧ a ≠ NUL ∧ isNL a = false := by
  subst hb
  simp only [WDialect.writeChar] at h
  split at h
  · rename_i hs
    simp at h hs
    exact ⟨c, [], by simp [← h], hc, (special_false H hs hc).1⟩
  · have hesc : ∀ y, (wd.escaped c).map (·, false) = .ok (y, false) →
        ∃ a r, y = a :: r ∧ a ≠ NUL ∧ isNL a = false := by
      intro y hy
      simp only [WDialect.escaped] at hy
      cases he : wd.escapechar with
      | none => simp [he, Except.map] at hy
      | some e =>
        simp [he, Except.map] at hy
        exact ⟨e, [c], hy.symm, H.eNul e he, H.eNL e he⟩
    split at h
    · exact hesc _ h
    · split at h
      · split at h
        · simp at h
        · exact hesc _ h
      · split at h
        · exact hesc _ h
        · simp at h

theorem writeField_head (H : RT wd cfg) {s x : Str} (h : wd.writeField s = .ok x) (hn : NUL ∉ s) :
    x = [] ∨ ∃ a r, x = a :: r ∧ a ≠ NUL ∧ isNL a = false := by
  simp only [WDialect.writeField, bind, Except.bind, pure, Except.pure] at h
  cases h1 : wd.writeChars s with
  | error e => simp [h1] at h
  | ok p =>
    obtain ⟨y, b⟩ := p
    simp only [h1, Except.ok.injEq] at h
    by_cases hb : (b || decide (wd.quoting = .all) || decide (wd.quoting = .nonnumeric)) = true
    · have hq : wd.quoting ≠ .none := by
        intro hq
        rw [writeChars_none hq s h1, hq] at hb
        simp at hb
      obtain ⟨hq1, hdq, hqNul, hqNL, hqd, hqe⟩ := H.quo hq
      simp only [hb, if_true, hq1, Option.toList_some] at h
      subst h
      exact Or.inr ⟨_, _, rfl, hqNul, hqNL⟩
    · simp only [hb, if_false] at h
      subst h
      have hb' : b = false := by cases b <;> simp_all
      subst hb'
      cases s with
      | nil => simp [WDialect.writeChars] at h1; exact Or.inl (by simpa using h1.symm)
      | cons c cs =>
        obtain ⟨x₁, b₁, x₂, b₂, h1', h2, rfl, hb⟩ := writeChars_cons h1
        simp only [Bool.false_eq, Bool.or_eq_false_iff] at hb
        simp only [List.mem_cons, not_or] at hn
        obtain ⟨a, r, rfl, h3, h4⟩ := writeChar_head H h1' (Ne.symm hn.1) hb.1
        exact Or.inr ⟨a, r ++ x₂, rfl, h3, h4⟩

theorem writeFields_head (H : RT wd cfg) (row : List Str) (s : Str) {x : Str}
    (h : wd.writeFields (s :: row) = .ok x) (hn : NUL ∉ s) (hx : x ≠ []) :
    ∃ a r, x = a :: r ∧ a ≠ NUL ∧ isNL a = false := by
  cases row with
  | nil =>
    simp only [WDialect.writeFields] at h
    rcases writeField_head H h hn with h | h
    · exact absurd h hx
    · exact h
  | cons s₂ row =>
    simp only [WDialect.writeFields, bind, Except.bind, pure, Except.pure] at h
    cases hx1 : wd.writeField s with
    | error e => simp [hx1] at h
    | ok x1 =>
      cases hx2 : wd.writeFields (s₂ :: row) with
      | error e => simp [hx1, hx2] at h
      | ok x2 =>
        simp [hx1, hx2] at h
        subst h
        rcases writeField_head H hx1 hn with rfl | ⟨a, r, rfl, h3, h4⟩
        · exact ⟨wd.delimiter, x2, rfl, H.dNul, H.dNL⟩
        · exact ⟨a, _, rfl, h3, h4⟩

theorem writeFields_nil {row : List Str} {s : Str} (h : wd.writeFields (s :: row) = .ok []) :
    row = [] ∧ s = [] := by
  cases row with
  | nil =>
    refine ⟨rfl, ?_⟩
    simp only [WDialect.writeFields, WDialect.writeField, bind, Except.bind, pure, Except.pure] at h
    cases h1 : wd.writeChars s with
    | error e => simp [h1] at h
    | ok p =>
      obtain ⟨y, b⟩ := p
      simp only [h1, Except.ok.injEq] at h
      have hy : y = [] := by
        split at h
        · simp at h; exact h.2.1
        · exact h
      subst hy
      cases s with
      | nil => rfl
      | cons c cs =>
        exfalso
        obtain ⟨x₁, b₁, x₂, b₂, h1, h2, hx, hb⟩ := writeChars_cons h1
        simp at hx
        obtain ⟨rfl, rfl⟩ := hx
        simp only [WDialect.writeChar, WDialect.escaped] at h1
        have hesc : ¬ (Except.map (fun x => (x, false))
            (match wd.escapechar with
            | none => Except.error (PyExc.writer "need to escape, but no escapechar set")
            | some e => Except.ok [e, c]) = .ok (([] : Str), b₁)) := by
          cases wd.escapechar <;> simp [Except.map]
        split at h1
        · simp at h1
        · split at h1
          · exact hesc h1
          · split at h1
            · split at h1
              · simp at h1
              · exact hesc h1
            · split at h1
              · exact hesc h1
              · simp at h1
  | cons s₂ row =>
    simp only [WDialect.writeFields, bind, Except.bind, pure, Except.pure] at h
    cases hx1 : wd.writeField s with
    | error e => simp [hx1] at h
    | ok x1 =>
      cases hx2 : wd.writeFields (s₂ :: row) with
      | error e => simp [hx1, hx2] at h
      | ok x2 => simp [hx1, hx2] at h

/-- The flag with which a cell of a written row is read. -/
def WDialect.rowFlags (wd : WDialect) (row : List Str) : List (Str × Bool) :=
  if row = [[]] then [([], true)] else row.map (fun s => (s, wd.quotes s))

/-- A written row is read back. -/
theorem run_row (H : RT wd cfg) (row : List Str) {x rest : Str} (hw : wd.writeRow row = .ok x)
    (hn : ∀ s ∈ row, NUL ∉ s) (hok : ∀ s ∈ row, CellOK wd s)
    (hl : ∀ p ∈ wd.rowFlags row, (room p.1 p.2 : Int) ≤ max cfg.fieldLimit 0) :
    textRun cfg mk PObj.init (x ++ rest) =
      ((wd.rowFlags row).map (fun p => mk p.1 p.2) :: (textRun cfg mk PObj.init rest).1,
        (textRun cfg mk PObj.init rest).2) := by
  cases row with
  | nil =>
    simp [WDialect.writeRow, WDialect.writeFields, bind, Except.bind, pure, Except.pure] at hw
    subst hw
    rw [run_term_empty H]
    simp [WDialect.rowFlags]
  | cons s row =>
    simp only [WDialect.writeRow, bind, Except.bind, pure, Except.pure] at hw
    cases hy : wd.writeFields (s :: row) with
    | error e => simp [hy] at hw
    | ok y =>
      simp only [hy] at hw
      by_cases hyn : y = []
      · -- a single empty field
        subst hyn
        obtain ⟨rfl, rfl⟩ := writeFields_nil hy
        simp only [ne_eq, reduceCtorEq, not_false_eq_true, and_self, if_true] at hw
        by_cases hq : wd.quoting = .none
        · simp [hq] at hw
        · simp only [hq, if_false, Except.ok.injEq] at hw
          subst hw
          obtain ⟨hq1, hdq, hqNul, hqNL, hqd, hqe⟩ := H.quo hq
          have hl' := hl ([], true) (by simp [WDialect.rowFlags])
          simp only [room, if_true, List.length_nil] at hl'
          obtain ⟨t, r, ht, htn⟩ := lt_head H rest
          have hne : cfg.quotechar ≠ cfg.escapechar := by
            rw [H.esc]
            cases he : wd.escapechar with
            | none => simpa using hqNul
            | some e => intro hh; simp at hh; exact hqe (by rw [he, hh])
          simp only [hq1, Option.toList_some, List.append_assoc, List.cons_append, List.nil_append]
          rw [textRun_init hqNul hqNL]
          have e1 : textRun cfg mk ((PObj.init : PObj α).to .startField)
                (cfg.quotechar :: cfg.quotechar :: (wd.lineterminator ++ rest)) =
              textRun cfg mk (⟨[], [cfg.quotechar], .inQuotedField⟩ : PObj α)
                (cfg.quotechar :: (wd.lineterminator ++ rest)) := by
            apply textRun_step hqNul hqNL (by simp)
            have ha := addChar_fits (cfg := cfg) (o := (⟨[], [], .startField⟩ : PObj α))
              (c := cfg.quotechar) (by simp; omega)
            simp [processChar, PObj.to, PObj.init, stepStartField, hqNL, hqNul, bind, Except.bind,
              ha]
          have e2 : textRun cfg mk (⟨[], [cfg.quotechar], .inQuotedField⟩ : PObj α)
                (cfg.quotechar :: (wd.lineterminator ++ rest)) =
              textRun cfg mk (⟨[], [cfg.quotechar, cfg.quotechar], .inField⟩ : PObj α)
                (wd.lineterminator ++ rest) := by
            apply textRun_step hqNul hqNL (by simp [ht])
            have hv : (wd.lineterminator ++ rest).headD NUL ≠ cfg.quotechar := by
              rw [ht]; exact nl_ne_quote H htn hq
            simp only [processChar, hqNul, if_false, hne, if_true, hv, H.lax, Bool.false_eq_true,
              bind, Except.bind, addChar]
            rw [if_neg (by simp; omega)]
            simp [PObj.to]
          rw [e1, e2, run_term H (Or.inr (Or.inl rfl))]
          have := saveCell_quo cfg.quotechar hqNul []
          simp at this
          simp [saveField, this, WDialect.rowFlags]
      · simp only [hyn, false_and, if_false, Except.ok.injEq] at hw
        subst hw
        obtain ⟨a, r, hyr, ha, han⟩ := writeFields_head H row s hy (hn s (by simp)) hyn
        have hrow : s :: row ≠ [[]] ∨ wd.quotes s = true := by
          by_cases h : s :: row = [[]]
          · right
            simp only [List.cons.injEq] at h
            obtain ⟨rfl, rfl⟩ := h
            simp only [WDialect.writeFields, WDialect.writeField, WDialect.writeChars, bind,
              Except.bind, pure, Except.pure, Bool.false_or, Except.ok.injEq] at hy
            simp only [WDialect.quotes, WDialect.writeChars, Bool.false_or]
            split at hy
            · assumption
            · exact absurd hy.symm hyn
          · exact Or.inl h
        have hl2 : ∀ s' ∈ s :: row, (room s' (wd.quotes s') : Int) ≤ max cfg.fieldLimit 0 := by
          intro s' hs'
          refine hl (s', wd.quotes s') ?_
          rw [WDialect.rowFlags]
          split
          · rename_i h
            have hq := hrow.resolve_left (by simp [h])
            simp only [List.cons.injEq] at h
            obtain ⟨rfl, rfl⟩ := h
            simp only [List.mem_singleton] at hs'
            subst hs'
            simp [hq]
          · exact List.mem_map_of_mem hs'
        have := run_fields (mk := mk) (o := (PObj.init : PObj α).to .startField) (rest := rest)
          H row s hy hn hok rfl rfl hl2
        rw [List.append_assoc]
        rw [hyr] at this ⊢
        rw [List.cons_append, textRun_init ha han]
        rw [List.cons_append] at this
        rw [this]
        by_cases h : s :: row = [[]]
        · have hq := hrow.resolve_left (by simp [h])
          simp only [List.cons.injEq] at h
          obtain ⟨rfl, rfl⟩ := h
          simp [WDialect.rowFlags, hq, PObj.to, PObj.init]
        · simp [WDialect.rowFlags, h, PObj.to, PObj.init]

/-- Written rows are read back, if each cell has room. -/
theorem run_rows_fit (H : RT wd cfg) (rows : List (List Str))
    (hw : (wd.writeRows rows).2 = none)
    (hn : ∀ row ∈ rows, ∀ s ∈ row, NUL ∉ s) (hok : ∀ row ∈ rows, ∀ s ∈ row, CellOK wd s)
    (hl : ∀ row ∈ rows, ∀ p ∈ wd.rowFlags row, (room p.1 p.2 : Int) ≤ max cfg.fieldLimit 0) :
    parseText cfg mk (wd.writeRows rows).1 =
      (rows.map (fun row => (wd.rowFlags row).map (fun p => mk p.1 p.2)), none) := by
  rw [parseText_eq_textRun]
  induction rows with
  | nil => simp [WDialect.writeRows, textRun, atEOF, PObj.init]
  | cons row rows ih =>
    simp only [WDialect.writeRows] at hw ⊢
    cases hx : wd.writeRow row with
    | error e => simp [hx] at hw
    | ok x =>
      simp only [hx] at hw ⊢
      rw [run_row H row hx (hn row (by simp)) (hok row (by simp)) (hl row (by simp)),
        ih hw (fun r hr => hn r (by simp [hr])) (fun r hr => hok r (by simp [hr]))
          (fun r hr => hl r (by simp [hr]))]
      simp

theorem rowFlags_mem {wd : WDialect} {row : List Str} {p : Str × Bool} (h : p ∈ wd.rowFlags row) : p.1 ∈ row := by
  rw [WDialect.rowFlags] at h
  split at h
  · rename_i hr
    simp only [List.mem_singleton] at h
    simp [hr, h]
  · simp only [List.mem_map] at h
    obtain ⟨s, hs, rfl⟩ := h
    exact hs

/-- Written rows are read back. -/
theorem run_rows (H : RT wd cfg) (rows : List (List Str))
    (hw : (wd.writeRows rows).2 = none)
    (hn : ∀ row ∈ rows, ∀ s ∈ row, NUL ∉ s) (hok : ∀ row ∈ rows, ∀ s ∈ row, CellOK wd s)
    (hl : ∀ row ∈ rows, ∀ s ∈ row, (s.length + 2 : Int) ≤ cfg.fieldLimit) :
    parseText cfg mk (wd.writeRows rows).1 =
      (rows.map (fun row => (wd.rowFlags row).map (fun p => mk p.1 p.2)), none) :=
  run_rows_fit H rows hw hn hok fun row hr p hp => by
    have := hl row hr p.1 (rowFlags_mem hp)
    have := room_le p.1 p.2
    omega

theorem rowFlags_fst (wd : WDialect) (row : List Str) :
    (wd.rowFlags row).map (fun p => mkPlain p.1 p.2) = row := by
  rw [WDialect.rowFlags]
  split
  · rename_i h; simp [h, mkPlain]
  · simp [mkPlain, Function.comp_def]

end

end Clever
