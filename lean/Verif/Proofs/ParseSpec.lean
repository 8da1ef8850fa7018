import Verif.Proofs.Parser
import Verif.Spec.Parse

/-!
# The parser without escapechar computes the parity specification
-/

set_option linter.unusedSimpArgs false

namespace Clever

open Spec

variable {α : Type}

/-- The cells of a record, computed from left to right with accumulators. -/
def rowRec (mk : Str → Bool → α) (d q : Char) : Bool → List α → Str → Str → List α
  | inQ, fs, f, [] => fs ++ [mk (saveCell q f inQ).1 (saveCell q f inQ).2]
  | false, fs, f, c :: r =>
    if c = q then rowRec mk d q true fs (f ++ [c]) r
    else if c = d then rowRec mk d q false (fs ++ [mk (saveCell q f false).1 (saveCell q f false).2]) [] r
    else rowRec mk d q false fs (f ++ [c]) r
  | true, fs, f, c :: r =>
    if c = q then
      match r with
      | [] => rowRec mk d q false fs (f ++ [c]) []
      | c' :: r' =>
        if c' = q then rowRec mk d q true fs (f ++ [c]) r'
        else rowRec mk d q false fs (f ++ [c]) (c' :: r')
    else rowRec mk d q true fs (f ++ [c]) r
termination_by _ _ _ r => r.length

def row0 (mk : Str → Bool → α) (d q : Char) (r : Str) : List α :=
  if r = [] then [] else rowRec mk d q false [] [] r

/-- First record (possibly empty) and the others. -/
def recs1 (q : Char) (inQ : Bool) (t : Str) : Str × List Str :=
  match records q inQ t with
  | [] => ([], [])
  | r :: rs => (r, rs)

theorem records_cons (q : Char) (inQ : Bool) (c : Char) (rest : Str)
    (h : inQ = true ∨ (c ≠ '\n' ∧ c ≠ '\r')) :
    records q inQ (c :: rest) =
      (c :: (recs1 q (inQ ^^ (c == q)) rest).1) :: (recs1 q (inQ ^^ (c == q)) rest).2 := by
  have : records q inQ (c :: rest) = consHead c (records q (inQ ^^ (c == q)) rest) := by
    rw [records]
    rcases h with h | h <;> simp [h]
  rw [this, recs1]
  cases records q (inQ ^^ (c == q)) rest <;> rfl

theorem records_lf (q : Char) (rest : Str) :
    records q false ('\n' :: rest) = [] :: records q false rest := by
  rw [records]; simp

theorem records_crlf (q : Char) (rest : Str) :
    records q false ('\r' :: '\n' :: rest) = [] :: records q false rest := by
  rw [records, if_pos (by simp), records_lf]

theorem records_cr (q : Char) (rest : Str) (h : rest.head? ≠ some '\n') :
    records q false ('\r' :: rest) = [] :: records q false rest := by
  rw [records, if_neg (by simp [h])]; simp

theorem records_ne_nil (q : Char) (inQ : Bool) (t : Str) (h : t ≠ []) : records q inQ t ≠ [] := by
  induction t generalizing inQ with
  | nil => exact absurd rfl h
  | cons c rest ih =>
    rw [records]
    split
    · rename_i hh
      exact ih _ (by rintro rfl; simp at hh)
    · split
      · simp
      · cases records q (inQ ^^ (c == q)) rest <;> simp [consHead]

theorem recs1_spec (q : Char) (inQ : Bool) (t : Str) (h : t ≠ []) :
    records q inQ t = (recs1 q inQ t).1 :: (recs1 q inQ t).2 := by
  have := records_ne_nil q inQ t h
  rw [recs1]
  cases hr : records q inQ t with
  | nil => exact absurd hr this
  | cons => rfl

/-- The parser state corresponding to the quote parity. -/
def Compat (cfg : Cfg) (o : PObj α) (inQ : Bool) : Prop :=
  (inQ = false ∧ (o.state = .inField ∨ o.state = .startField)) ∨
  (inQ = true ∧ o.state = .inQuotedField ∧ isNL cfg.quotechar = false)

/-- Hypotheses on the configuration for the parity specification. -/
structure Plain (cfg : Cfg) : Prop where
  noEscape : cfg.escapechar = NUL
  notStrict : cfg.strict = false

theorem addChar_ok (cfg : Cfg) (o : PObj α) (c : Char)
    (h : (o.field.length : Int) < cfg.fieldLimit) :
    addChar cfg o c = .ok { o with field := o.field ++ [c] } := by
  rw [addChar, if_neg (by omega)]

section
variable {cfg : Cfg} {mk : Str → Bool → α}

theorem step_nl_false {o : PObj α} (hc : Compat cfg o false) {c : Char} (hn : isNL c = true) (v : Char) :
    ∃ o₁, processChar cfg mk o c v = .ok o₁ ∧ o₁.state = .eatCRNL ∧
      o₁.fields = o.fields ++ [mk (saveCell cfg.quotechar o.field false).1 (saveCell cfg.quotechar o.field false).2] := by
  have hcn : c ≠ NUL := by rintro rfl; simp [isNL, NUL] at hn
  rcases hc with ⟨_, h | h⟩ | ⟨h, _⟩
  · simp [processChar, h, stepInField, hn, hcn, saveField, PObj.to]
  · simp [processChar, h, stepStartField, hn, hcn, saveField, PObj.to]
  · simp at h

/-- One character that is neither NUL nor an unquoted newline, in the unquoted states. -/
theorem step_false (hp : Plain cfg) {o : PObj α} (hc : Compat cfg o false) {c : Char}
    (hn : isNL c = false) (hcn : c ≠ NUL)
    (hl : (c ≠ cfg.quotechar ∧ c = cfg.delimiter) ∨ (o.field.length : Int) < cfg.fieldLimit)
    (v : Char) :
    ∃ o₁, processChar cfg mk o c v = .ok o₁ ∧ Compat cfg o₁ (c == cfg.quotechar) ∧
      (if c = cfg.quotechar then o₁.fields = o.fields ∧ o₁.field = o.field ++ [c]
       else if c = cfg.delimiter then
         o₁.fields = o.fields ++ [mk (saveCell cfg.quotechar o.field false).1 (saveCell cfg.quotechar o.field false).2] ∧
         o₁.field = []
       else o₁.fields = o.fields ∧ o₁.field = o.field ++ [c]) := by
  have hce : c ≠ cfg.escapechar := by rw [hp.noEscape]; exact hcn
  have ha : ¬(c ≠ cfg.quotechar ∧ c = cfg.delimiter) →
      addChar cfg o c = .ok { o with field := o.field ++ [c] } :=
    fun hh => addChar_ok cfg o c (hl.resolve_left hh)
  rcases hc with ⟨_, h | h⟩ | ⟨h, _⟩
  · simp only [processChar, h, stepInField, hn, hcn, hce]
    by_cases hq : c = cfg.quotechar
    · rw [ha (by simp [hq])]; subst hq; simp [PObj.to, Compat, bind, Except.bind, hn]
    · by_cases hd : c = cfg.delimiter
      · subst hd; simp [hq, PObj.to, Compat, saveField]
      · rw [ha (by simp [hd])]; simp [hq, hd, Compat, h]
  · simp only [processChar, h, stepStartField, hn, hcn, hce]
    by_cases hq : c = cfg.quotechar
    · rw [ha (by simp [hq])]; subst hq; simp [PObj.to, Compat, bind, Except.bind, hn]
    · by_cases hd : c = cfg.delimiter
      · subst hd; simp [hq, h, Compat, saveField]
      · rw [ha (by simp [hd])]; simp [hq, hd, Compat, PObj.to, bind, Except.bind]
  · simp at h

theorem addChar_error (cfg : Cfg) (o : PObj α) (c : Char)
    (h : ¬ (o.field.length : Int) < cfg.fieldLimit) :
    addChar cfg o c = .error (.fieldLimit cfg.fieldLimit) := by
  rw [addChar, if_pos (by omega)]

/-- In the unquoted states, a character that has to be stored in a full field. -/
theorem step_false_error (hp : Plain cfg) {o : PObj α} (hc : Compat cfg o false) {c : Char}
    (hn : isNL c = false) (hcn : c ≠ NUL) (hcd : ¬(c ≠ cfg.quotechar ∧ c = cfg.delimiter))
    (hl : ¬ (o.field.length : Int) < cfg.fieldLimit) (v : Char) :
    processChar cfg mk o c v = .error (.fieldLimit cfg.fieldLimit) := by
  have hce : c ≠ cfg.escapechar := by rw [hp.noEscape]; exact hcn
  have ha := addChar_error cfg o c hl
  rcases hc with ⟨_, h | h⟩ | ⟨h, _⟩
  · simp only [processChar, h, stepInField, hn, hcn, hce]
    by_cases hq : c = cfg.quotechar
    · rw [ha]; subst hq; simp [bind, Except.bind]
    · rw [ha]; simp [hq] at hcd; simp [hq, hcd]
  · simp only [processChar, h, stepStartField, hn, hcn, hce]
    by_cases hq : c = cfg.quotechar
    · rw [ha]; subst hq; simp [bind, Except.bind]
    · rw [ha]; simp [hq] at hcd; simp [hq, hcd, bind, Except.bind]
  · simp at h

theorem feed_nul_false {o : PObj α} (hc : Compat cfg o false) :
    ∃ o₁, processChar cfg mk o NUL NUL = .ok o₁ ∧ o₁.state = .startRecord ∧
      o₁.fields = o.fields ++ [mk (saveCell cfg.quotechar o.field false).1 (saveCell cfg.quotechar o.field false).2] := by
  rcases hc with ⟨_, h | h⟩ | ⟨h, _⟩
  · simp [processChar, h, stepInField, saveField, PObj.to]
  · simp [processChar, h, stepStartField, saveField, PObj.to]
  · simp at h

theorem feed_nul_true {o : PObj α} (hc : Compat cfg o true) :
    processChar cfg mk o NUL NUL = .ok o := by
  rcases hc with ⟨h, _⟩ | ⟨_, h⟩
  · simp at h
  · simp [processChar, h]

theorem compat_true_state {o : PObj α} (hc : Compat cfg o true) :
    o.state = .inQuotedField ∧ isNL cfg.quotechar = false := by
  rcases hc with ⟨h, _⟩ | ⟨_, h⟩
  · simp at h
  · exact h

theorem processChar_eat_nul {o : PObj α} (h : o.state = .eatCRNL) :
    processChar cfg mk o NUL NUL = .ok (o.to .startRecord) := by
  simp [processChar, h, isNL, NUL]

theorem processChar_eat_nl {o : PObj α} (h : o.state = .eatCRNL) {c : Char} (hn : isNL c = true)
    (v : Char) : processChar cfg mk o c v = .ok o := by
  simp [processChar, h, hn]

/-- Running on after a newline state: what is left of the line terminator is eaten and the row
is emitted. -/
theorem textRun_newline (o o₁ : PObj α) (c : Char) (rest : Str)
    (hn : isNL c = true)
    (hstep : ∀ v, processChar cfg mk o c v = .ok o₁) (hst : o₁.state = .eatCRNL)
    (rest' : Str)
    (hrest : (c = '\r' ∧ rest = '\n' :: rest') ∨ (lineEndAfter c rest = true ∧ rest' = rest)) :
    textRun cfg mk o (c :: rest) =
      (o₁.fields :: (textRun cfg mk PObj.init rest').1, (textRun cfg mk PObj.init rest').2) := by
  have hcn : c ≠ NUL := by rintro rfl; simp [isNL, NUL] at hn
  rcases hrest with ⟨rfl, rfl⟩ | ⟨hle, rfl⟩
  · rw [textRun, if_neg hcn]
    have h1 : lineEndAfter '\r' ('\n' :: rest') = false := by simp [lineEndAfter]
    simp only [h1, List.isEmpty_cons, Bool.or_self, Bool.false_eq_true, if_false, hstep]
    rw [textRun, if_neg (by simp [NUL])]
    have h2 : lineEndAfter '\n' rest' = true := by simp [lineEndAfter]
    simp only [h2, Bool.true_or, if_true]
    rw [processChar_eat_nl hst (by simp [isNL])]
    simp only [processChar_eat_nul hst, emit, PObj.to, if_true]
  · rw [textRun, if_neg hcn]
    simp only [hle, Bool.true_or, if_true, hstep, processChar_eat_nul hst, emit, PObj.to]

end

theorem nl_split (c : Char) (rest : Str) (hn : isNL c = true) :
    ∃ rest', ((c = '\r' ∧ rest = '\n' :: rest') ∨ (lineEndAfter c rest = true ∧ rest' = rest)) ∧
      ∀ q, records q false (c :: rest) = [] :: records q false rest' := by
  simp only [isNL, Bool.or_eq_true, decide_eq_true_eq] at hn
  rcases hn with rfl | rfl
  · by_cases h : rest.head? = some '\n'
    · cases rest with
      | nil => simp at h
      | cons a r =>
        simp at h; subst h
        exact ⟨r, Or.inl ⟨rfl, rfl⟩, fun q => records_crlf q r⟩
    · exact ⟨rest, Or.inr ⟨by simp [lineEndAfter, h], rfl⟩, fun q => records_cr q rest h⟩
  · exact ⟨rest, Or.inr ⟨by simp [lineEndAfter], rfl⟩, fun q => records_lf q rest⟩

theorem lineEndAfter_of_not_nl {c : Char} (rest : Str) (h : isNL c = false) :
    lineEndAfter c rest = false := by
  simp only [isNL, Bool.or_eq_false_iff, decide_eq_false_iff_not] at h
  simp [lineEndAfter, h]

theorem isNL_false_iff {c : Char} : isNL c = false ↔ c ≠ '\n' ∧ c ≠ '\r' := by
  simp only [isNL, Bool.or_eq_false_iff, decide_eq_false_iff_not]
  constructor <;> rintro ⟨a, b⟩ <;> exact ⟨b, a⟩

theorem recs1_cons (q : Char) (inQ : Bool) (c : Char) (rest : Str)
    (h : inQ = true ∨ isNL c = false) :
    recs1 q inQ (c :: rest) =
      (c :: (recs1 q (inQ ^^ (c == q)) rest).1, (recs1 q (inQ ^^ (c == q)) rest).2) := by
  rw [isNL_false_iff] at h
  rw [recs1, records_cons q inQ c rest h]

theorem rawCells_ne_nil (d q : Char) (inQ : Bool) (r : Str) : rawCells d q inQ r ≠ [] := by
  cases r with
  | nil => simp [rawCells]
  | cons c r =>
    rw [rawCells]; split
    · simp
    · cases rawCells d q (inQ ^^ (c == q)) r <;> simp [consHead]

/-- Decoded cells with a prefix of the first. -/
def decs (q : Char) (inQ : Bool) (f : Str) : List Str → List Str
  | [] => []
  | x :: xs => (f ++ undouble q inQ x) :: xs.map (undouble q false)

theorem oddQuotes_cons (q c : Char) (r : Str) :
    oddQuotes q (c :: r) = ((c == q) ^^ oddQuotes q r) := by
  simp only [oddQuotes, List.count_cons]
  by_cases h : c = q
  · subst h
    simp
    rcases Nat.mod_two_eq_zero_or_one (List.count c r) with h | h <;> simp [Nat.add_mod, h]
  · have : (c == q) = false := by simpa using h
    simp [this]

theorem undouble_false (q c : Char) (r : Str) :
    undouble q false (c :: r) = c :: undouble q (c == q) r := by
  rw [undouble]; simp

theorem undouble_true_ne (q c : Char) (r : Str) (h : c ≠ q) :
    undouble q true (c :: r) = c :: undouble q true r := by
  rw [undouble, if_neg (by simp [h])]
  have : (c == q) = false := by simpa using h
  simp [this]

theorem undouble_true_qq (q : Char) (r : Str) :
    undouble q true (q :: q :: r) = q :: undouble q true r := by
  rw [undouble, if_pos (by simp), undouble_false]; simp

theorem undouble_true_q (q : Char) (r : Str) (h : r.head? ≠ some q) :
    undouble q true (q :: r) = q :: undouble q false r := by
  rw [undouble, if_neg (by simp [h])]; simp

theorem rawCells_head_q (d q : Char) (r x : Str) (xs : List Str)
    (h : rawCells d q false r = x :: xs) (hx : x.head? = some q) : r.head? = some q := by
  cases r with
  | nil => simp [rawCells] at h; obtain ⟨rfl, _⟩ := h; simp at hx
  | cons c r =>
    rw [rawCells] at h
    split at h
    · simp at h; obtain ⟨rfl, _⟩ := h; simp at hx
    · cases hr : rawCells d q (false ^^ (c == q)) r with
      | nil => exact absurd hr (rawCells_ne_nil _ _ _ _)
      | cons y ys =>
        rw [hr] at h; simp [consHead] at h
        rw [← h.1] at hx; simpa using hx


/-- The decoded cells of (the rest of) a record, with a prefix of the first. -/
def decCells (d q : Char) (inQ : Bool) (f r : Str) : List Str := decs q inQ f (rawCells d q inQ r)

section
variable {d q : Char} {f r : Str}

theorem decCells_nil (inQ : Bool) : decCells d q inQ f [] = [f] := by
  cases inQ <;> simp [decCells, rawCells, decs, undouble]

theorem decCells_false_q : decCells d q false f (q :: r) = decCells d q true (f ++ [q]) r := by
  rw [decCells, rawCells, if_neg (by simp), decCells]
  simp only [beq_self_eq_true, Bool.false_xor]
  cases hrc : rawCells d q true r with
  | nil => exact absurd hrc (rawCells_ne_nil _ _ _ _)
  | cons x xs => simp [consHead, decs, undouble_false]

theorem decCells_false_d (h : d ≠ q) :
    decCells d q false f (d :: r) = f :: decCells d q false [] r := by
  rw [decCells, rawCells, if_pos ⟨h, rfl, rfl⟩, decCells]
  cases hrc : rawCells d q false r with
  | nil => exact absurd hrc (rawCells_ne_nil _ _ _ _)
  | cons x xs => simp [decs, undouble]

theorem decCells_false_ne {c : Char} (h : c ≠ q) (h' : c ≠ d) :
    decCells d q false f (c :: r) = decCells d q false (f ++ [c]) r := by
  have hb : (c == q) = false := by simpa using h
  rw [decCells, rawCells, if_neg (by simp [h']), decCells]
  simp only [hb, Bool.false_xor]
  cases hrc : rawCells d q false r with
  | nil => exact absurd hrc (rawCells_ne_nil _ _ _ _)
  | cons x xs => simp [consHead, decs, undouble_false, hb]

theorem decCells_true_qq : decCells d q true f (q :: q :: r) = decCells d q true (f ++ [q]) r := by
  rw [decCells, rawCells, if_neg (by simp), decCells]
  simp only [beq_self_eq_true, Bool.true_xor, Bool.not_true]
  rw [rawCells, if_neg (by simp)]
  simp only [beq_self_eq_true, Bool.false_xor]
  cases hrc : rawCells d q true r with
  | nil => exact absurd hrc (rawCells_ne_nil _ _ _ _)
  | cons x xs => simp [consHead, decs, undouble_true_qq]

theorem decCells_true_q (h : r.head? ≠ some q) :
    decCells d q true f (q :: r) = decCells d q false (f ++ [q]) r := by
  rw [decCells, rawCells, if_neg (by simp), decCells]
  simp only [beq_self_eq_true, Bool.true_xor, Bool.not_true]
  cases hrc : rawCells d q false r with
  | nil => exact absurd hrc (rawCells_ne_nil _ _ _ _)
  | cons x xs =>
    have hx : x.head? ≠ some q := fun hh => h (rawCells_head_q _ _ _ _ _ hrc hh)
    simp [consHead, decs, undouble_true_q _ _ hx]

theorem decCells_true_ne {c : Char} (h : c ≠ q) :
    decCells d q true f (c :: r) = decCells d q true (f ++ [c]) r := by
  have hb : (c == q) = false := by simpa using h
  rw [decCells, rawCells, if_neg (by simp), decCells]
  simp only [hb, Bool.true_xor, Bool.not_false]
  cases hrc : rawCells d q true r with
  | nil => exact absurd hrc (rawCells_ne_nil _ _ _ _)
  | cons x xs => simp [consHead, decs, undouble_true_ne _ _ _ h]

end

/-- All cells are within the limit. -/
def allFit (limit : Int) (L : List Str) : Bool := L.all fun s => s.length ≤ limit.toNat

theorem allFit_decCells (limit : Int) (d q : Char) (r : Str) :
    allFit limit (decCells d q false [] r) = fits limit d q r := by
  rw [allFit, decCells, fits]
  cases hrc : rawCells d q false r with
  | nil => exact absurd hrc (rawCells_ne_nil _ _ _ _)
  | cons x xs => simp [decs, Function.comp_def]

/-- The first decoded cell extends the prefix. -/
theorem allFit_prefix {limit : Int} {d q : Char} {inQ : Bool} {f r : Str}
    (h : allFit limit (decCells d q inQ f r) = true) : f.length ≤ limit.toNat := by
  rw [allFit, decCells] at h
  cases hrc : rawCells d q inQ r with
  | nil => exact absurd hrc (rawCells_ne_nil _ _ _ _)
  | cons x xs =>
    rw [hrc] at h
    simp [decs] at h
    omega

/-- Rows up to the first record with a cell beyond the limit. -/
def limRows (limit : Int) (mk : Str → Bool → α) (d q : Char) :
    List Str → List (List α) × Option PErr
  | [] => ([], none)
  | r :: rs =>
    if fits limit d q r then
      (row0 mk d q r :: (limRows limit mk d q rs).1, (limRows limit mk d q rs).2)
    else ([], some (.fieldLimit limit))

/-- The expected result of a run in the middle of a record. -/
def expect (cfg : Cfg) (mk : Str → Bool → α) (o : PObj α) (inQ : Bool) (t : Str) :
    List (List α) × Option PErr :=
  if allFit cfg.fieldLimit
      (decCells cfg.delimiter cfg.quotechar inQ o.field (recs1 cfg.quotechar inQ t).1) then
    (rowRec mk cfg.delimiter cfg.quotechar inQ o.fields o.field (recs1 cfg.quotechar inQ t).1 ::
      (limRows cfg.fieldLimit mk cfg.delimiter cfg.quotechar (recs1 cfg.quotechar inQ t).2).1,
     (limRows cfg.fieldLimit mk cfg.delimiter cfg.quotechar (recs1 cfg.quotechar inQ t).2).2)
  else ([], some (.fieldLimit cfg.fieldLimit))

theorem rowRec_false_cons (mk : Str → Bool → α) (d q : Char) (fs : List α) (f : Str) (c : Char)
    (r : Str) :
    rowRec mk d q false fs f (c :: r) =
      if c = q then rowRec mk d q true fs (f ++ [c]) r
      else if c = d then
        rowRec mk d q false (fs ++ [mk (saveCell q f false).1 (saveCell q f false).2]) [] r
      else rowRec mk d q false fs (f ++ [c]) r := by
  rw [rowRec]

theorem rowRec_true_ne (mk : Str → Bool → α) (d q : Char) (fs : List α) (f : Str) (c : Char)
    (r : Str) (h : c ≠ q) :
    rowRec mk d q true fs f (c :: r) = rowRec mk d q true fs (f ++ [c]) r := by
  rw [rowRec.eq_def]; simp [h]

theorem rowRec_true_qq (mk : Str → Bool → α) (d q : Char) (fs : List α) (f : Str) (r : Str) :
    rowRec mk d q true fs f (q :: q :: r) = rowRec mk d q true fs (f ++ [q]) r := by
  rw [rowRec.eq_def]; simp

theorem rowRec_true_q (mk : Str → Bool → α) (d q : Char) (fs : List α) (f : Str) (r : Str)
    (h : r.head? ≠ some q) :
    rowRec mk d q true fs f (q :: r) = rowRec mk d q false fs (f ++ [q]) r := by
  rw [rowRec.eq_def]
  cases r with
  | nil => simp
  | cons c r => simp at h; simp [h]

theorem recs1_head (q : Char) (t : Str) :
    (recs1 q false t).1.head? = some q → t.head? = some q := by
  intro h
  cases t with
  | nil => simp [recs1, records] at h
  | cons c rest =>
    by_cases hn : isNL c = true
    · obtain ⟨rest', _, hrec⟩ := nl_split c rest hn
      simp [recs1, hrec] at h
    · rw [recs1_cons _ _ _ _ (Or.inr (by simpa using hn))] at h
      simpa using h

/-- In the quoted state the end-of-line pseudo character changes nothing. -/
theorem textRun_step_true {cfg : Cfg} {mk : Str → Bool → α} {o o₁ : PObj α} {c : Char} {rest : Str}
    (hcn : c ≠ NUL) (hc₁ : Compat cfg o₁ true)
    (hs : ∀ v, processChar cfg mk o c v = .ok o₁) :
    textRun cfg mk o (c :: rest) = textRun cfg mk o₁ rest := by
  rw [textRun, if_neg hcn]
  simp only [hs, feed_nul_true hc₁]
  have : emit o₁ (fun o => textRun cfg mk o rest) = textRun cfg mk o₁ rest := by
    simp [emit, (compat_true_state hc₁).1]
  rw [this]; simp

theorem rowRec_congr_q (mk : Str → Bool → α) (d q : Char) (fs : List α) (f : Str) (r : Str) :
    rowRec mk d q false fs f (q :: r) = rowRec mk d q true fs (f ++ [q]) r := by
  rw [rowRec]; simp

theorem not_allFit_append {limit : Int} {d q : Char} {inQ : Bool} {f r : Str} {c : Char}
    (h : ¬ (f.length : Int) < limit) :
    allFit limit (decCells d q inQ (f ++ [c]) r) = false := by
  cases hh : allFit limit (decCells d q inQ (f ++ [c]) r) with
  | false => rfl
  | true =>
    have := allFit_prefix hh
    simp at this
    omega

theorem textRun_spec (cfg : Cfg) (mk : Str → Bool → α) (hp : Plain cfg) (n : Nat) :
    ∀ t : Str, t.length ≤ n → NUL ∉ t →
      textRun cfg mk PObj.init t =
        limRows cfg.fieldLimit mk cfg.delimiter cfg.quotechar (records cfg.quotechar false t) ∧
      (∀ (o : PObj α) (inQ : Bool), Compat cfg o inQ → (t ≠ [] ∨ inQ = true) →
        o.field.length ≤ cfg.fieldLimit.toNat →
        textRun cfg mk o t = expect cfg mk o inQ t) := by
  induction n with
  | zero =>
    intro t ht _
    have : t = [] := by cases t <;> simp_all
    subst this
    refine ⟨by simp [textRun, atEOF, PObj.init, records, limRows], ?_⟩
    intro o inQ hc h hfl
    have hq : inQ = true := by simpa using h
    subst hq
    simp [textRun, atEOF, (compat_true_state hc).1, hp.notStrict, expect, recs1, records, rowRec,
      saveField, limRows, decCells_nil, allFit, hfl]
  | succ n ih =>
    intro t ht hnul
    cases t with
    | nil =>
      exact ih [] (by simp) (by simp)
    | cons c rest =>
      have hcn : c ≠ NUL := fun h => hnul (by simp [h])
      have hrn : NUL ∉ rest := fun h => hnul (by simp [h])
      have hlen : rest.length ≤ n := by simpa using ht
      -- the statement about intermediate states
      have key : ∀ (o : PObj α) (inQ : Bool), Compat cfg o inQ →
          o.field.length ≤ cfg.fieldLimit.toNat →
          textRun cfg mk o (c :: rest) = expect cfg mk o inQ (c :: rest) := by
        intro o inQ hc hlim
        -- continuing after a step that is not followed by an end of line
        have cont : ∀ (o₁ : PObj α) (inQ₁ : Bool), Compat cfg o₁ inQ₁ →
            o₁.field.length ≤ cfg.fieldLimit.toNat →
            (if rest.isEmpty then
              match processChar cfg mk o₁ NUL NUL with
              | .error e => ([], some e)
              | .ok o₂ => emit o₂ (fun o => textRun cfg mk o rest)
             else textRun cfg mk o₁ rest) = expect cfg mk o₁ inQ₁ rest := by
          intro o₁ inQ₁ hc₁ hlim₁
          by_cases hr : rest = []
          · subst hr
            simp only [List.isEmpty_nil, if_true]
            cases inQ₁ with
            | false =>
              obtain ⟨o₂, h₂, hs₂, hf₂⟩ := feed_nul_false (cfg := cfg) (mk := mk) hc₁
              simp [h₂, emit, hs₂, textRun, atEOF, PObj.init, expect, recs1, records, rowRec, hf₂,
                limRows, decCells_nil, allFit, hlim₁]
            | true =>
              rw [feed_nul_true hc₁]
              simp only [emit, (compat_true_state hc₁).1]
              simpa using (ih [] (by simp) (by simp)).2 o₁ true hc₁ (Or.inr rfl) hlim₁
          · rw [if_neg (by simpa using hr)]
            exact (ih rest hlen hrn).2 o₁ inQ₁ hc₁ (Or.inl hr) hlim₁
        cases inQ with
        | false =>
          by_cases hnl : isNL c = true
          · obtain ⟨rest', hrest', hrec⟩ := nl_split c rest hnl
            have hr'len : rest'.length ≤ n ∧ NUL ∉ rest' ∧ rest'.length ≤ rest.length := by
              rcases hrest' with ⟨_, h⟩ | ⟨_, h⟩
              · subst h
                simp only [List.length_cons, List.mem_cons, not_or] at *
                exact ⟨by omega, hrn.2, by omega⟩
              · subst h; exact ⟨hlen, hrn, Nat.le_refl _⟩
            obtain ⟨o₁, hs, hst, hfl⟩ := step_nl_false (cfg := cfg) (mk := mk) hc hnl NUL
            have hs' : ∀ v, processChar cfg mk o c v = .ok o₁ := by
              intro v
              rw [← hs]
              rcases hc with ⟨_, h | h⟩ | ⟨h, _⟩
              · simp [processChar, h]
              · simp [processChar, h]
              · simp at h
            rw [textRun_newline o o₁ c rest hnl hs' hst rest' hrest']
            rw [(ih rest' hr'len.1 hr'len.2.1).1]
            simp [expect, recs1, hrec, rowRec, hfl, decCells_nil, allFit, hlim]
          · have hnl : isNL c = false := by simpa using hnl
            by_cases hl : (c ≠ cfg.quotechar ∧ c = cfg.delimiter) ∨
                (o.field.length : Int) < cfg.fieldLimit
            · have step := fun v => step_false (mk := mk) hp hc hnl hcn hl v
              rw [textRun, if_neg hcn]
              simp only [lineEndAfter_of_not_nl rest hnl, Bool.false_or]
              obtain ⟨o₁, hs, hc₁, hf₁⟩ := step NUL
              have hs' : ∀ v, processChar cfg mk o c v = .ok o₁ := by
                intro v
                rw [← hs]
                rcases hc with ⟨_, h | h⟩ | ⟨h, _⟩
                · simp [processChar, h]
                · simp [processChar, h]
                · simp at h
              simp only [hs']
              have hl₁ : o₁.field.length ≤ cfg.fieldLimit.toNat := by
                split at hf₁
                · simp [hf₁.2]; rename_i hq; simp [hq] at hl; omega
                · split at hf₁
                  · simp [hf₁.2]
                  · simp [hf₁.2]; rename_i hq; simp [hq] at hl; omega
              refine (cont o₁ _ hc₁ hl₁).trans ?_
              simp only [expect, recs1_cons _ false c rest (Or.inr hnl), Bool.false_xor]
              rw [rowRec_false_cons]
              split at hf₁
              · rename_i hq; subst hq
                simp only [beq_self_eq_true, decCells_false_q, hf₁, if_true]
              · rename_i hq
                have : (c == cfg.quotechar) = false := by simpa using hq
                split at hf₁
                · rename_i hd
                  rw [if_neg hq, if_pos hd, this, hf₁.1, hf₁.2]
                  subst hd
                  rw [decCells_false_d hq]
                  simp [allFit, hlim]
                · rename_i hd
                  rw [decCells_false_ne hq hd]
                  simp only [hf₁, this, hd, hq, if_false]
            · have hl := not_or.1 hl
              rw [textRun, if_neg hcn]
              simp only [step_false_error hp hc hnl hcn hl.1 hl.2, ite_self, expect,
                recs1_cons _ false c rest (Or.inr hnl), Bool.false_xor]
              by_cases hq : c = cfg.quotechar
              · subst hq; rw [decCells_false_q, not_allFit_append hl.2]; simp
              · rw [decCells_false_ne hq (by intro h; exact hl.1 ⟨hq, h⟩), not_allFit_append hl.2]
                simp
        | true =>
          obtain ⟨hst, hqnl⟩ := compat_true_state hc
          have hce : c ≠ cfg.escapechar := by rw [hp.noEscape]; exact hcn
          by_cases hl : (o.field.length : Int) < cfg.fieldLimit
          · have ha := addChar_ok cfg o c hl
            by_cases hq : c = cfg.quotechar
            · -- a quote
              have hnl : isNL c = false := hq ▸ hqnl
              by_cases hqq : rest.head? = some c
              · -- doubled
                cases rest with
                | nil => simp at hqq
                | cons c' rest' =>
                  simp only [List.head?_cons, Option.some.injEq] at hqq
                  subst hqq
                  have hrun : textRun cfg mk o (c' :: c' :: rest') =
                      textRun cfg mk { o with field := o.field ++ [c'] } rest' := by
                    rw [textRun, if_neg hcn]
                    simp only [lineEndAfter_of_not_nl _ hnl, List.isEmpty_cons, Bool.or_self,
                      Bool.false_eq_true, if_false, List.headD_cons]
                    have h1 : processChar cfg mk o c' c' = .ok (o.to .quoteInQuotedField) := by
                      simp [processChar, hst, hcn, hce, ← hq]
                    simp only [h1]
                    have h2 : ∀ v, processChar cfg mk (o.to .quoteInQuotedField) c' v =
                        .ok { o with field := o.field ++ [c'] } := by
                      intro v
                      have : addChar cfg (o.to .quoteInQuotedField) c' =
                        .ok (({ o with field := o.field ++ [c'] } : PObj α).to .quoteInQuotedField) :=
                          addChar_ok cfg (o.to .quoteInQuotedField) c' hl
                      simp only [processChar, PObj.to]
                      rw [if_pos hq]
                      simp only [PObj.to] at this
                      rw [this]
                      simp [bind, Except.bind, hst]
                    rw [textRun_step_true hcn (o₁ := { o with field := o.field ++ [c'] })
                      (Or.inr ⟨rfl, hst, hqnl⟩) h2]
                  rw [hrun, (ih rest' (by simp at hlen; omega)
                    (fun h => hrn (by simp [h]))).2
                    ({ o with field := o.field ++ [c'] } : PObj α) true (Or.inr ⟨rfl, hst, hqnl⟩) (Or.inr rfl)
                    (by simp; omega)]
                  have hb : (c' == cfg.quotechar) = true := by simp [← hq]
                  simp only [expect, recs1_cons _ true c' (c' :: rest') (Or.inl rfl), hb,
                    Bool.xor_true, Bool.not_true, Bool.not_false,
                    recs1_cons _ false c' rest' (Or.inr hnl)]
                  rw [← hq, rowRec_true_qq, decCells_true_qq]
              · have hs : ∀ v, v ≠ c → processChar cfg mk o c v =
                    .ok (({ o with field := o.field ++ [c] } : PObj α).to .inField) := by
                  intro v hv
                  simp only [processChar, hst, hcn, hce, if_false]
                  rw [if_pos hq, if_neg (by rw [← hq]; exact hv), ha, hp.notStrict]
                  simp [bind, Except.bind, PObj.to]
                have hd1 : rest.headD NUL ≠ c := by
                  cases rest with
                  | nil => simpa using Ne.symm hcn
                  | cons x r => simpa using hqq
                rw [textRun, if_neg hcn]
                simp only [lineEndAfter_of_not_nl rest hnl, Bool.false_or, hs _ hd1,
                  hs _ (Ne.symm hcn)]
                refine (cont (({ o with field := o.field ++ [c] } : PObj α).to .inField) false
                  (Or.inl ⟨rfl, Or.inl rfl⟩) (by simp [PObj.to]; omega)).trans ?_
                have hb : (c == cfg.quotechar) = true := by simp [← hq]
                simp only [expect, recs1_cons _ true c rest (Or.inl rfl), hb, Bool.xor_true,
                  Bool.not_true, PObj.to]
                have := recs1_head cfg.quotechar rest
                rw [← hq] at this ⊢
                rw [rowRec_true_q _ _ _ _ _ _ (fun hh => hqq (this hh)),
                  decCells_true_q (fun hh => hqq (this hh))]
                rfl
            · have hs : ∀ v, processChar cfg mk o c v = .ok { o with field := o.field ++ [c] } := by
                intro v; simp [processChar, hst, hcn, hce, hq, ha]
              have hc₁ : Compat cfg { o with field := o.field ++ [c] } true :=
                Or.inr ⟨rfl, hst, hqnl⟩
              rw [textRun_step_true hcn hc₁ hs]
              rw [(ih rest hlen hrn).2 ({ o with field := o.field ++ [c] } : PObj α) true hc₁ (Or.inr rfl)
                (by simp; omega)]
              have hb : (c == cfg.quotechar) = false := by simpa using hq
              simp only [expect, recs1_cons _ true c rest (Or.inl rfl), hb, Bool.xor_false]
              rw [rowRec_true_ne _ _ _ _ _ _ _ hq, decCells_true_ne hq]
          · have ha := addChar_error cfg o c hl
            by_cases hq : c = cfg.quotechar
            · have hnl : isNL c = false := hq ▸ hqnl
              have hb : (c == cfg.quotechar) = true := by simp [← hq]
              by_cases hqq : rest.head? = some c
              · cases rest with
                | nil => simp at hqq
                | cons c' rest' =>
                  simp only [List.head?_cons, Option.some.injEq] at hqq
                  subst hqq
                  rw [textRun, if_neg hcn]
                  simp only [lineEndAfter_of_not_nl _ hnl, List.isEmpty_cons, Bool.or_self,
                    Bool.false_eq_true, if_false, List.headD_cons]
                  have h1 : processChar cfg mk o c' c' = .ok (o.to .quoteInQuotedField) := by
                    simp [processChar, hst, hcn, hce, ← hq]
                  have h2 : ∀ v, processChar cfg mk (o.to .quoteInQuotedField) c' v =
                      .error (.fieldLimit cfg.fieldLimit) := by
                    intro v
                    have : addChar cfg (o.to .quoteInQuotedField) c' =
                      .error (.fieldLimit cfg.fieldLimit) :=
                        addChar_error cfg (o.to .quoteInQuotedField) c' hl
                    simp only [processChar, PObj.to]
                    rw [if_pos hq]
                    simp only [PObj.to] at this
                    rw [this]
                    simp [bind, Except.bind]
                  simp only [h1]
                  rw [textRun, if_neg hcn]
                  simp only [h2, ite_self]
                  simp only [expect, recs1_cons _ true c' (c' :: rest') (Or.inl rfl), hb,
                    Bool.xor_true, Bool.not_true, Bool.not_false,
                    recs1_cons _ false c' rest' (Or.inr hnl)]
                  rw [← hq, decCells_true_qq, not_allFit_append hl]
                  simp
              · have hs : ∀ v, v ≠ c → processChar cfg mk o c v =
                    .error (.fieldLimit cfg.fieldLimit) := by
                  intro v hv
                  simp only [processChar, hst, hcn, hce, if_false]
                  rw [if_pos hq, if_neg (by rw [← hq]; exact hv), ha, hp.notStrict]
                  simp [bind, Except.bind]
                have hd1 : rest.headD NUL ≠ c := by
                  cases rest with
                  | nil => simpa using Ne.symm hcn
                  | cons x r => simpa using hqq
                rw [textRun, if_neg hcn]
                simp only [hs _ hd1, hs _ (Ne.symm hcn), ite_self]
                simp only [expect, recs1_cons _ true c rest (Or.inl rfl), hb, Bool.xor_true,
                  Bool.not_true]
                have := recs1_head cfg.quotechar rest
                rw [← hq] at this ⊢
                rw [decCells_true_q (fun hh => hqq (this hh)), not_allFit_append hl]
                simp
            · have hs : ∀ v, processChar cfg mk o c v = .error (.fieldLimit cfg.fieldLimit) := by
                intro v; simp [processChar, hst, hcn, hce, hq, ha]
              have hb : (c == cfg.quotechar) = false := by simpa using hq
              rw [textRun, if_neg hcn]
              simp only [hs, ite_self]
              simp only [expect, recs1_cons _ true c rest (Or.inl rfl), hb, Bool.xor_false]
              rw [decCells_true_ne hq, not_allFit_append hl]
              simp
      refine ⟨?_, fun o inQ hc _ hlim => key o inQ hc hlim⟩
      by_cases hnl : isNL c = true
      · obtain ⟨rest', hrest', hrec⟩ := nl_split c rest hnl
        have hr'len : rest'.length ≤ n ∧ NUL ∉ rest' ∧ rest'.length ≤ rest.length := by
          rcases hrest' with ⟨_, h⟩ | ⟨_, h⟩
          · subst h
            simp only [List.length_cons, List.mem_cons, not_or] at *
            exact ⟨by omega, hrn.2, by omega⟩
          · subst h; exact ⟨hlen, hrn, Nat.le_refl _⟩
        have hs : ∀ v, processChar cfg mk (PObj.init : PObj α) c v =
            .ok ((PObj.init : PObj α).to .eatCRNL) := by
          intro v; simp [processChar, PObj.init, hcn, hnl]
        rw [textRun_newline _ _ c rest hnl hs rfl rest' hrest']
        rw [(ih rest' hr'len.1 hr'len.2.1).1]
        simp [hrec, row0, PObj.to, PObj.init, limRows, fits, rawCells, undouble]
      · have hnl : isNL c = false := by simpa using hnl
        have hs : ∀ v, processChar cfg mk (PObj.init : PObj α) c v =
            processChar cfg mk ((PObj.init : PObj α).to .startField) c v := by
          intro v; simp [processChar, PObj.init, PObj.to, hcn, hnl]
        have hrun : textRun cfg mk (PObj.init : PObj α) (c :: rest) =
            textRun cfg mk ((PObj.init : PObj α).to .startField) (c :: rest) := by
          conv => lhs; rw [textRun]
          conv => rhs; rw [textRun]
          simp only [hs]
        rw [hrun, key _ false (Or.inl ⟨rfl, Or.inr rfl⟩) (by simp [PObj.to, PObj.init])]
        rw [expect, recs1_cons _ false c rest (Or.inr hnl), records_cons _ _ _ _
          (Or.inr (isNL_false_iff.1 hnl))]
        simp only [PObj.to, PObj.init, allFit_decCells, limRows]
        simp [row0]

end Clever
