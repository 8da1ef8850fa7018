import Verif.Proofs.ParseSpec

/-!
# From the accumulator form of a record's cells to the declarative specification
-/

set_option linter.unusedSimpArgs false

namespace Clever

open Spec

variable {α : Type}

def mkCell (mk : Str → Bool → α) (p : Str × Bool) : α := mk p.1 p.2

/-- Finish decoded cells: the last one is treated as unterminated if `odd`. -/
def fin (mk : Str → Bool → α) (q : Char) (odd : Bool) : List Str → List α
  | [] => []
  | [x] => [mkCell mk (saveCell q x odd)]
  | x :: y :: t => mkCell mk (saveCell q x false) :: fin mk q odd (y :: t)

theorem rowRec_eq (mk : Str → Bool → α) (d q : Char) (n : Nat) :
    ∀ (r : Str), r.length ≤ n → ∀ (inQ : Bool) (fs : List α) (f : Str),
      rowRec mk d q inQ fs f r =
        fs ++ fin mk q (inQ ^^ oddQuotes q r) (decs q inQ f (rawCells d q inQ r)) := by
  induction n with
  | zero =>
    intro r hr inQ fs f
    have : r = [] := by cases r <;> simp_all
    subst this
    cases inQ <;> simp [rowRec, rawCells, decs, fin, undouble, oddQuotes, mkCell]
  | succ n ih =>
    intro r hr inQ fs f
    cases r with
    | nil => exact ih [] (by simp) inQ fs f
    | cons c r =>
      have hlen : r.length ≤ n := by simpa using hr
      cases inQ with
      | false =>
        rw [rowRec_false_cons]
        by_cases hq : c = q
        · subst hq
          rw [if_pos rfl, ih r hlen]
          rw [rawCells, if_neg (by simp)]
          simp only [beq_self_eq_true, Bool.false_xor, oddQuotes_cons]
          cases hrc : rawCells d c true r with
          | nil => exact absurd hrc (rawCells_ne_nil _ _ _ _)
          | cons x xs => simp [consHead, decs, undouble_false]
        · rw [if_neg hq]
          have hb : (c == q) = false := by simpa using hq
          by_cases hd : c = d
          · subst hd
            rw [if_pos rfl, ih r hlen]
            rw [rawCells, if_pos ⟨hq, rfl, rfl⟩]
            simp only [oddQuotes_cons, hb, Bool.false_xor]
            cases hrc : rawCells c q false r with
            | nil => exact absurd hrc (rawCells_ne_nil _ _ _ _)
            | cons x xs => simp [decs, fin, undouble, mkCell]
          · rw [if_neg hd, ih r hlen]
            rw [rawCells, if_neg (by simp [hd])]
            simp only [oddQuotes_cons, hb, Bool.false_xor]
            cases hrc : rawCells d q false r with
            | nil => exact absurd hrc (rawCells_ne_nil _ _ _ _)
            | cons x xs => simp [consHead, decs, undouble_false, hb]
      | true =>
        rw [rawCells, if_neg (by simp)]
        by_cases hq : c = q
        · subst hq
          simp only [oddQuotes_cons, beq_self_eq_true, Bool.xor_true, Bool.not_true]
          by_cases hqq : r.head? = some c
          · cases r with
            | nil => simp at hqq
            | cons c' r =>
              simp at hqq; subst hqq
              rw [rowRec_true_qq, ih r (by simp at hlen; omega)]
              rw [rawCells, if_neg (by simp)]
              simp only [oddQuotes_cons, beq_self_eq_true, Bool.false_xor]
              cases hrc : rawCells d c' true r with
              | nil => exact absurd hrc (rawCells_ne_nil _ _ _ _)
              | cons x xs =>
                simp [consHead, decs, undouble_true_qq]
          · rw [rowRec_true_q _ _ _ _ _ _ hqq, ih r hlen]
            cases hrc : rawCells d c false r with
            | nil => exact absurd hrc (rawCells_ne_nil _ _ _ _)
            | cons x xs =>
              have hx : x.head? ≠ some c := fun h => hqq (rawCells_head_q _ _ _ _ _ hrc h)
              simp [consHead, decs, undouble_true_q _ _ hx]
        · have hb : (c == q) = false := by simpa using hq
          rw [rowRec_true_ne _ _ _ _ _ _ _ hq, ih r hlen]
          simp only [oddQuotes_cons, hb, Bool.false_xor, Bool.xor_false]
          cases hrc : rawCells d q true r with
          | nil => exact absurd hrc (rawCells_ne_nil _ _ _ _)
          | cons x xs => simp [consHead, decs, undouble_true_ne _ _ _ hq]

theorem saveCell_false (q : Char) (s : Str) (h : NUL ∉ s) :
    saveCell q s false = stripOuter q s := by
  simp only [saveCell, Bool.false_and, Bool.false_eq_true, if_false]
  match s, h with
  | [], _ => simp [quoteCond, stripOuter]
  | [a], _ => simp [quoteCond, stripOuter]
  | a :: b :: t, h =>
    have ha : a ≠ NUL := fun e => h (by simp [e])
    simp only [quoteCond, stripOuter, startsWithChar, endsWithChar]
    by_cases hq : q = NUL
    · subst hq; simp [ha]
    · simp [hq]

theorem saveCell_true (q : Char) (s : Str) (h : NUL ∉ s) :
    saveCell q s true = stripOpen q (stripOuter q s) := by
  rw [← saveCell_false q s h]
  simp only [saveCell, Bool.false_and, Bool.false_eq_true, if_false, Bool.true_and]
  generalize (if quoteCond s q = true then ((List.drop 1 s).dropLast, true) else (s, false)) = p
  obtain ⟨a, b⟩ := p
  cases a <;> simp [stripOpen, startsWithChar]

theorem mem_undouble (q : Char) (x : Char) (s : Str) (inQ : Bool) :
    x ∈ undouble q inQ s → x ∈ s := by
  fun_induction undouble q inQ s <;> simp_all <;> grind

theorem mem_consHead {x : Char} {c : Char} {L : List Str} {s : Str} (hs : s ∈ consHead c L)
    (hx : x ∈ s) : x = c ∨ ∃ s' ∈ L, x ∈ s' := by
  cases L with
  | nil => simp [consHead] at hs; subst hs; simpa using hx
  | cons a b =>
    simp [consHead] at hs
    rcases hs with rfl | h
    · simp at hx
      rcases hx with h | h
      · exact Or.inl h
      · exact Or.inr ⟨a, by simp, h⟩
    · exact Or.inr ⟨s, by simp [h], hx⟩

theorem mem_rawCells (d q : Char) (x : Char) (r : Str) (inQ : Bool) (s : Str)
    (hs : s ∈ rawCells d q inQ r) (hx : x ∈ s) : x ∈ r := by
  induction r generalizing inQ s with
  | nil => simp [rawCells] at hs; subst hs; simp at hx
  | cons c r ih =>
    rw [rawCells] at hs
    split at hs
    · simp at hs
      rcases hs with rfl | h
      · simp at hx
      · exact List.mem_cons_of_mem _ (ih _ _ h hx)
    · rcases mem_consHead hs hx with h | ⟨s', h1, h2⟩
      · simp [h]
      · exact List.mem_cons_of_mem _ (ih _ _ h1 h2)

theorem mem_records (q : Char) (x : Char) (t : Str) (inQ : Bool) (s : Str)
    (hs : s ∈ records q inQ t) (hx : x ∈ s) : x ∈ t := by
  induction t generalizing inQ s with
  | nil => simp [records] at hs
  | cons c r ih =>
    rw [records] at hs
    split at hs
    · exact List.mem_cons_of_mem _ (ih _ _ hs hx)
    · split at hs
      · simp at hs
        rcases hs with rfl | h
        · simp at hx
        · exact List.mem_cons_of_mem _ (ih _ _ h hx)
      · rcases mem_consHead hs hx with h | ⟨s', h1, h2⟩
        · simp [h]
        · exact List.mem_cons_of_mem _ (ih _ _ h1 h2)

theorem fin_false_eq (mk : Str → Bool → α) (q : Char) (L : List Str) (h : ∀ s ∈ L, NUL ∉ s) :
    fin mk q false L = (L.map (stripOuter q)).map (mkCell mk) := by
  induction L with
  | nil => rfl
  | cons x t ih =>
    cases t with
    | nil => simp [fin, saveCell_false q x (h x (by simp))]
    | cons y t =>
      rw [fin, ih (fun s hs => h s (by simp [hs])), saveCell_false q x (h x (by simp))]
      simp

theorem fin_true_eq (mk : Str → Bool → α) (q : Char) (L : List Str) (h : ∀ s ∈ L, NUL ∉ s) :
    fin mk q true L = ((L.dropLast.map (stripOuter q)) ++
      (L.getLast?.map (fun s => stripOpen q (stripOuter q s))).toList).map (mkCell mk) := by
  induction L with
  | nil => rfl
  | cons x t ih =>
    cases t with
    | nil => simp [fin, saveCell_true q x (h x (by simp))]
    | cons y t =>
      rw [fin, ih (fun s hs => h s (by simp [hs])), saveCell_false q x (h x (by simp))]
      simp

theorem row0_eq (mk : Str → Bool → α) (d q : Char) (r : Str) (h : NUL ∉ r) :
    row0 mk d q r = (recordRow d q r).map (mkCell mk) := by
  rw [row0, recordRow]
  by_cases hr : r = []
  · simp [hr]
  · rw [if_neg hr, if_neg hr, rowRec_eq mk d q r.length r (Nat.le_refl _)]
    have hd : decs q false [] (rawCells d q false r) = (rawCells d q false r).map (undouble q false) := by
      cases rawCells d q false r <;> simp [decs]
    have hnul : ∀ s ∈ (rawCells d q false r).map (undouble q false), NUL ∉ s := by
      intro s hs hx
      simp only [List.mem_map] at hs
      obtain ⟨s', h1, rfl⟩ := hs
      exact h (mem_rawCells d q NUL r false s' h1 (mem_undouble _ _ _ _ hx))
    rw [hd, Bool.false_xor, List.nil_append]
    cases ho : oddQuotes q r with
    | false =>
      rw [fin_false_eq _ _ _ hnul]
      simp [cellValue, Function.comp_def]
    | true =>
      rw [fin_true_eq _ _ _ hnul]
      simp [cellValue, openCellValue, Function.comp_def, List.map_dropLast]
      cases (rawCells d q false r).getLast? <;> simp [openCellValue]

theorem limRows_eq (limit : Int) (mk : Str → Bool → α) (d q : Char) (L : List Str)
    (h : ∀ r ∈ L, NUL ∉ r) :
    limRows limit mk d q L =
      ((limitedRows limit d q L).1.map (·.map (mkCell mk)), (limitedRows limit d q L).2) := by
  induction L with
  | nil => simp [limRows, limitedRows]
  | cons r rs ih =>
    rw [limRows, limitedRows]
    split
    · rw [ih (fun s hs => h s (by simp [hs])), row0_eq mk d q r (h r (by simp))]
      simp
    · simp

/-- Without escapechar, in non-strict mode, the parser computes the parity specification; the only
failure is a cell beyond the limit. -/
theorem parseText_limited (cfg : Cfg) (mk : Str → Bool → α) (t : Str)
    (he : cfg.escapechar = NUL) (hs : cfg.strict = false) (hnul : NUL ∉ t) :
    parseText cfg mk t =
      ((limitedRows cfg.fieldLimit cfg.delimiter cfg.quotechar
          (records cfg.quotechar false t)).1.map (·.map (mkCell mk)),
       (limitedRows cfg.fieldLimit cfg.delimiter cfg.quotechar
          (records cfg.quotechar false t)).2) := by
  rw [parseText_eq_textRun, (textRun_spec cfg mk ⟨he, hs⟩ t.length t (Nat.le_refl _) hnul).1,
    limRows_eq]
  intro r hr hx
  exact hnul (mem_records _ _ _ _ _ hr hx)

theorem limitedRows_fits (limit : Int) (d q : Char) (L : List Str)
    (h : ∀ r ∈ L, fits limit d q r = true) :
    limitedRows limit d q L = (L.map (recordRow d q), none) := by
  induction L with
  | nil => rfl
  | cons r rs ih =>
    rw [limitedRows, if_pos (h r (by simp)), ih (fun s hs => h s (by simp [hs]))]
    rfl

/-- The same, when all cells fit. -/
theorem parseText_fits (cfg : Cfg) (mk : Str → Bool → α) (t : Str)
    (he : cfg.escapechar = NUL) (hs : cfg.strict = false) (hnul : NUL ∉ t)
    (hfit : ∀ r ∈ records cfg.quotechar false t, fits cfg.fieldLimit cfg.delimiter cfg.quotechar r = true) :
    parseText cfg mk t =
      ((Spec.parse cfg.delimiter cfg.quotechar t).map (·.map (mkCell mk)), none) := by
  rw [parseText_limited cfg mk t he hs hnul, limitedRows_fits _ _ _ _ hfit]
  rfl

theorem length_undouble (q : Char) (s : Str) (inQ : Bool) :
    (undouble q inQ s).length ≤ s.length := by
  fun_induction undouble q inQ s <;> simp_all <;> omega

theorem length_consHead {c : Char} {L : List Str} {s : Str} (hs : s ∈ consHead c L) {n : Nat}
    (h : ∀ s' ∈ L, s'.length ≤ n) : s.length ≤ n + 1 := by
  cases L with
  | nil => simp [consHead] at hs; subst hs; simp
  | cons a b =>
    simp [consHead] at hs
    rcases hs with rfl | hs
    · have := h a (by simp); simpa using this
    · have := h s (by simp [hs]); omega

theorem length_rawCells (d q : Char) (r : Str) (inQ : Bool) :
    ∀ s ∈ rawCells d q inQ r, s.length ≤ r.length := by
  induction r generalizing inQ with
  | nil => simp [rawCells]
  | cons c r ih =>
    intro s hs
    rw [rawCells] at hs
    split at hs
    · simp at hs
      rcases hs with rfl | hs
      · simp
      · have := ih _ s hs; simp; omega
    · exact length_consHead hs (ih _)

theorem length_records (q : Char) (t : Str) (inQ : Bool) :
    ∀ s ∈ records q inQ t, s.length ≤ t.length := by
  induction t generalizing inQ with
  | nil => simp [records]
  | cons c r ih =>
    intro s hs
    rw [records] at hs
    split at hs
    · have := ih _ s hs; simp; omega
    · split at hs
      · simp at hs
        rcases hs with rfl | hs
        · simp
        · have := ih _ s hs; simp; omega
      · exact length_consHead hs (ih _)

theorem fits_of_length (limit : Int) (d q : Char) (t : Str) (h : (t.length : Int) ≤ limit) :
    ∀ r ∈ records q false t, fits limit d q r = true := by
  intro r hr
  have h1 := length_records q t false r hr
  simp only [fits, List.all_eq_true, decide_eq_true_eq]
  intro x hx
  have h2 := length_rawCells d q r false x hx
  have h3 := length_undouble q x false
  omega

/-- The same, for a limit that is not smaller than the text. -/
theorem parseText_spec (cfg : Cfg) (mk : Str → Bool → α) (t : Str)
    (he : cfg.escapechar = NUL) (hs : cfg.strict = false) (hnul : NUL ∉ t)
    (hlim : (t.length : Int) ≤ cfg.fieldLimit) :
    parseText cfg mk t =
      ((Spec.parse cfg.delimiter cfg.quotechar t).map (·.map (mkCell mk)), none) :=
  parseText_fits cfg mk t he hs hnul (fits_of_length _ _ _ _ hlim)

end Clever
