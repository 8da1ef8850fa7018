import Verif.Proofs.CellChars
import Verif.Spec.Sizes

/-!
# Number and length of the cells that the parser delivers
-/

namespace Clever

open Spec (itemChars delims itemDelims)

variable {α : Type}

/-- Number of characters of a list of cells. -/
def charCount (sz : α → Nat) (cells : List α) : Nat := (cells.map sz).sum

theorem charCount_append (sz : α → Nat) (a b : List α) : charCount sz (a ++ b) = charCount sz a + charCount sz b := by
  simp [charCount]

/-- The size of a cell is the length of its text. -/
def SizeMk (sz : α → Nat) (mk : Str → Bool → α) : Prop := ∀ s b, sz (mk s b) = s.length

/-- Everything read and kept: finished cells, the current field, and a pending escape or quote. -/
def held (sz : α → Nat) (o : PObj α) : Nat := charCount sz o.fields + o.field.length + pending o.state

theorem held_step {sz : α → Nat} {cfg : Cfg} {mk : Str → Bool → α} (hm : SizeMk sz mk) {o o' : PObj α} {u v : Char}
    (hq : o.state = .quoteInQuotedField → cfg.quotechar ≠ NUL) (h : processChar cfg mk o u v = .ok o') :
    held sz o' ≤ held sz o + (if u = NUL then 0 else 1) ∧
      (o'.state = .quoteInQuotedField → cfg.quotechar ≠ NUL) := by
  have f := processChar_ok hq h
  refine ⟨?_, fun hs => ?_⟩
  · rcases f.change with ⟨added, h1, h2, _, _, h5⟩ | ⟨h1, h2, h3⟩
    · simp only [held, h1, h2, List.length_append]
      omega
    · simp only [held, h1, h2, h3, charCount_append]
      have := length_saveCell cfg.quotechar o.field false
      simp only [charCount, List.map_cons, List.map_nil, List.sum_cons, List.sum_nil, hm _ _, List.length_nil]
      omega
  · obtain ⟨rfl, hn⟩ := f.quoteIn hs; exact hn

theorem held_feedLine {sz : α → Nat} {cfg : Cfg} {mk : Str → Bool → α} (hm : SizeMk sz mk) {l : Str} {o o' : PObj α}
    (hq : o.state = .quoteInQuotedField → cfg.quotechar ≠ NUL) (h : feedLine cfg mk o l = .ok o') :
    held sz o' ≤ held sz o + l.length ∧ (o'.state = .quoteInQuotedField → cfg.quotechar ≠ NUL) := by
  induction l generalizing o with
  | nil =>
    have := held_step hm hq h
    simpa using this
  | cons u rest ih =>
    rw [feedLine] at h
    split at h
    · simp at h
    · rename_i hu
      split at h
      · simp at h
      · rename_i heq
        obtain ⟨h1, h2⟩ := held_step hm hq heq
        obtain ⟨h3, h4⟩ := ih h2 h
        rw [if_neg hu] at h1
        exact ⟨by simp only [List.length_cons]; omega, h4⟩

theorem held_nextRowFrom {sz : α → Nat} {cfg : Cfg} {mk : Str → Bool → α} (hm : SizeMk sz mk) {items : List Item}
    {o : PObj α} (hq : o.state = .quoteInQuotedField → cfg.quotechar ≠ NUL) {r : List α} {rest : List Item}
    (h : nextRowFrom cfg mk o items = (.row r, rest)) :
    charCount sz r + itemChars rest ≤ held sz o + itemChars items := by
  induction items generalizing o with
  | nil =>
    rw [nextRowFrom] at h
    split at h
    · split at h
      · simp at h
      · simp only [Prod.mk.injEq, Outcome.row.injEq] at h
        obtain ⟨rfl, rfl⟩ := h
        have := length_saveCell cfg.quotechar o.field true
        simp only [saveField, charCount_append, held]
        simp only [charCount, List.map_cons, List.map_nil, List.sum_cons, List.sum_nil, hm _ _]
        omega
    · simp at h
  | cons it items ih =>
    cases it with
    | raise => simp [nextRowFrom] at h
    | nonstr => simp [nextRowFrom] at h
    | str l =>
      rw [nextRowFrom] at h
      split at h
      · simp at h
      · rename_i heq
        obtain ⟨h1, h2⟩ := held_feedLine (sz := sz) hm hq heq
        simp only [itemChars]
        split at h
        · simp only [Prod.mk.injEq, Outcome.row.injEq] at h
          obtain ⟨rfl, rfl⟩ := h
          unfold held at h1 ⊢
          omega
        · have := ih h2 h
          omega

/-! ## Number of cells -/

/-- At most one cell more than delimiters, and that only when the row is finished. -/
structure DInv (cfg : Cfg) (D : Nat) (v : Char) (o : PObj α) : Prop where
  fields : o.fields.length ≤ D + (if o.state = .eatCRNL then 1 else 0)
  start : o.state = .startRecord → o.fields = []
  quote : o.state = .quoteInQuotedField → v = cfg.quotechar ∧ v ≠ NUL

theorem dinv_step {cfg : Cfg} {mk : Str → Bool → α} {D : Nat} {o o' : PObj α} {u v : Char} (hu : u ≠ NUL)
    (ho : DInv cfg D u o) (h : processChar cfg mk o u v = .ok o') :
    DInv cfg (D + if u = cfg.delimiter then 1 else 0) v o' := by
  obtain ⟨h1, h2, h3⟩ := ho
  obtain ⟨fs, f, st⟩ := o
  cases st <;>
    simp only [processChar, stepStartField, stepInField, bind, Except.bind, PObj.to,
      saveField] at h <;>
    (repeat' split at h) <;> (try simp only [Except.ok.injEq, reduceCtorEq] at h) <;>
    (try subst h)
  all_goals
    repeat
      (rename addChar _ _ _ = Except.ok _ => heq; have hh := addChar_eq_ok heq; clear heq
       obtain ⟨_, rfl⟩ := hh)
  all_goals
    simp only [reduceCtorEq, if_false, if_true, Nat.add_zero, forall_const, false_implies] at h1 h2 h3
    refine ⟨?_, ?_, ?_⟩ <;> simp_all <;> (try omega)

theorem dinv_end {cfg : Cfg} {mk : Str → Bool → α} {D : Nat} {o o' : PObj α} {v : Char}
    (ho : DInv cfg D NUL o) (h : processChar cfg mk o NUL v = .ok o') :
    (o'.state = .startRecord ∧ o'.fields.length ≤ D + 1) ∨
      (o'.state ≠ .startRecord ∧ ∀ w, DInv cfg D w o' ∧ o'.fields.length ≤ D) := by
  obtain ⟨h1, h2, h3⟩ := ho
  have hN : isNL NUL = false := by decide
  obtain ⟨fs, f, st⟩ := o
  cases st <;>
    simp only [processChar, stepStartField, stepInField, bind, Except.bind, PObj.to,
      saveField] at h <;>
    (repeat' split at h) <;> (try simp only [Except.ok.injEq, reduceCtorEq] at h) <;>
    (try subst h)
  all_goals
    repeat
      (rename addChar _ _ _ = Except.ok _ => heq; have hh := addChar_eq_ok heq; clear heq
       obtain ⟨_, rfl⟩ := hh)
  all_goals
    simp only [reduceCtorEq, if_false, if_true, Nat.add_zero, forall_const, false_implies] at h1 h2 h3
    first
      | (left; refine ⟨rfl, ?_⟩; simp_all; try omega)
      | (right; refine ⟨by simp, fun w => ⟨⟨?_, ?_, ?_⟩, ?_⟩⟩ <;> simp_all <;> (try omega))
      | simp_all

theorem dinv_feedLine {cfg : Cfg} {mk : Str → Bool → α} {l : Str} {D : Nat} {o o' : PObj α}
    (ho : DInv cfg D (l.headD NUL) o) (h : feedLine cfg mk o l = .ok o') :
    (o'.state = .startRecord ∧ o'.fields.length ≤ D + delims cfg.delimiter l + 1) ∨
      (o'.state ≠ .startRecord ∧ (∀ w, DInv cfg (D + delims cfg.delimiter l) w o') ∧
        o'.fields.length ≤ D + delims cfg.delimiter l) := by
  induction l generalizing o D with
  | nil =>
    rcases dinv_end ho h with h1 | ⟨h1, h2⟩
    · left; simpa [delims] using h1
    · right
      have e : delims cfg.delimiter [] = 0 := by simp [delims]
      rw [e]
      exact ⟨h1, fun w => (h2 w).1, (h2 NUL).2⟩
  | cons u rest ih =>
    rw [feedLine] at h
    split at h
    · simp at h
    · rename_i hu
      split at h
      · simp at h
      · rename_i heq
        have h1 := dinv_step hu ho heq
        have h2 := ih h1 h
        have e : D + delims cfg.delimiter (u :: rest) =
            (D + if u = cfg.delimiter then 1 else 0) + delims cfg.delimiter rest := by
          unfold delims
          by_cases hd : cfg.delimiter = NUL
          · rw [if_pos hd, if_pos hd, if_neg (fun h => hu (h.trans hd))]
          · rw [if_neg hd, if_neg hd, List.count_cons]
            simp only [beq_iff_eq]
            omega
        rw [e]
        exact h2

theorem dinv_nextRowFrom {cfg : Cfg} {mk : Str → Bool → α} {items : List Item} {D : Nat} {o : PObj α}
    (ho : ∀ w, DInv cfg D w o) (ho' : o.fields.length ≤ D) {r : List α} {rest : List Item}
    (h : nextRowFrom cfg mk o items = (.row r, rest)) :
    r.length + itemDelims cfg.delimiter rest ≤ D + itemDelims cfg.delimiter items + 1 := by
  induction items generalizing o D with
  | nil =>
    rw [nextRowFrom] at h
    split at h
    · split at h
      · simp at h
      · simp only [Prod.mk.injEq, Outcome.row.injEq] at h
        obtain ⟨rfl, rfl⟩ := h
        simp [saveField, itemDelims]
        omega
    · simp at h
  | cons it items ih =>
    cases it with
    | raise => simp [nextRowFrom] at h
    | nonstr => simp [nextRowFrom] at h
    | str l =>
      rw [nextRowFrom] at h
      split at h
      · simp at h
      · rename_i heq
        simp only [itemDelims]
        rcases dinv_feedLine (ho _) heq with ⟨h1, h2⟩ | ⟨h1, h2, h3⟩
        · rw [if_pos h1] at h
          simp only [Prod.mk.injEq, Outcome.row.injEq] at h
          obtain ⟨rfl, rfl⟩ := h
          omega
        · rw [if_neg h1] at h
          have := ih h2 h3 h
          omega

theorem dinv_init (cfg : Cfg) : ∀ w, DInv cfg 0 w (PObj.init : PObj α) := by
  intro w
  constructor <;> simp [PObj.init]

/-! ## All rows -/

theorem parseRows_sizes {sz : α → Nat} {cfg : Cfg} {mk : Str → Bool → α} (hm : SizeMk sz mk) (items : List Item) :
    charCount sz (parseRows cfg mk items).1.flatten ≤ itemChars items ∧
    (parseRows cfg mk items).1.length ≤ items.length ∧
    (parseRows cfg mk items).1.flatten.length ≤
      (parseRows cfg mk items).1.length + itemDelims cfg.delimiter items := by
  have main : ∀ n (items : List Item), items.length ≤ n →
      charCount sz (parseRows cfg mk items).1.flatten ≤ itemChars items ∧
      (parseRows cfg mk items).1.length ≤ items.length ∧
      (parseRows cfg mk items).1.flatten.length ≤
        (parseRows cfg mk items).1.length + itemDelims cfg.delimiter items := by
    intro n
    induction n with
    | zero =>
      intro items h
      have : items = [] := by cases items <;> simp_all
      subst this
      simp [parseRows_nil, charCount]
    | succ n ih =>
      intro items hlen
      rw [parseRows_eq]
      by_cases hi0 : items = []
      · subst hi0; simp [nextRow_nil, charCount]
      · have hlt := nextRowFrom_lt cfg mk PObj.init items hi0
        rw [← nextRow] at hlt
        rcases hn : nextRow cfg mk items with ⟨out, rest⟩
        rw [hn] at hlt
        cases out with
        | stop => simp [charCount]
        | error e => simp [charCount]
        | row r =>
          simp only at hlt ⊢
          obtain ⟨i1, i2, i3⟩ := ih rest (by omega)
          have a1 := held_nextRowFrom hm (o := PObj.init) (by simp [PObj.init]) hn
          have a2 := dinv_nextRowFrom (dinv_init cfg) (by simp [PObj.init]) hn
          simp only [held, PObj.init, charCount, List.map_nil, List.sum_nil, List.length_nil, pending] at a1
          simp only [List.flatten_cons, charCount_append, List.length_cons, List.length_append]
          simp only [charCount] at i1 ⊢
          refine ⟨?_, ?_, ?_⟩ <;> omega
  exact main items.length items (Nat.le_refl _)

theorem itemChars_str (ls : List Str) : itemChars (strItems ls) = ls.flatten.length := by
  induction ls with
  | nil => rfl
  | cons l ls ih =>
    simp only [strItems, List.map_cons, itemChars, List.flatten_cons, List.length_append]
    rw [← ih]; rfl

theorem itemDelims_str (d : Char) (ls : List Str) : itemDelims d (strItems ls) = delims d ls.flatten := by
  induction ls with
  | nil => simp [strItems, itemDelims, delims]
  | cons l ls ih =>
    have : itemDelims d (strItems (l :: ls)) = delims d l + itemDelims d (strItems ls) := rfl
    rw [this, ih]
    unfold delims
    split <;> simp

theorem linesUniv_flatten : ∀ t : Str, (linesUniv t).flatten = t
  | [] => rfl
  | c :: t => by
    have ih := linesUniv_flatten t
    rw [linesUniv]
    split
    · simp [ih]
    · cases hl : linesUniv t with
      | nil => rw [hl] at ih; simp at ih; simp [← ih]
      | cons l ls => rw [hl] at ih; simp at ih ⊢; exact ih

theorem linesUniv_length : ∀ t : Str, (linesUniv t).length = (Spec.textLines t).length
  | [] => rfl
  | c :: t => by
    have ih := linesUniv_length t
    rw [linesUniv, Spec.textLines]
    by_cases h1 : c = '\r' ∧ t.head? = some '\n'
    · have : lineEndAfter c t = false := by simp [lineEndAfter, h1]
      rw [if_pos h1, if_neg (by simp [this]), ← ih]
      cases hl : linesUniv t with
      | nil =>
        rw [linesUniv_eq_nil] at hl
        simp [hl] at h1
      | cons l ls => simp
    · rw [if_neg h1]
      by_cases h2 : c = '\n' ∨ c = '\r'
      · have : lineEndAfter c t = true := by
          rcases h2 with rfl | rfl
          · simp [lineEndAfter]
          · simp only [true_and] at h1; simp [lineEndAfter, h1]
        rw [if_pos h2, if_pos this]
        simp [ih]
      · have : lineEndAfter c t = false := by
          simp only [not_or] at h2
          simp [lineEndAfter, h2]
        rw [if_neg h2, if_neg (by simp [this])]
        cases hl : linesUniv t with
        | nil =>
          rw [hl] at ih
          have : Spec.textLines t = [] := by simpa using ih.symm
          simp [this, Spec.consHead]
        | cons l ls =>
          rw [hl] at ih
          cases hx : Spec.textLines t with
          | nil => rw [hx] at ih; simp at ih
          | cons y ys => rw [hx] at ih; simpa [Spec.consHead] using ih

end Clever
