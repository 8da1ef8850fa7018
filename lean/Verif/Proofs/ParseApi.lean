import Verif.Model.Dialect
import Verif.Proofs.ParseSpec2
import Verif.Proofs.ParserInv

/-!
# From the parser to `parse_string`; facts about the specification
-/

set_option linter.unusedSimpArgs false

namespace Clever

open Spec

variable {α : Type}

/-- The limit fits a C `long`. -/
def InLong (x : Int) : Prop := -9223372036854775808 ≤ x ∧ x ≤ 9223372036854775807

instance (x : Int) : Decidable (InLong x) := inferInstanceAs (Decidable (_ ∧ _))

/-- The configuration for given characters. -/
def cfgOf (d q e : Option Char) (limit : Int) (strict : Bool) : Cfg :=
  ⟨d.getD NUL, q.getD NUL, e.getD NUL, limit, strict⟩

theorem setChar_toList (n : String) (c : Option Char) :
    setChar n (some c.toList) = .ok (c.getD NUL) := by
  cases c <;> rfl

theorem dialectOf_cfg (d q e : Option Char) (strict : Bool) {limit : Int} (h : InLong limit) :
    (dialectOf d q e strict).cfg limit = .ok (cfgOf d q e limit strict) := by
  simp only [SimpleDialect.cfg, mkCfg, dialectOf, setChar_toList, setLong, bind, Except.bind,
    pure, Except.pure]
  unfold InLong at h
  rw [if_pos h]
  rfl

theorem parseString_eq (d q e : Option Char) (strict : Bool) {limit : Int} (h : InLong limit)
    (t : Str) :
    parseString limit (dialectOf d q e strict) t =
      ((parseText (cfgOf d q e limit strict) mkPlain t).1,
       (parseText (cfgOf d q e limit strict) mkPlain t).2.map PyExc.parse) := by
  rw [parseString, parseData, dialectOf_cfg d q e strict h]; rfl

theorem parseStringQuoted_eq (d q e : Option Char) (strict : Bool) {limit : Int} (h : InLong limit)
    (t : Str) :
    parseStringQuoted limit (dialectOf d q e strict) t =
      ((parseText (cfgOf d q e limit strict) mkQuoted t).1,
       (parseText (cfgOf d q e limit strict) mkQuoted t).2.map PyExc.parse) := by
  rw [parseStringQuoted, parseData, dialectOf_cfg d q e strict h]; rfl

/-! ### The specification without quotes -/

theorem records_textLines (q : Char) (t : Str) (h : q ∉ t) : records q false t = textLines t := by
  induction t with
  | nil => rfl
  | cons c rest ih =>
    have hc : (c == q) = false := by
      simp only [List.mem_cons, not_or] at h; simpa using Ne.symm h.1
    have ih := ih (fun hh => h (by simp [hh]))
    simp only [records, textLines, hc, Bool.xor_false, ih, true_and]

theorem rawCells_splitOn (d q : Char) (r : Str) (h : q ∉ r) :
    rawCells d q false r = splitOn d r := by
  induction r with
  | nil => rfl
  | cons c rest ih =>
    have hc : c ≠ q := by
      simp only [List.mem_cons, not_or] at h; exact Ne.symm h.1
    have hb : (c == q) = false := by simpa using hc
    have ih := ih (fun hh => h (by simp [hh]))
    simp only [rawCells, splitOn, hc, hb, Bool.xor_false, ih, true_and, ne_eq, not_false_eq_true]

theorem undouble_of_not_mem (q : Char) (s : Str) (h : q ∉ s) : undouble q false s = s := by
  induction s with
  | nil => rfl
  | cons c rest ih =>
    have hc : c ≠ q := by
      simp only [List.mem_cons, not_or] at h; exact Ne.symm h.1
    have hb : (c == q) = false := by simpa using hc
    rw [undouble_false, hb, ih (fun hh => h (by simp [hh]))]

theorem stripOuter_of_not_mem (q : Char) (s : Str) (h : q ∉ s) : stripOuter q s = (s, false) := by
  match s, h with
  | [], _ => rfl
  | [a], _ => rfl
  | a :: b :: t, h =>
    have : a ≠ q := fun e => h (by simp [e])
    simp [stripOuter, this]

theorem recordRow_splitOn (d q : Char) (r : Str) (h : q ∉ r) :
    recordRow d q r = if r = [] then [] else (splitOn d r).map (fun s => (s, false)) := by
  rw [recordRow]
  by_cases hr : r = []
  · simp [hr]
  · rw [if_neg hr, if_neg hr]
    have : oddQuotes q r = false := by simp [oddQuotes, List.count_eq_zero_of_not_mem h]
    simp only [this, Bool.false_eq_true, if_false, rawCells_splitOn d q r h]
    apply List.map_congr_left
    intro s hs
    have hq : q ∉ s := fun hx => h (mem_rawCells d q q r false s (by rw [rawCells_splitOn d q r h]; exact hs) hx)
    rw [cellValue, undouble_of_not_mem q s hq, stripOuter_of_not_mem q s hq]

theorem fits_splitOn (limit : Int) (d q : Char) (r : Str) (h : q ∉ r) :
    fits limit d q r = (splitOn d r).all (fun s => s.length ≤ limit.toNat) := by
  rw [fits, rawCells_splitOn d q r h]
  rw [Bool.eq_iff_iff]
  simp only [List.all_eq_true, decide_eq_true_eq]
  refine forall_congr' fun s => forall_congr' fun hs => ?_
  have hq : q ∉ s := fun hx => h (mem_rawCells d q q r false s (by rw [rawCells_splitOn d q r h]; exact hs) hx)
  rw [undouble_of_not_mem q s hq]

/-! ### Strict mode does not matter without a quote character -/

theorem textRun_strict (cfg : Cfg) (mk : Str → Bool → α) (he : cfg.escapechar = NUL)
    (hq : cfg.quotechar = NUL) (t : Str) (o : PObj α)
    (ho : o.state = .startRecord ∨ o.state = .startField ∨ o.state = .inField ∨ o.state = .eatCRNL)
    (hf : t = [] → o.field = []) :
    textRun cfg mk o t = textRun { cfg with strict := false } mk o t := by
  induction t generalizing o with
  | nil =>
    have := hf rfl
    simp [textRun, atEOF, this]
    rcases ho with h | h | h | h <;> simp [h]
  | cons c rest ih =>
    by_cases hc : c = NUL
    · rw [textRun, textRun, if_pos hc, if_pos hc]
    · have hce : c ≠ cfg.escapechar := by rw [he]; exact hc
      have hcq : c ≠ cfg.quotechar := by rw [hq]; exact hc
      have hstep : ∀ v, processChar cfg mk o c v = processChar { cfg with strict := false } mk o c v := by
        intro v
        rcases ho with h | h | h | h <;>
          simp [processChar, h, stepStartField, stepInField, hce, hcq, PObj.to, saveField, addChar]
      have hnext : ∀ v o', processChar cfg mk o c v = .ok o' →
          (o'.state = .startRecord ∨ o'.state = .startField ∨ o'.state = .inField ∨
            o'.state = .eatCRNL) := by
        intro v o' h
        rcases ho with hs | hs | hs | hs <;>
          simp only [processChar, hs, stepStartField, stepInField, hce, hcq, PObj.to, saveField,
            bind, Except.bind] at h <;>
          (repeat' split at h) <;> (try simp only [Except.ok.injEq, reduceCtorEq] at h) <;>
          (try subst h) <;> (try simp_all; done) <;>
          (obtain ⟨_, rfl⟩ := addChar_eq_ok h; simp [hs])
      have hnul : ∀ o' : PObj α, (o'.state = .startRecord ∨ o'.state = .startField ∨
          o'.state = .inField ∨ o'.state = .eatCRNL) →
          ∃ o'', processChar cfg mk o' NUL NUL = .ok o'' ∧
            processChar { cfg with strict := false } mk o' NUL NUL = .ok o'' ∧
            o''.state = .startRecord := by
        intro o' h
        rcases h with h | h | h | h <;>
          simp [processChar, h, stepStartField, stepInField, PObj.to, saveField, isNL, NUL]
      rw [textRun, textRun, if_neg hc, if_neg hc]
      simp only [← hstep]
      split
      · cases h₁ : processChar cfg mk o c NUL with
        | error e => rfl
        | ok o₁ =>
          obtain ⟨o₂, h2, h3, h4⟩ := hnul o₁ (hnext _ _ h₁)
          simp only [h2, h3, emit, h4, if_true]
          rw [ih PObj.init (by simp [PObj.init]) (by simp [PObj.init])]
      · rename_i hend
        cases h₁ : processChar cfg mk o c (rest.headD NUL) with
        | error e => rfl
        | ok o₁ =>
          simp only
          refine ih o₁ (hnext _ _ h₁) (fun hr => ?_)
          subst hr; simp at hend

theorem saveCell_not_mem (q : Char) (f : Str) (h : q ∉ f) (t : Bool) : saveCell q f t = (f, false) := by
  have hs : startsWithChar f q = false := by
    cases f with
    | nil => rfl
    | cons a f => simp [startsWithChar]; rintro rfl; simp at h
  simp [saveCell, quoteCond, hs]

/-- A quotechar that does not occur in the text might as well be absent. -/
theorem textRun_no_quote (cfg : Cfg) (mk : Str → Bool → α) (he : cfg.escapechar = NUL)
    (t : Str) (hq : cfg.quotechar ∉ t) (hn : NUL ∉ t) (o : PObj α)
    (ho : o.state = .startRecord ∨ o.state = .startField ∨ o.state = .inField ∨ o.state = .eatCRNL)
    (hfq : cfg.quotechar ∉ o.field) (hfn : NUL ∉ o.field) (hf : t = [] → o.field = []) :
    textRun cfg mk o t = textRun { cfg with quotechar := NUL } mk o t := by
  induction t generalizing o with
  | nil =>
    have := hf rfl
    simp [textRun, atEOF, this]
    rcases ho with h | h | h | h <;> simp [h]
  | cons c rest ih =>
    have hc : c ≠ NUL := fun h => hn (by simp [h])
    have hcq : c ≠ cfg.quotechar := fun h => hq (by simp [h])
    have hrn : NUL ∉ rest := fun h => hn (by simp [h])
    have hrq : cfg.quotechar ∉ rest := fun h => hq (by simp [h])
    have hce : c ≠ cfg.escapechar := by rw [he]; exact hc
    have hsave : ∀ (o : PObj α), cfg.quotechar ∉ o.field → NUL ∉ o.field → ∀ t,
        saveField cfg mk o t = saveField { cfg with quotechar := NUL } mk o t := by
      intro o h1 h2 t
      simp [saveField, saveCell_not_mem _ _ h1, saveCell_not_mem _ _ h2]
    have hstep : ∀ v, processChar cfg mk o c v = processChar { cfg with quotechar := NUL } mk o c v := by
      intro v
      have h1 := hsave o hfq hfn false
      have h2 := hsave (o.to .startField) hfq hfn false
      rcases ho with h | h | h | h <;>
        simp [processChar, h, stepStartField, stepInField, hce, hcq, hc, addChar, h1, h2]
    have hnext : ∀ v o', processChar cfg mk o c v = .ok o' →
        (o'.state = .startRecord ∨ o'.state = .startField ∨ o'.state = .inField ∨
          o'.state = .eatCRNL) ∧ (o'.field = [] ∨ o'.field = o.field ∨ o'.field = o.field ++ [c]) := by
      intro v o' h
      rcases ho with hs | hs | hs | hs <;>
        simp only [processChar, hs, stepStartField, stepInField, hce, hcq, PObj.to, saveField,
          bind, Except.bind] at h <;>
        (repeat' split at h) <;> (try simp only [Except.ok.injEq, reduceCtorEq] at h) <;>
        (try subst h) <;> (try simp_all; done)
      all_goals
        first
        | (rename addChar _ _ _ = Except.ok _ => heq
           obtain ⟨_, rfl⟩ := addChar_eq_ok heq; simp_all)
    have hnul : ∀ o' : PObj α, (o'.state = .startRecord ∨ o'.state = .startField ∨
        o'.state = .inField ∨ o'.state = .eatCRNL) → cfg.quotechar ∉ o'.field → NUL ∉ o'.field →
        ∃ o'', processChar cfg mk o' NUL NUL = .ok o'' ∧
          processChar { cfg with quotechar := NUL } mk o' NUL NUL = .ok o'' ∧
          o''.state = .startRecord := by
      intro o' h h1 h2
      have h3 := hsave o' h1 h2 false
      rcases h with h | h | h | h <;>
        simp [processChar, h, stepStartField, stepInField, h3, isNL, PObj.to, NUL]
    have hmem : ∀ v o', processChar cfg mk o c v = .ok o' →
        cfg.quotechar ∉ o'.field ∧ NUL ∉ o'.field := by
      intro v o' h
      rcases (hnext v o' h).2 with h | h | h <;> rw [h]
      · simp
      · exact ⟨hfq, hfn⟩
      · simp only [List.mem_append, List.mem_singleton, not_or]
        exact ⟨⟨hfq, Ne.symm hcq⟩, hfn, Ne.symm hc⟩
    rw [textRun, textRun, if_neg hc, if_neg hc]
    simp only [← hstep]
    split
    · cases h₁ : processChar cfg mk o c NUL with
      | error e => rfl
      | ok o₁ =>
        obtain ⟨m1, m2⟩ := hmem _ _ h₁
        obtain ⟨o₂, h2, h3, h4⟩ := hnul o₁ (hnext _ _ h₁).1 m1 m2
        simp only [h2, h3, emit, h4, if_true]
        rw [ih hrq hrn PObj.init (by simp [PObj.init]) (by simp [PObj.init]) (by simp [PObj.init])
          (by simp [PObj.init])]
    · rename_i hend
      cases h₁ : processChar cfg mk o c (rest.headD NUL) with
      | error e => rfl
      | ok o₁ =>
        obtain ⟨m1, m2⟩ := hmem _ _ h₁
        simp only
        refine ih hrq hrn o₁ (hnext _ _ h₁).1 m1 m2 (fun hr => ?_)
        subst hr; simp at hend

end Clever
