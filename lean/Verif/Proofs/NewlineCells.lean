import Verif.Proofs.NewlineDetect

/-!
# Cells without line breaks
-/

namespace Clever

open Spec Props

variable {α : Type}

/-- Invariant of parsing without quotechar. -/
structure LineInv (P : α → Prop) (o : PObj α) : Prop where
  state : o.state = .startRecord ∨ o.state = .startField ∨ o.state = .inField ∨ o.state = .escapedChar ∨
    o.state = .eatCRNL
  field : ∀ c ∈ o.field, isNL c = false
  cells : ∀ c ∈ o.fields, P c

section
variable {cfg : Cfg} {mk : Str → Bool → α} {P : α → Prop}

theorem LineInv.add {o o' : PObj α} {c : Char} (ho : LineInv P o) (hc : isNL c = false)
    (h : addChar cfg o c = .ok o') : LineInv P o' ∧ o'.state = o.state := by
  unfold addChar at h
  split at h
  · cases h
  · cases h
    refine ⟨⟨ho.state, ?_, ho.cells⟩, rfl⟩
    intro x hx
    rcases List.mem_append.1 hx with hx | hx
    · exact ho.field x hx
    · simp at hx; rw [hx]; exact hc

theorem LineInv.save (hP : ∀ s b, (∀ c ∈ s, isNL c = false) → P (mk s b)) {o : PObj α} (ho : LineInv P o) (tr : Bool)
    (s : PState) (hs : s = .startRecord ∨ s = .startField ∨ s = .inField ∨ s = .escapedChar ∨ s = .eatCRNL) :
    LineInv P ((saveField cfg mk o tr).to s) := by
  refine ⟨hs, by simp [saveField, PObj.to], ?_⟩
  intro c hc
  simp only [saveField, PObj.to, List.mem_append, List.mem_singleton] at hc
  rcases hc with hc | rfl
  · exact ho.cells c hc
  · exact hP _ _ fun c hc => ho.field c (mem_saveCell hc)

theorem LineInv.to {o : PObj α} (ho : LineInv P o) (s : PState)
    (hs : s = .startRecord ∨ s = .startField ∨ s = .inField ∨ s = .escapedChar ∨ s = .eatCRNL) :
    LineInv P (o.to s) := ⟨hs, ho.field, ho.cells⟩

theorem LineInv.startField (hq : cfg.quotechar = NUL) (hP : ∀ s b, (∀ c ∈ s, isNL c = false) → P (mk s b))
    {o o' : PObj α} {u : Char} (ho : LineInv P o) (hs : o.state = .startField)
    (h : stepStartField cfg mk o u = .ok o') : LineInv P o' := by
  unfold stepStartField at h
  split at h
  · cases h; refine ho.save hP _ _ ?_; split <;> simp
  · rename_i hu
    simp only [Bool.or_eq_true, decide_eq_true_eq, not_or, Bool.not_eq_true] at hu
    rw [if_neg (by rw [hq]; exact hu.2)] at h
    split at h
    · cases h; exact ho.to _ (by simp)
    · split at h
      · cases h
        have := ho.save (cfg := cfg) hP false .startField (by simp)
        refine ⟨?_, this.field, this.cells⟩
        simp [saveField, hs]
      · simp only [bind, Except.bind] at h
        split at h
        · cases h
        · rename_i o1 h1
          cases h
          exact (ho.add hu.1 h1).1.to _ (by simp)

theorem LineInv.inField (hq : cfg.quotechar = NUL) (hP : ∀ s b, (∀ c ∈ s, isNL c = false) → P (mk s b))
    {o o' : PObj α} {u : Char} (ho : LineInv P o)
    (h : stepInField cfg mk o u = .ok o') : LineInv P o' := by
  unfold stepInField at h
  split at h
  · cases h; refine ho.save hP _ _ ?_; split <;> simp
  · rename_i hu
    simp only [Bool.or_eq_true, decide_eq_true_eq, not_or, Bool.not_eq_true] at hu
    split at h
    · cases h; exact ho.to _ (by simp)
    · rw [if_neg (by rw [hq]; exact hu.2)] at h
      split at h
      · cases h; exact ho.save hP _ _ (by simp)
      · exact (ho.add hu.1 h).1

theorem LineInv.step (hq : cfg.quotechar = NUL) (he : isNL cfg.escapechar = false)
    (hP : ∀ s b, (∀ c ∈ s, isNL c = false) → P (mk s b))
    {o o' : PObj α} {u v : Char} (ho : LineInv P o) (hu : o.state = .escapedChar → isNL u = false)
    (h : processChar cfg mk o u v = .ok o') : LineInv P o' := by
  unfold processChar at h
  rcases ho.state with hs | hs | hs | hs | hs <;> simp only [hs] at h
  · split at h
    · cases h; exact ho
    · split at h
      · cases h; exact ho.to _ (by simp)
      · exact (ho.to .startField (by simp)).startField hq hP rfl h
  · exact ho.startField hq hP hs h
  · exact ho.inField hq hP h
  · have hu := hu hs
    rw [hu] at h
    simp only [Bool.false_eq_true, if_false, bind, Except.bind] at h
    split at h
    · split at h
      · cases h
      · rename_i o1 h1
        have i1 := (ho.add he h1).1
        split at h
        · cases h; exact i1.to _ (by simp)
        · split at h
          · cases h
          · rename_i hv; cases h; exact (i1.add hu hv).1.to _ (by simp)
    · split at h
      · cases h; exact ho.to _ (by simp)
      · split at h
        · cases h
        · rename_i hv; cases h; exact (ho.add hu hv).1.to _ (by simp)
  · split at h
    · cases h; exact ho
    · split at h
      · cases h; exact ho.to _ (by simp)
      · cases h

theorem LineInv.line (hq : cfg.quotechar = NUL) (he : isNL cfg.escapechar = false)
    (hP : ∀ s b, (∀ c ∈ s, isNL c = false) → P (mk s b)) : ∀ {l : Str} {o o' : PObj α}, LineInv P o →
    ¬ LineEndsWith cfg.escapechar l → (o.state = .escapedChar → l ≠ [] ∧ l.head? ≠ some '\n') → '\r' ∉ l →
    feedLine cfg mk o l = .ok o' → LineInv P o'
  | [], o, o', ho, _, _, _, h => ho.step hq he hP (fun _ => by decide) h
  | c :: l, o, o', ho, hE, hs, hr, h => by
    rw [feedLine] at h
    simp only [List.mem_cons, not_or] at hr
    split at h
    · cases h
    · split at h
      · cases h
      · rename_i o1 h1
        have i1 : LineInv P o1 := ho.step hq he hP (fun hst => by
          have := (hs hst).2
          have h2 : c ≠ '\n' := by simpa using this
          simp [isNL, h2, Ne.symm hr.1]) h1
        refine LineInv.line hq he hP i1 ?_ ?_ hr.2 h
        · rintro ⟨a, b, rfl, hb⟩
          exact hE ⟨c :: a, b, rfl, hb⟩
        · intro hst
          have hc := (processChar_escaped h1 (by rw [hst]; rfl)).1
          subst hc
          constructor
          · rintro rfl
            exact hE ⟨[], [], rfl, .inl rfl⟩
          · intro hh
            exact hE ⟨[], l, rfl, .inr hh⟩

theorem LineInv.next (hq : cfg.quotechar = NUL) (he : isNL cfg.escapechar = false)
    (hP : ∀ s b, (∀ c ∈ s, isNL c = false) → P (mk s b)) : ∀ {ls : List Str} {o : PObj α} {r : List α} {rest : List Item},
    LineInv P o → o.state ≠ .escapedChar → (∀ l ∈ ls, ¬ LineEndsWith cfg.escapechar l ∧ '\r' ∉ l) →
    nextRowFrom cfg mk o (strItems ls) = (.row r, rest) →
    (∀ c ∈ r, P c) ∧ ∃ ls', rest = strItems ls' ∧ ∀ l ∈ ls', l ∈ ls
  | [], o, r, rest, ho, _, _, h => by
    simp only [strItems, List.map_nil, nextRowFrom] at h
    split at h
    · split at h
      · cases h
      · simp only [Prod.mk.injEq, Outcome.row.injEq] at h
        obtain ⟨rfl, rfl⟩ := h
        exact ⟨(ho.save (cfg := cfg) (mk := mk) hP true .startRecord (by simp)).cells, [], rfl, by simp⟩
    · simp at h
  | l :: ls, o, r, rest, ho, hst, hl, h => by
    simp only [strItems, List.map_cons, nextRowFrom] at h
    split at h
    · simp at h
    · rename_i o1 h1
      have hl1 := hl l (by simp)
      have i1 := LineInv.line hq he hP ho hl1.1 (fun h => absurd h hst) hl1.2 h1
      have hst1 : o1.state ≠ .escapedChar := by
        intro hh
        have := feedLine_escaped h1
        rw [hh] at this
        cases this
      split at h
      · simp only [Prod.mk.injEq, Outcome.row.injEq] at h
        obtain ⟨rfl, rfl⟩ := h
        exact ⟨i1.cells, ls, rfl, fun l hl => by simp [hl]⟩
      · obtain ⟨h3, ls', h4, h5⟩ := LineInv.next hq he hP i1 hst1 (fun l hx => hl l (by simp [hx])) h
        exact ⟨h3, ls', h4, fun l hx => by simp [h5 l hx]⟩

theorem rows_noNl (hq : cfg.quotechar = NUL) (he : isNL cfg.escapechar = false)
    (hP : ∀ s b, (∀ c ∈ s, isNL c = false) → P (mk s b)) : ∀ (n : Nat) (ls : List Str),
    (∀ l ∈ ls, ¬ LineEndsWith cfg.escapechar l ∧ '\r' ∉ l) →
    ∀ r ∈ (parseRowsAux cfg mk n (strItems ls)).1, ∀ c ∈ r, P c
  | 0, _, _ => by simp [parseRowsAux]
  | n + 1, ls, hl => by
    intro r hr
    rw [parseRowsAux] at hr
    split at hr
    · simp at hr
    · simp at hr
    · rename_i r' rest h1
      have hi : LineInv P (PObj.init : PObj α) := ⟨by simp [PObj.init], by simp [PObj.init], by simp [PObj.init]⟩
      obtain ⟨h2, ls', rfl, h4⟩ := LineInv.next hq he hP hi (by simp [PObj.init]) hl h1
      rcases List.mem_cons.1 hr with rfl | hr
      · exact h2
      · exact rows_noNl hq he hP n ls' (fun l hx => hl l (h4 l hx)) r hr

end

/-- Without quotechar, and if no line ends with the escapechar, no cell contains a line break. -/
theorem parseStringQuoted_noNl {limit : Int} {d e : Option Char} {strict : Bool} {t : Str} (hr : '\r' ∉ t)
    (he : isNL (e.getD NUL) = false) (hesc : ¬ LineEndsWith (e.getD NUL) t) :
    ∀ r ∈ (parseStringQuoted limit (dialectOf d none e strict) t).1, ∀ c ∈ r, '\n' ∉ c.1 := by
  intro r hrow c hc
  unfold parseStringQuoted parseData at hrow
  split at hrow
  · simp at hrow
  · rename_i cfg hcfg
    have hcf : cfg.quotechar = NUL ∧ cfg.escapechar = e.getD NUL := by
      unfold SimpleDialect.cfg mkCfg dialectOf at hcfg
      simp only [setChar_toList, bind, Except.bind] at hcfg
      generalize setLong limit = x at hcfg
      cases x with
      | error e => cases hcfg
      | ok v => cases hcfg; exact ⟨rfl, rfl⟩
    have hen : e.getD NUL ≠ '\n' := by intro h; rw [h] at he; cases he
    have := rows_noNl (cfg := cfg) (mk := mkQuoted) (P := fun c => '\n' ∉ c.1) hcf.1 (by rw [hcf.2]; exact he)
      (fun s b hs hx => by have := hs _ hx; cases this) _ (linesUniv t)
      (fun l hl => by
        have := linesUniv_lines hen t hr hesc l hl
        rw [hcf.2]
        exact ⟨this.2.2.1, this.2.1⟩) r hrow c hc
    exact this

/-! ### A check for the examples -/

/-- `LineEndsWith`, to be computed. -/
def lineEnds (e : Char) : Str → Bool
  | [] => false
  | c :: t => (c = e && (t.isEmpty || t.head? = some '\n')) || lineEnds e t

theorem lineEnds_iff (e : Char) (t : Str) : lineEnds e t = true ↔ LineEndsWith e t := by
  induction t with
  | nil =>
    simp only [lineEnds, Bool.false_eq_true, false_iff]
    rintro ⟨a, b, h, -⟩
    simp at h
  | cons c t ih =>
    simp only [lineEnds, Bool.or_eq_true, Bool.and_eq_true, decide_eq_true_eq, ih, List.isEmpty_iff]
    constructor
    · rintro (⟨rfl, h⟩ | ⟨a, b, rfl, h⟩)
      · exact ⟨[], t, rfl, h⟩
      · exact ⟨c :: a, b, rfl, h⟩
    · rintro ⟨a, b, h, hb⟩
      cases a with
      | nil => simp at h; left; rw [h.2]; exact ⟨h.1, hb⟩
      | cons x a => simp at h; right; exact ⟨a, b, h.2, hb⟩

instance (e : Char) (t : Str) : Decidable (LineEndsWith e t) := decidable_of_iff _ (lineEnds_iff e t)

end Clever
