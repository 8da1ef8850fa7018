import Verif.Proofs.Reader

/-!
# Single steps of the reader object
-/

namespace Clever.Props

open Clever

/-- Is it a row? -/
def isRow (x : Except PyExc (List Str)) : Bool :=
  match x with
  | .ok _ => true
  | .error _ => false

theorem nextGen_lineNum (r : Reader) (g : ParserGen) :
    (r.nextGen g).1.lineNum = r.lineNum + (isRow (r.nextGen g).2).toNat := by
  obtain ⟨src, d, k, gen⟩ := r
  cases src with
  | stream items =>
    simp only [Reader.nextGen]
    cases (nextRow g.cfg mkPlain items).1 <;> simp [isRow]
  | seq items =>
    simp only [Reader.nextGen]
    cases (nextRow g.cfg mkPlain g.own).1 <;> simp [isRow]

theorem iter_lineNum {r r' : Reader} {l : Int} (h : r.iter l = .ok r') : r'.lineNum = r.lineNum := by
  simp only [Reader.iter, bind, Except.bind, pure, Except.pure] at h
  cases hc : r.dialect.cfg l with
  | error e => simp [hc] at h
  | ok c => simp [hc] at h; rw [← h]

theorem next_lineNum (r : Reader) (l : Int) :
    (r.next l).1.lineNum = r.lineNum + (isRow (r.next l).2).toNat := by
  simp only [Reader.next]
  cases hg : r.gen with
  | some g => exact nextGen_lineNum r g
  | none =>
    simp only
    cases hi : r.iter l with
    | error e => simp [isRow]
    | ok r' =>
      simp only
      cases hg' : r'.gen with
      | some g => simp only; rw [nextGen_lineNum, iter_lineNum hi]
      | none => simp [isRow, iter_lineNum hi]

theorem stop_rest (cfg : Cfg) (items : List Item) {rest : List Item} : ∀ (o : PObj Str),
    nextRowFrom cfg mkPlain o items = (.stop, rest) → rest = [] := by
  induction items with
  | nil =>
    intro o h
    simp only [nextRowFrom] at h
    split at h
    · split at h <;> simp at h
    · simpa using h.symm
  | cons i items ih =>
    intro o h
    cases i with
    | nonstr => simp [nextRowFrom] at h
    | raise => simp [nextRowFrom] at h
    | str l =>
      simp only [nextRowFrom] at h
      split at h
      · simp at h
      · split at h
        · simp at h
        · exact ih _ h

end Clever.Props
