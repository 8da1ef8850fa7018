import Verif.Spec.Parse

/-!
# Tables
-/

namespace Clever.Spec

/-- All rows have the same length. -/
def Rect {α : Type} (T : List (List α)) : Prop := ∀ r ∈ T, ∀ r' ∈ T, r.length = r'.length

/-- The entry in row `i` and column `j`, if there is one. -/
def entry {α : Type} (T : List (List α)) (i j : Nat) : Option α := T[i]?.bind (·[j]?)

/-- `T'` is the transpose of `T`: entry `(i, j)` moves to `(j, i)`, and there are no other entries. -/
def IsTranspose {α : Type} (T T' : List (List α)) : Prop := ∀ i j, entry T' j i = entry T i j

/-- ASCII letters and digits, and the characters `. _ & - @ + % ( ) /` and the space. -/
def PlainChar (c : Char) : Prop :=
  ('a' ≤ c ∧ c ≤ 'z') ∨ ('A' ≤ c ∧ c ≤ 'Z') ∨ ('0' ≤ c ∧ c ≤ '9') ∨ c ∈ "._&-@+%() /".toList

/-- A table with at least one row and at least two columns, with cells of plain characters (possibly empty);
no cell outside the last column ends in `/` or `@`. -/
structure PlainTable (T : List (List Str)) : Prop where
  rows : T ≠ []
  columns : ∀ r ∈ T, 2 ≤ r.length
  rect : Rect T
  chars : ∀ r ∈ T, ∀ s ∈ r, ∀ c ∈ s, PlainChar c
  ends : ∀ r ∈ T, ∀ s ∈ r.dropLast, s.getLast? ≠ some '/' ∧ s.getLast? ≠ some '@'

/-- The rows of a table as lines: cells separated by `d`, each line ended by `nl`. -/
def tableText (d : Char) (nl : Str) (T : List (List Str)) : Str := T.flatMap fun r => joinWith d r ++ nl

/-- The line ends. -/
def IsLineEnd (nl : Str) : Prop := nl = ['\n'] ∨ nl = ['\r', '\n'] ∨ nl = ['\r']

end Clever.Spec
