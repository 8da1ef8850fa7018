import Verif.Spec.Cells
import Verif.Spec.Table

/-!
# Texts with the same number of cells on every line
-/

namespace Clever.Spec

/-- The text does not begin with a line break and has no NUL, and with the delimiter `d` every nonempty line has `n`
cells, all of them good. -/
structure ConsistentText (d : Char) (n : Nat) (good : Str → Prop) (t : Str) : Prop where
  start : ∃ c r, t = c :: r ∧ c ≠ '\n' ∧ c ≠ '\r'
  noNul : NUL ∉ t
  width : ∀ l ∈ textLines t, l ≠ [] → (splitOn d l).length = n
  cells : ∀ l ∈ textLines t, l ≠ [] → ∀ s ∈ splitOn d l, good s

/-- An ASCII character that is not part of a URL: not a letter, not a digit and none of `_ / ( ) ~ ? = & % - # . :`. -/
def OutsideUrls (c : Char) : Prop := c.toNat < 128 ∧ alnum c = false ∧ c ∉ "_/()~?=&%-#.:".toList

/-- A table with at least one row and at least two columns, with cells of letters, digits, points and parentheses, or
empty. -/
structure WordTable (T : List (List Str)) : Prop where
  rows : T ≠ []
  columns : ∀ r ∈ T, 2 ≤ r.length
  rect : Rect T
  chars : ∀ r ∈ T, ∀ s ∈ r, ∀ c ∈ s, alnum c = true ∨ c ∈ ".()".toList

end Clever.Spec
