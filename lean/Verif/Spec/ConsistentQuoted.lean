import Verif.Spec.Consistent
import Verif.Spec.Parse
import Verif.Spec.QuotedTable

/-!
# Texts with quotes and the same number of cells on every line
-/

namespace Clever.Spec

/-- The text does not begin with a line break and has no NUL, the quotes are balanced on every line, and with the delimiter
`d` and the quote character `q` every nonempty line has `n` cells, all of them good. -/
structure ConsistentQuoted (d q : Char) (n : Nat) (good : Str × Bool → Prop) (t : Str) : Prop where
  start : ∃ c r, t = c :: r ∧ c ≠ '\n' ∧ c ≠ '\r'
  noNul : NUL ∉ t
  even : ∀ l ∈ textLines t, l.count q % 2 = 0
  width : ∀ l ∈ textLines t, l ≠ [] → (rawCells d q false l).length = n
  cells : ∀ l ∈ textLines t, l ≠ [] → ∀ c ∈ rawCells d q false l, good (cellValue q c)

/-- A table with at least one row and at least two columns, with cells of letters, digits, points and parentheses, or
empty, of which at least one is in quotes. -/
structure QuotedWords (T : List (List (Bool × Str))) : Prop where
  rows : T ≠ []
  columns : ∀ r ∈ T, 2 ≤ r.length
  rect : Rect T
  chars : ∀ r ∈ T, ∀ x ∈ r, ∀ c ∈ x.2, alnum c = true ∨ c ∈ ".()".toList
  inQuotes : ∃ r ∈ T, ∃ x ∈ r, x.1 = true

end Clever.Spec
