import Verif.Spec.Table
import Verif.Model.PyEnv

/-!
# Tables with quoted cells

A cell of a file is given by a flag and a text: the flag tells whether it is written in quotes.
-/

namespace Clever.Spec

/-- The text with every `q` doubled. -/
def doubled (q : Char) (s : Str) : Str := s.flatMap fun c => if c = q then [q, q] else [c]

/-- A cell as it stands in the file. -/
def written (q : Char) (x : Bool × Str) : Str := if x.1 then q :: (doubled q x.2 ++ [q]) else x.2

/-- The text of a table with quoted cells. -/
def quotedText (d q : Char) (nl : Str) (T : List (List (Bool × Str))) : Str :=
  tableText d nl (T.map (·.map (written q)))

/-- The values of the cells. -/
def values (T : List (List (Bool × Str))) : List (List Str) := T.map (·.map Prod.snd)

/-- A rectangular table with at least one row and at least two columns.  The cells without quotes are not empty and
consist of plain characters.  The cells in quotes have no line breaks and no NUL characters.  There is a cell in quotes.
Either all cells are in quotes and do not contain the quote character, or there are at least two rows and no cell is
empty. -/
structure QuotedTable (q : Char) (T : List (List (Bool × Str))) : Prop where
  rows : T ≠ []
  columns : ∀ r ∈ T, 2 ≤ r.length
  rect : Rect T
  plain : ∀ r ∈ T, ∀ x ∈ r, x.1 = false → x.2 ≠ [] ∧ ∀ c ∈ x.2, PlainChar c
  quoted : ∀ r ∈ T, ∀ x ∈ r, x.1 = true → ∀ c ∈ x.2, c ≠ NUL ∧ c ≠ '\n' ∧ c ≠ '\r'
  inQuotes : ∃ r ∈ T, ∃ x ∈ r, x.1 = true
  form : (∀ r ∈ T, ∀ x ∈ r, x.1 = true ∧ q ∉ x.2) ∨ (2 ≤ T.length ∧ ∀ r ∈ T, ∀ x ∈ r, x.2 ≠ [])

/-- Punctuation other than `! ? " ' . , ; : % * & #` (such as `/`, `@` and the backslash) is not followed by a comma, a
semicolon, a bar, a tab or a quote. -/
def NoEscapes (env : PyEnv) (text : Str) : Prop :=
  ∀ p ∈ text.zip (text.drop 1), env.category p.1 = "Po" → p.1 ∉ "!?\"'.,;:%*&#".toList →
    p.2 ∉ [',', ';', '|', '\t', '\'', '"']

instance (env : PyEnv) (text : Str) : Decidable (NoEscapes env text) :=
  inferInstanceAs (Decidable (∀ p ∈ _, _))

end Clever.Spec
