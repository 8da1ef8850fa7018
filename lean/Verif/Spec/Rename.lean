import Verif.Model.Dialect

/-!
# Renaming characters
-/

namespace Clever.Spec

/-- A function on characters that leaves NUL and the line breaks alone and takes no other character to one of these or
to the image of one of the characters `S`.  The characters apart from these may be taken to any others. -/
structure Renames (σ : Char → Char) (S : List Char) : Prop where
  nul : σ NUL = NUL
  lf : σ '\n' = '\n'
  cr : σ '\r' = '\r'
  apart : ∀ x ∈ NUL :: '\n' :: '\r' :: S, ∀ c, σ c = σ x → c = x

/-- The characters of a dialect. -/
def dialectChars (d : SimpleDialect) : List Char := d.delimiter.getD [] ++ d.quotechar.getD [] ++ d.escapechar.getD []

/-- A dialect with its characters renamed. -/
def renameDialect (σ : Char → Char) (d : SimpleDialect) : SimpleDialect :=
  ⟨d.delimiter.map (List.map σ), d.quotechar.map (List.map σ), d.escapechar.map (List.map σ), d.strict⟩

/-- An error with its characters renamed. -/
def renameErr (σ : Char → Char) : PErr → PErr
  | .expectedAfter d q => .expectedAfter (σ d) (σ q)
  | e => e

/-- An exception with its characters renamed. -/
def renameExc (σ : Char → Char) : PyExc → PyExc
  | .parse e => .parse (renameErr σ e)
  | e => e

end Clever.Spec
