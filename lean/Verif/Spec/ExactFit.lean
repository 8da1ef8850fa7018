import Verif.Basic

/-!
# What fits the field size limit

Stated without the writer and the parser.
-/

namespace Clever.Spec

/-- The characters that make a writer with delimiter `d` and quote character `q` put a cell in quotes. -/
def NeedsQuotes (d q : Char) (s : Str) : Prop := ∃ c ∈ s, c = d ∨ c = q ∨ c = '\r' ∨ c = '\n'

instance (d q : Char) (s : Str) : Decidable (NeedsQuotes d q s) := by unfold NeedsQuotes; infer_instance

/-- The number of characters that the parser collects for the cell `s` of the written row: its own, and the two quotes
around it if there are any (a row of one empty cell is written as two quotes). -/
def cellCost (d q : Char) (row : List Str) (s : Str) : Nat :=
  if row = [[]] ∨ NeedsQuotes d q s then s.length + 2 else s.length

/-- Each cell of the table can be read again: it has no NUL, and the parser has to collect no more characters for it
than the limit allows (nothing to collect is fine even for a negative limit). -/
def CanReadBack (limit : Int) (d q : Char) (rows : List (List Str)) : Prop :=
  ∀ row ∈ rows, ∀ s ∈ row, NUL ∉ s ∧ (cellCost d q row s = 0 ∨ (cellCost d q row s : Int) ≤ limit)

instance (limit : Int) (d q : Char) (rows : List (List Str)) : Decidable (CanReadBack limit d q rows) := by
  unfold CanReadBack; infer_instance

/-- The same for a writer that never uses quotes. -/
def CanReadBackUnquoted (limit : Int) (rows : List (List Str)) : Prop :=
  ∀ row ∈ rows, ∀ s ∈ row, NUL ∉ s ∧ (s = [] ∨ (s.length : Int) ≤ limit)

instance (limit : Int) (rows : List (List Str)) : Decidable (CanReadBackUnquoted limit rows) := by
  unfold CanReadBackUnquoted; infer_instance

end Clever.Spec
