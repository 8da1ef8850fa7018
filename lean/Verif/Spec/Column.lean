import Verif.Spec.QuotedTable

/-!
# Files with a single column, and files whose rows are in quotes as a whole
-/

namespace Clever.Spec

/-- ASCII letters and digits, and the characters `. _ & -`. -/
def ColumnChar (c : Char) : Prop :=
  ('a' ≤ c ∧ c ≤ 'z') ∨ ('A' ≤ c ∧ c ≤ 'Z') ∨ ('0' ≤ c ∧ c ≤ '9') ∨ c ∈ "._&-".toList

/-- A line of the file: the text, in quotes if there is a quote character. -/
def columnLine : Option Char → Str → Str
  | none, s => s
  | some q, s => q :: (s ++ [q])

/-- The lines of a column, each ended by `nl`. -/
def columnText (q : Option Char) (nl : Str) (L : List Str) : Str := L.flatMap fun s => columnLine q s ++ nl

/-- At least two texts.  Without quotes they are not empty and consist of the characters above; in quotes there may also be
spaces. -/
structure WordColumn (q : Option Char) (L : List Str) : Prop where
  rows : 2 ≤ L.length
  quote : q ∈ [none, some '"', some '\'']
  bare : q = none → ∀ s ∈ L, s ≠ []
  chars : ∀ s ∈ L, ∀ c ∈ s, ColumnChar c ∨ (q ≠ none ∧ c = ' ')

/-- The rows of a table as lines, each line in quotes as a whole. -/
def wholeRowText (d q : Char) (nl : Str) (T : List (List Str)) : Str := columnText (some q) nl (T.map (joinWith d))

end Clever.Spec
