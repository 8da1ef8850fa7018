import Verif.Spec.Parse
import Verif.Model.Potential

/-!
# The normal forms as grammars

Each form says how the lines of a file are built from a table of texts, without splitting.  `joinWith d` puts the
delimiter between the cells.
-/

namespace Clever.Spec

open Clever

/-- The characters of an elementary cell. -/
def elementaryText : Str :=
  "abcdefghijklmnopqrstuvwxyzABCDEFGHIJKLMNOPQRSTUVWXYZ0123456789._&-@+%() /".toList

/-- The characters of a single column. -/
def wordText : Str := "abcdefghijklmnopqrstuvwxyzABCDEFGHIJKLMNOPQRSTUVWXYZ0123456789._&-".toList

/-- A text between quotes. -/
def withQuotes (q : Char) (s : Str) : Str := q :: (s ++ [q])

/-- Every delimiter of the text has an odd number of quotes before it. -/
def Uncut (d q : Char) (t : Str) : Prop := ∀ a b, t = a ++ d :: b → a.count q % 2 = 1

/-- The quotes of the text come in pairs. -/
def Closed (q : Char) (t : Str) : Prop := t.count q % 2 = 0

/-- Form 1: all cells are between quotes and without further quotes, at least two in every line and equally many in all
lines.  A line may have a delimiter after its last cell. -/
def Form1 (d q : Char) (rows : List Str) : Prop :=
  rows ≠ [] ∧ ∃ n, 2 ≤ n ∧ ∀ row ∈ rows, ∃ T : List Str, T.length = n ∧ (∀ s ∈ T, q ∉ s) ∧
    (row = joinWith d (T.map (withQuotes q)) ∨ row = joinWith d (T.map (withQuotes q)) ++ [d])

/-- Form 2: the cells are elementary or empty, at least two in every line and equally many in all lines. -/
def Form2 (d : Char) (rows : List Str) : Prop :=
  rows ≠ [] ∧ ∃ n, 2 ≤ n ∧ ∀ row ∈ rows, ∃ T : List Str, T.length = n ∧
    (∀ s ∈ T, d ∉ s ∧ ∀ c ∈ s, c ∈ elementaryText) ∧ row = joinWith d T

/-- A cell of form 3: elementary and not empty, or between quotes with something between them. -/
def Cell3 (d q : Char) (t : Str) : Prop :=
  (t ≠ [] ∧ d ∉ t ∧ ∀ c ∈ t, c ∈ elementaryText) ∨ (∃ s, s ≠ [] ∧ t = withQuotes q s ∧ Uncut d q t)

/-- Form 3: at least two lines with equally many of these cells, at least two in every line.  The quotes are closed
before every delimiter between cells.  A line with a quote may have a delimiter after its last cell. -/
def Form3 (d q : Char) (rows : List Str) : Prop :=
  2 ≤ rows.length ∧ ∃ n, 2 ≤ n ∧ ∀ row ∈ rows, ∃ T : List Str, T.length = n ∧ (∀ t ∈ T, Cell3 d q t) ∧
    ((row = joinWith d T ∧ ∀ t ∈ T.dropLast, Closed q t) ∨
     (row = joinWith d T ++ [d] ∧ q ∈ row ∧ ∀ t ∈ T, Closed q t))

/-- Form 4: at least two lines, all words or all words (with spaces) between quotes. -/
def Form4 (q : Option Char) (rows : List Str) : Prop :=
  2 ≤ rows.length ∧ ∀ row ∈ rows,
    match q with
    | none => ∀ c ∈ row, c ∈ wordText
    | some q => ∃ s, row = withQuotes q s ∧ ∀ c ∈ s, c ∈ wordText ∨ c = ' '

/-- Form 5: form 2 with every line between quotes, and at least two lines. -/
def Form5 (d q : Char) (rows : List Str) : Prop :=
  2 ≤ rows.length ∧ ∃ R, Form2 d R ∧ rows = R.map (withQuotes q)

/-- The candidates, in the order in which they are tried, with what is required of the lines. -/
def normalCandidates : List (SimpleDialect × (List Str → Prop)) :=
  ([',', ';', '|', '\t'].map fun d => (mkDialect [d] [] [], Form2 d)) ++
  ([',', ';', '|', '\t'].flatMap fun d => ['\'', '"'].map fun q =>
    (mkDialect [d] [q] [], fun rows => Form1 d q rows ∨ Form3 d q rows ∨ Form5 d q rows)) ++
  (['\'', '"'].map fun q => (mkDialect [] [q] [], Form4 (some q))) ++
  [(mkDialect [] [] [], Form4 none)]

/-- The pieces of a text at a separator. -/
def PiecesOf (sep body : Str) (rows : List Str) : Prop :=
  rows ≠ [] ∧ body = sep.intercalate rows ∧ ∀ row ∈ rows, ¬ sep <:+: row

/-- The lines of a file: the line feeds at its end are left out, then the carriage returns; the rest is cut at
`\r\n` if it has any, otherwise at `\n` if it has any, otherwise at `\r`. -/
def LinesOf (data : Str) (rows : List Str) : Prop :=
  ∃ (body : Str) (i j : Nat), data = body ++ List.replicate i '\r' ++ List.replicate j '\n' ∧
    body.getLast? ≠ some '\r' ∧ (i = 0 → body.getLast? ≠ some '\n') ∧
    (if ['\r', '\n'] <:+: body then PiecesOf ['\r', '\n'] body rows
     else if '\n' ∈ body then PiecesOf ['\n'] body rows
     else PiecesOf ['\r'] body rows)

/-- A character of the category `Po`, other than common punctuation, immediately before a delimiter or a quote. -/
def EscapeBefore (category : Char → String) (data : Str) : Prop :=
  ∃ u c n v, data = u ++ c :: n :: v ∧ category c = "Po" ∧ c ∉ "!?\"'.,;:%*&#".toList ∧ n ∈ ",;|\t'\"".toList

end Clever.Spec
