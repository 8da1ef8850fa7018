import Verif.Model.Wrappers

/-!
# The view command (clevercsv/console/commands/view.py)

The command hands a table to the `tabview` package; the model returns that table together with the exit code.
Messages on standard error and a missing `tabview` package are in Verif/Model/Process.lean.
-/

namespace Clever

/-- `max_row_length = max(map(len, rows))`, clevercsv/console/commands/view.py:84. -/
def maxRowLength (rows : List (List Str)) : Except PyExc Nat :=
  match (rows.map List.length).max? with
  | none => .error (.valueError "max() arg is an empty sequence")
  | some m => .ok m

/-- The body of the loop, clevercsv/console/commands/view.py:87-92: `None` stands for a missing cell. -/
def fixRow (m : Nat) (row : List Str) : List (Option Str) :=
  if row.length = m then row.map some
  else row.map some ++ List.replicate (m - row.length) none

/-- Transposing, clevercsv/console/commands/view.py:83-93. -/
def viewTranspose (rows : List (List Str)) : Except PyExc (List (List (Option Str))) := do
  let m ← maxRowLength rows
  return zipRows (rows.map (fixRow m))

/-- `handle`, clevercsv/console/commands/view.py:69-95: the exit code and the table that is shown, if any. -/
def viewCmd (sys : Sys) (p : Path) (encoding : Option Str) (numChars : Option Int) (transpose : Bool) :
    Act (Nat × Option (List (List (Option Str)))) := fun w =>
  match readTable sys p none encoding numChars w with
  | (.error .noDetectionResult, w') => (.ok (1, none), w')
  | (.error e, w') => (.error e, w')
  | (.ok rows, w') =>
    if transpose then
      match viewTranspose rows with
      | .error e => (.error e, w')
      | .ok t => (.ok (0, some t), w')
    else (.ok (0, some (rows.map (·.map some))), w')

end Clever
