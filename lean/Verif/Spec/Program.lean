import Verif.Spec.PyLiteral
import Verif.Spec.World
import Verif.Model.Reader

/-!
# Running a generated program

What a Python interpreter makes of a program of the form that `clevercsv code` prints: blank lines and comments, the line
`import clevercsv`, a `with` statement that opens a file, a call of `clevercsv.reader` and `rows = list(reader)`.  Every
other text has no value here.
-/

namespace Clever.Spec

/-- The lines of a program. -/
def progLines : Str → List Str
  | [] => [[]]
  | c :: t =>
    if c = '\n' then [] :: progLines t
    else
      match progLines t with
      | l :: ls => (c :: l) :: ls
      | [] => [[c]]

/-- A line that does something. -/
def effective (l : Str) : Bool := !l.isEmpty && l.head? != some '#'

/-- A literal or `None`. -/
def literalOrNone (s : Str) : Option (Option Str × Str) :=
  match after "None" s with
  | some s => some (none, s)
  | none => (literal s).map fun p => (some p.1, p.2)

/-- The values in `with open(..., "r", newline="", encoding=...) as fp:`. -/
def openArgs (s : Str) : Option (Str × Option Str) := do
  let (name, s) ← literal (← after "with open(" s)
  let (enc, s) ← literalOrNone (← after ", \"r\", newline=\"\", encoding=" s)
  if s = ") as fp:".toList then some (name, enc) else none

/-- The rows that the program leaves in `rows`: `none` if it is not of the form above or the file cannot be read. -/
def runProgram (sys : Sys) (w : World) (program : Str) : Option (Except PyExc (List (List Str))) :=
  match (progLines program).filter effective with
  | [l1, l2, l3, l4] =>
    if l1 = "import clevercsv".toList ∧ l4 = "    rows = list(reader)".toList then do
      let (name, enc) ← openArgs l2
      let (d, q, e) ← dialectArgs (← after "    reader = clevercsv.reader(fp, " l3)
      let text ← w.text sys name enc
      some (readText w.limit (.name "excel")
        { delimiter := some (some d), quotechar := some (some q), escapechar := some (some e) } text)
    else none
  | _ => none

end Clever.Spec
