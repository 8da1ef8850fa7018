import Verif.Model.CommandLine
import Verif.Model.Optional

/-!
# The entry point and the view command with the optional packages

clevercsv/__main__.py, clevercsv/console/__init__.py and the method `_tabview` of the view command: what is shown by `tabview`,
what is printed on standard error, and the exit status of the process.  That the interpreter ends with status 1 after an
exception, and with the low eight bits of the argument of `sys.exit`, is library behaviour.
-/

namespace Clever

/-- Where the process runs: `sys.platform == "win32"`, the packages that can be imported, and `tabview.view` (which may raise an
exception). -/
structure Host where
  windows : Bool
  importer : Importer
  show_ : List (List (Option Str)) → Except PyExc Unit

/-- What the user sees besides standard output: the tables given to `tabview.view`, and the lines on standard error. -/
structure Seen where
  tables : List (List (List (Option Str)))
  errors : List Str
deriving DecidableEq

/-- Nothing. -/
def Seen.nothing : Seen := ⟨[], []⟩

/-- `_tabview`, clevercsv/console/commands/view.py:55-67. -/
def tabview (h : Host) (rows : List (List (Option Str))) : Except PyExc Unit × Seen :=
  if h.windows then
    (.ok (), ⟨[], ["Error: unfortunately Tabview is not available on Windows, so the clevercsv view command is not available".toList]⟩)
  else
    match importOptional h.importer "tabview".toList with
    | .error e => (.error e, .nothing)
    | .ok _ => (h.show_ rows, ⟨[rows], []⟩)

/-- `handle`, clevercsv/console/commands/view.py:69-95, with what is shown. -/
def viewHost (h : Host) (sys : Sys) (p : Path) (encoding : Option Str) (numChars : Option Int) (transpose : Bool) (w : World) :
    Except PyExc Nat × World × Seen :=
  match readTable sys p none encoding numChars w with
  | (.error .noDetectionResult, w') => (.ok 1, w', ⟨[], ["Error: dialect detection failed.".toList]⟩)
  | (.error e, w') => (.error e, w', .nothing)
  | (.ok rows, w') =>
    let shown : Except PyExc (List (List (Option Str))) :=
      if transpose then viewTranspose rows else .ok (rows.map (·.map some))
    match shown with
    | .error e => (.error e, w', .nothing)
    | .ok t =>
      match tabview h t with
      | (.error e, s) => (.error e, w', s)
      | (.ok _, s) => (.ok 0, w', s)

/-- `main`, clevercsv/__main__.py:14-21, and the end of the interpreter: the exit status. -/
def runMain (im : Importer) (realmain : World → Except PyExc Nat × World × Seen) (w : World) : Nat × World × Seen :=
  match importOptional im "wilderness".toList with
  | .error _ => (1, w, .nothing)
  | .ok _ =>
    match realmain w with
    | (.error _, w', s) => (1, w', s)
    | (.ok code, w', s) => (code % 256, w', s)

/-- A command that shows nothing, as a main function. -/
def plainMain (m : Act Nat) (w : World) : Except PyExc Nat × World × Seen := ((m w).1, (m w).2, .nothing)

end Clever
