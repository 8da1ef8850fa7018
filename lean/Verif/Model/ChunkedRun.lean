import Verif.Model.Chunked

/-!
# The whole standardize command with files that are read in chunks and written through a buffer
-/

namespace Clever

/-- The loop over the files, clevercsv/console/commands/standardize.py:160-174. -/
def handleLoopC (sys : Sys) (io : Io) (a : StdArgs) : List (Path × Option Path × Option Str) → Nat → Act Nat
  | [], globalRetval => return globalRetval
  | (p, output, encoding) :: rest, globalRetval => do
    let retval ← handlePathC sys io a p output encoding
    let globalRetval := if retval > 0 ∧ globalRetval = 0 then retval else globalRetval
    if retval = 1 then return retval
    else handleLoopC sys io a rest globalRetval

/-- `handle`, clevercsv/console/commands/standardize.py:115-174. -/
def standardizeC (sys : Sys) (io : Io) (a : StdArgs) : Act Nat :=
  if a.inPlace ∧ a.outputs ≠ [] then return 1
  else
    let outputs := if a.outputs.length = 0 then a.paths.map (fun _ => none) else a.outputs.map some
    if a.inPlace = false ∧ outputs.length ≠ a.paths.length then return 1
    else
      let encodings := if a.encodings.length = 0 then a.paths.map (fun _ => none) else a.encodings.map some
      match encodings with
      | [e] => handleLoopC sys io a (a.paths.zip (outputs.zip (a.paths.map fun _ => e))) 0
      | _ =>
        if encodings.length ≠ a.paths.length then return 1
        else handleLoopC sys io a (a.paths.zip (outputs.zip encodings)) 0

end Clever
