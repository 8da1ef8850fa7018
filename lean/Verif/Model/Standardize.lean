import Verif.Model.Wrappers

/-!
# The standardize command (clevercsv/console/commands/standardize.py)

Messages on standard error are in Model/Messages.lean, the encoding of the standard output in Model/Terminal.lean.
-/

namespace Clever

/-- The writes of `for row in read: write.writerow(row)`: an exception of the writer, or, after all rows, that of
the reader. -/
def WDialect.copyGen (wd : WDialect) (rows : Gen (List Str)) : Gen Str :=
  let g := wd.writeGen rows.1
  (g.1, g.2.orElse fun _ => rows.2)

/-- `_write_to_stream`, clevercsv/console/commands/standardize.py:228-238, with `_write_transposed` (lines 200-213)
and `_write_direct` (lines 215-226): the writes to the stream.  (The file is read when it is opened.) -/
def writeToStream (sys : Sys) (transpose : Bool) (p : Path) (dialect : SimpleDialect) (encoding : Option Str) :
    Act (Gen Str) := do
  let text ← openText sys p encoding
  let r ← liftExcept (mkReader (.stream (strItems (linesUniv text))) (.simple dialect))
  let rows := r.readAll (← getLimit)
  if transpose then
    let rows ← liftExcept rows.toList
    let wd ← liftExcept (mkWriter (.name "excel"))
    return wd.writeGen (zipRows rows)
  else
    let wd ← liftExcept (mkWriter (.name "excel"))
    return wd.copyGen rows

/-- `_in_place`, clevercsv/console/commands/standardize.py:240-267. -/
def inPlace (sys : Sys) (transpose : Bool) (p : Path) (dialect : SimpleDialect)
    (encoding target : Option Str) : Act Nat := do
  let tmp ← mkstemp sys
  let c ← getCodec sys target
  let g ← writeToStream sys transpose p dialect encoding
  writeGen sys tmp c g
  let previous ← sha1sum sys p
  let new ← sha1sum sys tmp
  if previous = new then
    unlink sys tmp
    return 0
  else
    move sys tmp p
    return 2

/-- `print(text, end="")`. -/
def printText (text : Str) : Act Unit := fun w => (.ok (), { w with stdout := w.stdout ++ text })

/-- `_to_stdout`, clevercsv/console/commands/standardize.py:269-276. -/
def toStdout (sys : Sys) (transpose : Bool) (p : Path) (dialect : SimpleDialect) (encoding : Option Str) :
    Act Nat := do
  let g ← writeToStream sys transpose p dialect encoding
  let pieces ← liftExcept g.toList
  printText pieces.flatten
  return 0

/-- `_to_file`, clevercsv/console/commands/standardize.py:278-288. -/
def toFile (sys : Sys) (transpose : Bool) (p output : Path) (dialect : SimpleDialect)
    (encoding target : Option Str) : Act Nat := do
  let c ← openTextWrite sys output target
  let g ← writeToStream sys transpose p dialect encoding
  writeGen sys output c g
  return 0

/-- The options of the command, clevercsv/console/commands/standardize.py:49-113 and 122-128.  (`num_chars` is
converted by `argparse` already.) -/
structure StdArgs where
  paths : List Path
  outputs : List Path := []
  encodings : List Str := []
  numChars : Option Int := none
  inPlace : Bool := false
  target : Option Str := none
  transpose : Bool := false

/-- `handle_path`, clevercsv/console/commands/standardize.py:176-198. -/
def handlePath (sys : Sys) (a : StdArgs) (p : Path) (output : Option Path) (encoding : Option Str) : Act Nat := do
  let encoding ← match truthy encoding with
    | some e => pure (some e)
    | none => getEncoding sys p
  let target := match truthy a.target with
    | some t => some t
    | none => encoding
  match ← detectDialect sys p a.numChars encoding with
  | none => return 1
  | some d =>
    if a.inPlace then inPlace sys a.transpose p d encoding target
    else
      match output with
      | none => toStdout sys a.transpose p d encoding
      | some o => toFile sys a.transpose p o d encoding target

/-- The loop over the files, clevercsv/console/commands/standardize.py:160-174. -/
def handleLoop (sys : Sys) (a : StdArgs) : List (Path × Option Path × Option Str) → Nat → Act Nat
  | [], globalRetval => return globalRetval
  | (p, output, encoding) :: rest, globalRetval => do
    let retval ← handlePath sys a p output encoding
    let globalRetval := if retval > 0 ∧ globalRetval = 0 then retval else globalRetval
    if retval = 1 then return retval
    else handleLoop sys a rest globalRetval

/-- `handle`, clevercsv/console/commands/standardize.py:115-174. -/
def standardize (sys : Sys) (a : StdArgs) : Act Nat :=
  if a.inPlace ∧ a.outputs ≠ [] then return 1
  else
    let outputs := if a.outputs.length = 0 then a.paths.map (fun _ => none) else a.outputs.map some
    if a.inPlace = false ∧ outputs.length ≠ a.paths.length then return 1
    else
      let encodings := if a.encodings.length = 0 then a.paths.map (fun _ => none) else a.encodings.map some
      match encodings with
      | [e] => handleLoop sys a (a.paths.zip (outputs.zip (a.paths.map fun _ => e))) 0
      | _ =>
        if encodings.length ≠ a.paths.length then return 1
        else handleLoop sys a (a.paths.zip (outputs.zip encodings)) 0

end Clever
