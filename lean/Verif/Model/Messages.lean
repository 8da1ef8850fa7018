import Verif.Model.DataFrame
import Verif.Model.Runtime

/-!
# What the commands write to standard error

The commands standardize, detect, code and explore with their messages (`print(..., file=sys.stderr)`); those of view are in
Verif/Model/Process.lean.  The traceback of an exception and the messages of `argparse` are written by library code and are not
part of the model.  That a message can be written is assumed.
-/

namespace Clever

/-- An action that also writes lines to standard error. -/
def MAct (α : Type) := World → Except PyExc α × World × List Str

instance : Monad MAct where
  pure a := fun w => (.ok a, w, [])
  bind m f := fun w =>
    match m w with
    | (.ok a, w', s) => ((f a w').1, (f a w').2.1, s ++ (f a w').2.2)
    | (.error e, w', s) => (.error e, w', s)

/-- An action that writes nothing to standard error. -/
def quietly {α : Type} (m : Act α) : MAct α := fun w => ((m w).1, (m w).2, [])

/-- `print(line, file=sys.stderr)`. -/
def complain (line : Str) : MAct Unit := fun w => (.ok (), w, [line])

/-- The messages. -/
def msgIncompatible : Str :=
  "Incompatible options '-i/--in-place' and '-o/--output'. Can't edit file in-place and write to an output file.".toList
def msgOutputs : Str := "Number of output files should match the number of input files.".toList
def msgEncodings : Str := "Number of encodings should be 1 or the same as the number of input paths.".toList
def msgFailed : Str := "Error: dialect detection failed.".toList
def msgFailedDetect : Str := "Error: Dialect detection failed.".toList

/-- `handle_path`, clevercsv/console/commands/standardize.py:176-198. -/
def handlePathM (sys : Sys) (a : StdArgs) (p : Path) (output : Option Path) (encoding : Option Str) : MAct Nat := do
  let encoding ← quietly (encodingOr sys p encoding)
  let target := match truthy a.target with
    | some t => some t
    | none => encoding
  match ← quietly (detectDialect sys p a.numChars encoding) with
  | none =>
    complain msgFailed
    return 1
  | some d =>
    if a.inPlace then quietly (inPlace sys a.transpose p d encoding target)
    else
      match output with
      | none => quietly (toStdout sys a.transpose p d encoding)
      | some o => quietly (toFile sys a.transpose p o d encoding target)

/-- The loop over the files, clevercsv/console/commands/standardize.py:160-174. -/
def handleLoopM (sys : Sys) (a : StdArgs) : List (Path × Option Path × Option Str) → Nat → MAct Nat
  | [], globalRetval => return globalRetval
  | (p, output, encoding) :: rest, globalRetval => do
    let retval ← handlePathM sys a p output encoding
    let globalRetval := if retval > 0 ∧ globalRetval = 0 then retval else globalRetval
    if retval = 1 then return retval
    else handleLoopM sys a rest globalRetval

/-- `handle`, clevercsv/console/commands/standardize.py:115-174. -/
def standardizeM (sys : Sys) (a : StdArgs) : MAct Nat :=
  if a.inPlace ∧ a.outputs ≠ [] then do
    complain msgIncompatible
    return 1
  else
    let outputs := if a.outputs.length = 0 then a.paths.map (fun _ => none) else a.outputs.map some
    if a.inPlace = false ∧ outputs.length ≠ a.paths.length then do
      complain msgOutputs
      return 1
    else
      let encodings := if a.encodings.length = 0 then a.paths.map (fun _ => none) else a.encodings.map some
      match encodings with
      | [e] => handleLoopM sys a (a.paths.zip (outputs.zip (a.paths.map fun _ => e))) 0
      | _ =>
        if encodings.length ≠ a.paths.length then do
          complain msgEncodings
          return 1
        else handleLoopM sys a (a.paths.zip (outputs.zip encodings)) 0

/-- `handle` of the code command, clevercsv/console/commands/code.py:60-78. -/
def codeCmdM (sys : Sys) (pr : Printer) (p : Path) (encoding : Option Str) (numChars : Option Int) (usePandas : Bool) :
    MAct Nat := do
  let encoding ← quietly (encodingOr sys p encoding)
  match ← quietly (detectDialect sys p numChars encoding) with
  | none =>
    complain msgFailed
    return 1
  | some d =>
    let lines ← quietly (liftExcept (generateCode pr p d encoding usePandas))
    quietly (printText (joinLines lines ++ ['\n']))
    return 0

/-- `handle` of the detect command, clevercsv/console/commands/detect.py:103-139. -/
def detectCmdM (sys : Sys) (pr : Printer) (p : Path) (encoding : Option Str) (numChars : Option Int)
    (consistency noSkip : Bool) (format : DetectFormat) (rt : Option Elapsed) : MAct Nat := do
  let method := if consistency then "consistency".toList else "auto".toList
  match ← quietly (detectDialect sys p numChars encoding method (!noSkip)) with
  | none =>
    complain msgFailedDetect
    return 1
  | some d =>
    let lines ← quietly (liftExcept (detectLinesT sys.env pr d rt format))
    quietly (printText (lines.flatMap fun l => l ++ ['\n']))
    return 0

/-- `handle` of the explore command, clevercsv/console/commands/explore.py:62-98, up to the interactive session.  (What the
console writes to standard error when the code is run is not part of this.) -/
def exploreCmdM (sys : Sys) (pr : Printer) (con : Console) (p : Path) (encoding : Option Str) (numChars : Option Int)
    (usePandas : Bool) : MAct (Nat × Option (con.State × Str)) := do
  let encoding ← quietly (encodingOr sys p encoding)
  match ← quietly (detectDialect sys p numChars encoding) with
  | none =>
    complain msgFailed
    return (1, none)
  | some d =>
    let lines ← quietly (liftExcept (generateCode pr p d encoding usePandas))
    let r := pushAll con con.init false lines
    if r.2 then
      quietly (printText ("An error occurred starting the interactive console. Printing commands instead:\n\n".toList))
      quietly (printText (joinLines lines ++ ['\n']))
      return (1, none)
    else
      quietly (printText ("Dropping you into an interactive shell.\n\n".toList))
      return (0, some (r.1, "CleverCSV has loaded the data into the variable: ".toList ++
        (if usePandas then "df".toList else "rows".toList)))

end Clever
