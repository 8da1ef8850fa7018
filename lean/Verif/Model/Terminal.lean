import Verif.Model.Code

/-!
# Standard output in an encoding

In Model/Standardize and Model/Code everything can be printed.  Here standard output is a `TextIOWrapper` with an encoding
(`PYTHONIOENCODING`, or that of the locale) that may lack characters, and that replaces LF by the line separator of the
platform.  One call of `write` encodes its text as a whole before anything is passed on.  (Errors of the file descriptor behind
standard output are not modelled.)
-/

namespace Clever

/-- Standard output: its encoding, and what is written for LF (CRLF on Windows). -/
structure Terminal where
  codec : Codec
  linesep : Str := ['\n']

/-- What has been written to standard output: the bytes, and the state of the encoder. -/
structure Screen where
  enc : Nat := 0
  bytes : Bytes := []
deriving DecidableEq

/-- A piece of a program that writes to standard output.  (`World.stdout` has the characters that have been accepted.) -/
def ActE (α : Type) := World → Screen → Except PyExc α × World × Screen

instance : Monad ActE where
  pure a := fun w s => (.ok a, w, s)
  bind m f := fun w s =>
    match m w s with
    | (.ok a, w', s') => f a w' s'
    | (.error e, w', s') => (.error e, w', s')

/-- Something that does not print. -/
def silently {α : Type} (m : Act α) : ActE α := fun w s => ((m w).1, (m w).2, s)

/-- The replacement of line ends in `TextIOWrapper.write`. -/
def Terminal.newlines (t : Terminal) (text : Str) : Str := replaceChar '\n' t.linesep text

/-- `sys.stdout.write(text)`. -/
def writeOut (t : Terminal) (text : Str) : ActE Unit := fun w s =>
  match t.codec.encodeFrom s.enc (t.newlines text) with
  | none => (.error .unicodeError, w, s)
  | some (e, b) => (.ok (), { w with stdout := w.stdout ++ text }, { enc := e, bytes := s.bytes ++ b })

/-- `print(text)`: the end of the line is another call of `write`. -/
def printLineE (t : Terminal) (text : Str) : ActE Unit := do
  writeOut t text
  writeOut t ['\n']

/-- Some calls of `print`. -/
def printLinesE (t : Terminal) : List Str → ActE Unit
  | [] => pure ()
  | l :: ls => do
    printLineE t l
    printLinesE t ls

/-- `_to_stdout`, clevercsv/console/commands/standardize.py:269-276. -/
def toStdoutE (sys : Sys) (t : Terminal) (transpose : Bool) (p : Path) (dialect : SimpleDialect) (encoding : Option Str) :
    ActE Nat := do
  let g ← silently (writeToStream sys transpose p dialect encoding)
  let pieces ← silently (liftExcept g.toList)
  writeOut t pieces.flatten
  return 0

/-- `handle_path`, clevercsv/console/commands/standardize.py:176-198. -/
def handlePathE (sys : Sys) (t : Terminal) (a : StdArgs) (p : Path) (output : Option Path) (encoding : Option Str) :
    ActE Nat := do
  let encoding ← silently (encodingOr sys p encoding)
  let target := match truthy a.target with
    | some t => some t
    | none => encoding
  match ← silently (detectDialect sys p a.numChars encoding) with
  | none => return 1
  | some d =>
    if a.inPlace then silently (inPlace sys a.transpose p d encoding target)
    else
      match output with
      | none => toStdoutE sys t a.transpose p d encoding
      | some o => silently (toFile sys a.transpose p o d encoding target)

/-- The loop over the files, clevercsv/console/commands/standardize.py:160-174. -/
def handleLoopE (sys : Sys) (t : Terminal) (a : StdArgs) : List (Path × Option Path × Option Str) → Nat → ActE Nat
  | [], globalRetval => return globalRetval
  | (p, output, encoding) :: rest, globalRetval => do
    let retval ← handlePathE sys t a p output encoding
    let globalRetval := if retval > 0 ∧ globalRetval = 0 then retval else globalRetval
    if retval = 1 then return retval
    else handleLoopE sys t a rest globalRetval

/-- `handle`, clevercsv/console/commands/standardize.py:115-174. -/
def standardizeE (sys : Sys) (t : Terminal) (a : StdArgs) : ActE Nat :=
  if a.inPlace ∧ a.outputs ≠ [] then return 1
  else
    let outputs := if a.outputs.length = 0 then a.paths.map (fun _ => none) else a.outputs.map some
    if a.inPlace = false ∧ outputs.length ≠ a.paths.length then return 1
    else
      let encodings := if a.encodings.length = 0 then a.paths.map (fun _ => none) else a.encodings.map some
      match encodings with
      | [e] => handleLoopE sys t a (a.paths.zip (outputs.zip (a.paths.map fun _ => e))) 0
      | _ =>
        if encodings.length ≠ a.paths.length then return 1
        else handleLoopE sys t a (a.paths.zip (outputs.zip encodings)) 0

/-- `handle` of the code command, clevercsv/console/commands/code.py:60-78. -/
def codeCmdE (sys : Sys) (t : Terminal) (pr : Printer) (p : Path) (encoding : Option Str) (numChars : Option Int)
    (usePandas : Bool) : ActE Nat := do
  let encoding ← silently (encodingOr sys p encoding)
  match ← silently (detectDialect sys p numChars encoding) with
  | none => return 1
  | some d =>
    let lines ← silently (liftExcept (generateCode pr p d encoding usePandas))
    printLineE t (joinLines lines)
    return 0

/-- `handle` of the detect command, clevercsv/console/commands/detect.py:103-139, without `--add-runtime`. -/
def detectCmdE (sys : Sys) (t : Terminal) (pr : Printer) (p : Path) (encoding : Option Str) (numChars : Option Int)
    (consistency noSkip : Bool) (format : DetectFormat) : ActE Nat := do
  let method := if consistency then "consistency".toList else "auto".toList
  match ← silently (detectDialect sys p numChars encoding method (!noSkip)) with
  | none => return 1
  | some d =>
    let lines ← silently (liftExcept (detectLines sys.env pr d format))
    printLinesE t lines
    return 0

end Clever
