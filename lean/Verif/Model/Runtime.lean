import Verif.Model.DataFrame

/-!
# The option `--add-runtime` of the detect command, and the console of the explore command

clevercsv/console/commands/detect.py:103-139 and explore.py:84-87.  The time that the detection takes is a parameter.
The interactive console of the standard library (Lib/code.py) is modelled as far as the grouping of the lines into
sources is concerned.
-/

namespace Clever

/-- The value of `runtime`, a float: its texts `str(runtime)` and `f"{runtime:.6f}"`. -/
structure Elapsed where
  repr : Str
  fixed : Str

/-- The lines that the detect command prints, clevercsv/console/commands/detect.py:124-138. -/
def detectLinesT (env : PyEnv) (pr : Printer) (d : SimpleDialect) (rt : Option Elapsed) :
    DetectFormat → Except PyExc (List Str)
  | .plain => do
    let lines ← detectLines env pr d .plain
    return lines ++ (rt.map fun t => "runtime = ".toList ++ t.repr).toList
  | .json => do
    let dict ← d.toDict
    return [dumps (dict ++ (rt.map fun t => ("runtime".toList, .other t.repr)).toList)]
  | .default => do
    let lines ← detectLines env pr d .default
    return lines ++ (rt.map fun t => "Runtime: ".toList ++ t.fixed ++ " seconds".toList).toList

/-- `handle` of the detect command, clevercsv/console/commands/detect.py:103-139.  `rt` is the runtime if
`--add-runtime` is given. -/
def detectCmdT (sys : Sys) (pr : Printer) (p : Path) (encoding : Option Str) (numChars : Option Int)
    (consistency noSkip : Bool) (format : DetectFormat) (rt : Option Elapsed) : Act Nat := do
  let method := if consistency then "consistency".toList else "auto".toList
  match ← detectDialect sys p numChars encoding method (!noSkip) with
  | none => return 1
  | some d =>
    let lines ← liftExcept (detectLinesT sys.env pr d rt format)
    printText (lines.flatMap fun l => l ++ ['\n'])
    return 0

/-- `InteractiveConsole` (CPython Lib/code.py) as a console: the state consists of the buffer and the sources that have been
compiled and run.  A line is added to the buffer, and the buffer is compiled and run and then emptied, unless
`compile_command` finds that it is only the beginning of a statement (`more`).  A syntax error and an exception are printed
to standard error and have no other effect on the console. -/
def pyConsole (more : Str → Bool) : Console where
  State := List Str × List Str
  init := ([], [])
  push := fun s line =>
    let source := joinLines (s.1 ++ [line])
    if more source then ((s.1 ++ [line], s.2), true) else (([], s.2 ++ [source]), false)

end Clever
