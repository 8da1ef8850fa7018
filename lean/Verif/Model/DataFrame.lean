import Verif.Model.Code
import Verif.Model.Optional

/-!
# `read_dataframe` and the explore command

pandas and the interactive console are library code.  `read_dataframe` is modelled up to the call of
`pandas.read_csv`: the result is what `read_csv` is called with.
-/

namespace Clever

/-- The value of a keyword argument: a string, None, or something else, which may be false. -/
inductive KwVal where
  | str (s : Str)
  | none
  | other (id : Nat) (truth : Bool)
deriving DecidableEq

/-- A call of `pandas.read_csv(filename, *args, dialect=dialect, **kwargs)`. -/
structure PandasCall where
  filename : Path
  args : List KwVal
  dialect : CsvDialect
  kwargs : List (Str × KwVal)
deriving DecidableEq

/-- `kwargs[key] = value`. -/
def kwSet : List (Str × KwVal) → Str → KwVal → List (Str × KwVal)
  | [], k, v => [(k, v)]
  | (k', v') :: rest, k, v => if k' = k then (k', v) :: rest else (k', v') :: kwSet rest k v

/-- `kwargs.get("encoding") or get_encoding(filename)`, clevercsv/wrappers.py:327. -/
def frameEncoding (sys : Sys) (p : Path) (kwargs : List (Str × KwVal)) : Act KwVal := do
  let guess : Act KwVal := do
    match ← getEncoding sys p with
    | some e => return .str e
    | Option.none => return .none
  match kwargs.lookup "encoding".toList with
  | Option.none => guess
  | some (.str s) => if s = [] then guess else return .str s
  | some .none => guess
  | some (.other i t) => if t then return .other i t else guess

/-- The argument `encoding` of `open`. -/
def openEncoding : KwVal → Except PyExc (Option Str)
  | .str s => .ok (some s)
  | .none => .ok Option.none
  | .other _ _ => .error (.typeError "open() argument 'encoding' must be str or None")

/-- `read_dataframe`, clevercsv/wrappers.py:286-347. -/
def readDataframe (sys : Sys) (im : Importer) (p : Path) (args : List KwVal) (numChars : Option Int)
    (kwargs : List (Str × KwVal)) : Act PandasCall := fun w =>
  if (w.files p).isNone then (.error (.valueError "Filename must be a regular file"), w)
  else
    (do
      let found ← liftExcept (importOptional im "pandas".toList)
      if !found then raise .assertionError
      else
        let enc ← frameEncoding sys p kwargs
        let encoding ← liftExcept (openEncoding enc)
        let text ← openText sys p encoding
        match ← runDetector sys (readSome text numChars) with
        | Option.none => raise .noDetectionResult
        | some d =>
          let dialect ← liftExcept d.toCsvDialect
          if ((kwSet kwargs "encoding".toList enc).lookup "dialect".toList).isSome then
            raise (.typeError "got multiple values for keyword argument 'dialect'")
          else return ⟨p, args, dialect, kwSet kwargs "encoding".toList enc⟩ : Act PandasCall) w

/-- An interactive console: `push` takes a line and says whether more input is needed. -/
structure Console where
  State : Type
  init : State
  push : State → Str → State × Bool

/-- `for line in code_lines: retcode = console.push(line)`: the state, and the last answer. -/
def pushAll (con : Console) : con.State → Bool → List Str → con.State × Bool
  | s, r, [] => (s, r)
  | s, _, l :: ls => let x := con.push s l; pushAll con x.1 x.2 ls

/-- `handle` of the explore command, clevercsv/console/commands/explore.py:62-98, up to the interactive session: the exit
code and, if there is a session, the state of the console and the banner. -/
def exploreCmd (sys : Sys) (pr : Printer) (con : Console) (p : Path) (encoding : Option Str) (numChars : Option Int)
    (usePandas : Bool) : Act (Nat × Option (con.State × Str)) := do
  let encoding ← encodingOr sys p encoding
  match ← detectDialect sys p numChars encoding with
  | none => return (1, none)
  | some d =>
    let lines ← liftExcept (generateCode pr p d encoding usePandas)
    let r := pushAll con con.init false lines
    if r.2 then
      printText ("An error occurred starting the interactive console. Printing commands instead:\n\n".toList)
      printText (joinLines lines ++ ['\n'])
      return (1, none)
    else
      printText ("Dropping you into an interactive shell.\n\n".toList)
      return (0, some (r.1, "CleverCSV has loaded the data into the variable: ".toList ++
        (if usePandas then "df".toList else "rows".toList)))

end Clever
