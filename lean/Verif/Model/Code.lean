import Verif.Model.Json
import Verif.Model.Standardize

/-!
# The code and detect commands

clevercsv/console/commands/_utils.py, code.py and detect.py, and `SimpleDialect.__repr__`.  Messages on standard
error are in Model/Messages.lean, the encoding of the standard output in Model/Terminal.lean.  The option `--add-runtime` is in
Model/Runtime.lean.
-/

namespace Clever

/-- What the printed text depends on besides the dialect. -/
structure Printer where
  /-- `clevercsv.__version__` -/
  version : Str
  /-- `str.isprintable` on a character that is not ASCII -/
  printable : Char → Bool

/-- `k` lower-case hexadecimal digits. -/
def hexDigits : Nat → Nat → Str
  | 0, _ => []
  | k + 1, n => hexDigits k (n / 16) ++ [hexDigit (n % 16)]

/-- One character of `repr` of a string between quotes `q` (`unicode_repr`, CPython Objects/unicodeobject.c). -/
def reprChar (pr : Printer) (q c : Char) : Str :=
  if c = q ∨ c = '\\' then ['\\', c]
  else if c = '\t' then ['\\', 't']
  else if c = '\n' then ['\\', 'n']
  else if c = '\r' then ['\\', 'r']
  else if c.toNat < 32 ∨ c.toNat = 127 then '\\' :: 'x' :: hexDigits 2 c.toNat
  else if c.toNat < 127 then [c]
  else if pr.printable c then [c]
  else if c.toNat < 256 then '\\' :: 'x' :: hexDigits 2 c.toNat
  else if c.toNat < 65536 then '\\' :: 'u' :: hexDigits 4 c.toNat
  else '\\' :: 'U' :: hexDigits 8 c.toNat

/-- `repr(s)`: in double quotes if the string has a single quote and no double quote. -/
def pyRepr (pr : Printer) (s : Str) : Str :=
  let q := if s.contains '\'' && !s.contains '"' then '"' else '\''
  q :: (s.flatMap (reprChar pr q) ++ [q])

/-- `f"{x}"` for a string or `None`. -/
def fmtOpt : Option Str → Str
  | none => "None".toList
  | some s => s

/-- `repr(x)` for a string or `None`. -/
def reprOpt (pr : Printer) : Option Str → Str
  | none => "None".toList
  | some s => pyRepr pr s

/-- `s.replace(x, y)` for a character `x`. -/
def replaceChar (x : Char) (y : Str) (s : Str) : Str := s.flatMap fun c => if c = x then y else [c]

/-- The local variable `d`, clevercsv/console/commands/_utils.py:30. -/
def codeDelimiter (d : SimpleDialect) : Str :=
  if d.delimiter = some ['\t'] then "\"\\t\"".toList
  else '"' :: (fmtOpt d.delimiter ++ ['"'])

/-- The local variable `q`, clevercsv/console/commands/_utils.py:31. -/
def codeQuotechar (quotechar : Str) : Str := '"' :: (replaceChar '"' ['\\', '"'] quotechar ++ ['"'])

/-- The local variable `e`, clevercsv/console/commands/_utils.py:32. -/
def codeEscapechar (pr : Printer) (d : SimpleDialect) : Str :=
  replaceChar '\'' ['"'] (pyRepr pr (fmtOpt d.escapechar))

/-- The arguments that give the dialect, clevercsv/console/commands/_utils.py:43-44 and 54. -/
def codeArgs (pr : Printer) (d : SimpleDialect) (quotechar : Str) : Str :=
  "delimiter=".toList ++ codeDelimiter d ++ ", quotechar=".toList ++ codeQuotechar quotechar ++
    ", escapechar=".toList ++ codeEscapechar pr d ++ ")".toList

/-- The local variable `base`, clevercsv/console/commands/_utils.py:33-38. -/
def codeBase (pr : Printer) : List Str :=
  [[], "# Code generated with CleverCSV version ".toList ++ pr.version, [], "import clevercsv".toList]

/-- `generate_code`, clevercsv/console/commands/_utils.py:23-58. -/
def generateCode (pr : Printer) (filename : Str) (d : SimpleDialect) (encoding : Option Str)
    (usePandas : Bool := false) : Except PyExc (List Str) :=
  match d.quotechar with
  | none => .error .assertionError
  | some quotechar =>
    if usePandas then
      .ok (codeBase pr ++ [[],
        "df = clevercsv.read_dataframe(\"".toList ++ filename ++ "\", ".toList ++ codeArgs pr d quotechar, []])
    else
      let enc := match encoding with
        | none => "None".toList
        | some e => '"' :: (e ++ ['"'])
      .ok (codeBase pr ++ [[],
        "with open(\"".toList ++ filename ++ "\", \"r\", newline=\"\", encoding=".toList ++ enc ++ ") as fp:".toList,
        "    reader = clevercsv.reader(fp, ".toList ++ codeArgs pr d quotechar,
        "    rows = list(reader)".toList, []])

/-- `"\n".join(lines)`. -/
def joinLines : List Str → Str
  | [] => []
  | [l] => l
  | l :: m :: ls => l ++ '\n' :: joinLines (m :: ls)

/-- `self.args.encoding or get_encoding(filename)`, clevercsv/console/commands/code.py:62. -/
def encodingOr (sys : Sys) (p : Path) (encoding : Option Str) : Act (Option Str) :=
  match truthy encoding with
  | some e => pure (some e)
  | none => getEncoding sys p

/-- `handle` of the code command, clevercsv/console/commands/code.py:60-78. -/
def codeCmd (sys : Sys) (pr : Printer) (p : Path) (encoding : Option Str) (numChars : Option Int)
    (usePandas : Bool) : Act Nat := do
  let encoding ← encodingOr sys p encoding
  match ← detectDialect sys p numChars encoding with
  | none => return 1
  | some d =>
    let lines ← liftExcept (generateCode pr p d encoding usePandas)
    printText (joinLines lines ++ ['\n'])
    return 0

/-- `SimpleDialect.__repr__`, clevercsv/dialect.py:141-146 (also used for `str(dialect)`). -/
def SimpleDialect.repr (pr : Printer) (d : SimpleDialect) : Str :=
  "SimpleDialect(".toList ++ reprOpt pr d.delimiter ++ ", ".toList ++ reprOpt pr d.quotechar ++ ", ".toList ++
    reprOpt pr d.escapechar ++ ")".toList

/-- The output formats of the detect command. -/
inductive DetectFormat where
  | plain
  | json
  | default
deriving DecidableEq

/-- The lines that the detect command prints, clevercsv/console/commands/detect.py:124-138. -/
def detectLines (env : PyEnv) (pr : Printer) (d : SimpleDialect) : DetectFormat → Except PyExc (List Str)
  | .plain => .ok
    [env.strip ("delimiter = ".toList ++ fmtOpt d.delimiter), env.strip ("quotechar = ".toList ++ fmtOpt d.quotechar),
      env.strip ("escapechar = ".toList ++ fmtOpt d.escapechar)]
  | .json => do return [dumps (← d.toDict)]
  | .default => .ok ["Detected: ".toList ++ d.repr pr]

/-- `handle` of the detect command, clevercsv/console/commands/detect.py:103-139, without `--add-runtime` (see `detectCmdT`). -/
def detectCmd (sys : Sys) (pr : Printer) (p : Path) (encoding : Option Str) (numChars : Option Int)
    (consistency noSkip : Bool) (format : DetectFormat) : Act Nat := do
  let method := if consistency then "consistency".toList else "auto".toList
  match ← detectDialect sys p numChars encoding method (!noSkip) with
  | none => return 1
  | some d =>
    let lines ← liftExcept (detectLines sys.env pr d format)
    printText (lines.flatMap fun l => l ++ ['\n'])
    return 0

end Clever
