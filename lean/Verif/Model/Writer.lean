import Verif.Model.CsvDialect

/-!
# The writer (clevercsv/write.py) on top of CPython's `_csv.writer`

`_csv.writer` is library code.  It is modelled after CPython 3.11/3.12 (Modules/_csv.c,
`join_append_data`, `csv_writerow`, `dialect_new`), for rows of strings.
-/

namespace Clever

/-- A validated `_csv.Dialect` as the writer uses it. -/
structure WDialect where
  delimiter : Char
  quotechar : Option Char
  escapechar : Option Char
  doublequote : Bool
  lineterminator : Str
  quoting : Quoting
deriving DecidableEq, Repr

/-- A character attribute of `_csv.Dialect` that may be `None`. -/
def optChar (name : String) (x : Option Str) : Except PyExc (Option Char) :=
  match x with
  | none => .ok none
  | some [c] => .ok (some c)
  | some _ => .error (.typeError s!"\"{name}\" must be a 1-character string")

/-- Construction of a `_csv.Dialect` from the attributes (CPython `dialect_new`). -/
def mkWDialect (d : CsvDialect) : Except PyExc WDialect := do
  let del ← optChar "delimiter" d.delimiter
  let esc ← optChar "escapechar" d.escapechar
  let quo ← optChar "quotechar" d.quotechar
  match del with
  | none => .error (.typeError "\"delimiter\" must be a 1-character string")
  | some del =>
    if d.quoting ≠ .none ∧ quo = none then
      .error (.typeError "quotechar must be set if quoting enabled")
    else
      match d.lineterminator with
      | none => .error (.typeError "lineterminator must be set")
      | some lt => .ok ⟨del, quo, esc, d.doublequote, lt, d.quoting⟩

/-- Does the character need quoting or escaping? -/
def WDialect.special (d : WDialect) (c : Char) : Bool :=
  c = d.delimiter || d.escapechar = some c || d.quotechar = some c || c = '\n' || c = '\r' ||
    d.lineterminator.contains c

/-- The escape character followed by `c`, or the error for a missing escape character. -/
def WDialect.escaped (d : WDialect) (c : Char) : Except PyExc Str :=
  match d.escapechar with
  | none => .error (.writer "need to escape, but no escapechar set")
  | some e => .ok [e, c]

/-- What `join_append_data` emits for a character, and whether it asks for quotes. -/
def WDialect.writeChar (d : WDialect) (c : Char) : Except PyExc (Str × Bool) :=
  if !d.special c then .ok ([c], false)
  else if d.quoting = .none then (d.escaped c).map (·, false)
  else if d.quotechar = some c then
    if d.doublequote then .ok ([c, c], true) else (d.escaped c).map (·, false)
  else if d.escapechar = some c then (d.escaped c).map (·, false)
  else .ok ([c], true)

/-- The characters of a field. -/
def WDialect.writeChars (d : WDialect) : Str → Except PyExc (Str × Bool)
  | [] => .ok ([], false)
  | c :: cs => do
    let x ← d.writeChar c
    let y ← d.writeChars cs
    return (x.1 ++ y.1, x.2 || y.2)

/-- `join_append`: one field. -/
def WDialect.writeField (d : WDialect) (s : Str) : Except PyExc Str := do
  let x ← d.writeChars s
  let quoted := x.2 || d.quoting = .all || d.quoting = .nonnumeric
  return if quoted then d.quotechar.toList ++ x.1 ++ d.quotechar.toList else x.1

/-- The fields of a row, separated by the delimiter. -/
def WDialect.writeFields (d : WDialect) : List Str → Except PyExc Str
  | [] => .ok []
  | [s] => d.writeField s
  | s :: t :: r => do
    let x ← d.writeField s
    let y ← d.writeFields (t :: r)
    return x ++ d.delimiter :: y

/-- The record that `csv_writerow` passes to `write`.  A record with fields but without any
character is written as an empty quoted field. -/
def WDialect.writeRow (d : WDialect) (row : List Str) : Except PyExc Str := do
  let x ← d.writeFields row
  if x = [] ∧ row ≠ [] then
    if d.quoting = .none then .error (.writer "single empty field record must be quoted")
    else return d.quotechar.toList ++ d.quotechar.toList ++ d.lineterminator
  else return x ++ d.lineterminator

/-- `_csv.writer.writerows`: the text written, and the exception that ended the writing. -/
def WDialect.writeRows (d : WDialect) : List (List Str) → Str × Option PyExc
  | [] => ([], none)
  | r :: rs =>
    match d.writeRow r with
    | .error e => ([], some e)
    | .ok x => let y := d.writeRows rs; (x ++ y.1, y.2)

/-- Override the attributes by format parameters, clevercsv/write.py:69-76. -/
def CsvDialect.override (d : CsvDialect) (f : FmtParams) : CsvDialect where
  delimiter := f.delimiter.getD d.delimiter
  quotechar := f.quotechar.getD d.quotechar
  escapechar := f.escapechar.getD d.escapechar
  doublequote := f.doublequote.getD d.doublequote
  skipinitialspace := f.skipinitialspace.getD d.skipinitialspace
  -- lineterminator must be set
  lineterminator := some ((f.lineterminator.getD d.lineterminator).getD ['\n'])
  quoting := f.quoting.getD d.quoting
  strict := (f.strict.map some).getD d.strict

/-- `writer._make_python_dialect`, clevercsv/write.py:54-80. -/
def makePythonDialect (arg : DialectArg) (f : FmtParams) : Except PyExc CsvDialect := do
  let d ← match arg with
    | .name n => getDialect n
    | .cInstance d => .ok d
    | .simple d => d.toCsvDialect
    | .pyClass d => .ok d
    | .pyInstance _ => .error (.valueError "Unknown dialect type")
    | .other => .error (.valueError "Unknown dialect type")
  return d.override f

/-- `writer.__init__`, clevercsv/write.py:42-52. -/
def mkWriter (arg : DialectArg) (f : FmtParams := {}) : Except PyExc WDialect := do
  mkWDialect (← makePythonDialect arg f)

end Clever
