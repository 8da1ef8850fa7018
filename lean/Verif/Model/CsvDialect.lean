import Verif.Model.Dialect

/-!
# `csv.Dialect` objects and the conversions of clevercsv/dialect.py
-/

namespace Clever

/-- `csv.QUOTE_MINIMAL`, `QUOTE_ALL`, `QUOTE_NONNUMERIC`, `QUOTE_NONE`. -/
inductive Quoting where
  | minimal | all | nonnumeric | none
deriving DecidableEq, Repr

/-- The attributes of a `csv.Dialect` (class or instance) or `_csv.Dialect`.  `none` is Python's
`None`; for `strict` it means that there is no such attribute (`csv.Dialect` does not define it,
`_csv.Dialect` does). -/
structure CsvDialect where
  delimiter : Option Str
  quotechar : Option Str
  escapechar : Option Str
  doublequote : Bool := true
  skipinitialspace : Bool := false
  lineterminator : Option Str
  quoting : Quoting
  strict : Option Bool
deriving DecidableEq, Repr

/-- `csv.get_dialect("excel")` (CPython Lib/csv.py). -/
def csvExcel : CsvDialect where
  delimiter := some [',']
  quotechar := some ['"']
  escapechar := none
  lineterminator := some ['\r', '\n']
  quoting := .minimal
  strict := some false

/-- `csv.get_dialect("excel-tab")`. -/
def csvExcelTab : CsvDialect := { csvExcel with delimiter := some ['\t'] }

/-- `csv.get_dialect("unix")`. -/
def csvUnix : CsvDialect := { csvExcel with lineterminator := some ['\n'], quoting := .all }

/-- `csv.get_dialect(name)` with the dialects registered by CPython. -/
def getDialect (name : String) : Except PyExc CsvDialect :=
  if name = "excel" then .ok csvExcel
  else if name = "excel-tab" then .ok csvExcelTab
  else if name = "unix" then .ok csvUnix
  else .error (.csvError "unknown dialect")

/-- `SimpleDialect.from_csv_dialect`, clevercsv/dialect.py:95-103. -/
def fromCsvDialect (d : CsvDialect) : Except PyExc SimpleDialect :=
  let delimiter := match d.delimiter with
    | none => some []
    | some x => some x
  let quotechar := if d.quoting = .none then some [] else d.quotechar
  let escapechar := match d.escapechar with
    | none => some []
    | some x => some x
  match d.strict with
  | none => .error (.attributeError "strict")
  | some s => .ok ⟨delimiter, quotechar, escapechar, s⟩

/-- `SimpleDialect.to_csv_dialect`, clevercsv/dialect.py:105-120. -/
def SimpleDialect.toCsvDialect (d : SimpleDialect) : Except PyExc CsvDialect :=
  if d.delimiter = none then .error .assertionError
  else .ok {
    delimiter := d.delimiter
    quotechar := if d.quotechar = some [] then some ['"'] else d.quotechar
    escapechar := if d.escapechar = some [] then none else d.escapechar
    doublequote := true
    quoting := if d.quotechar = some [] then .none else .minimal
    skipinitialspace := false
    lineterminator := some ['\n']
    strict := none }

/-- The dialect arguments that `reader` and `writer` distinguish (clevercsv/read.py:47-54,
clevercsv/write.py:58-67): a name, an instance of `_csv.Dialect` (such as `csv.get_dialect`
returns), an instance of a subclass of `csv.Dialect`, one of the classes `csv.excel`,
`csv.excel_tab`, `csv.unix_dialect`, a `SimpleDialect`, or anything else. -/
inductive DialectArg where
  | name (n : String)
  | cInstance (d : CsvDialect)
  | pyInstance (d : CsvDialect)
  | pyClass (d : CsvDialect)
  | simple (d : SimpleDialect)
  | other
deriving DecidableEq, Repr

/-- Keyword arguments `**fmtparams`; the outer `none` means that the key is not given. -/
structure FmtParams where
  delimiter : Option (Option Str) := none
  quotechar : Option (Option Str) := none
  escapechar : Option (Option Str) := none
  doublequote : Option Bool := none
  skipinitialspace : Option Bool := none
  lineterminator : Option (Option Str) := none
  quoting : Option Quoting := none
  strict : Option Bool := none
deriving DecidableEq, Repr

end Clever
