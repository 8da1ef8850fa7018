import Verif.Model.Lines

/-!
# `SimpleDialect` (clevercsv/dialect.py) and the parsing functions (clevercsv/cparser_util.py)
-/

namespace Clever

/-- `SimpleDialect`, clevercsv/dialect.py:28-63.  `none` is Python's `None`.  (`strict` is a `bool`
here; the check `self.strict not in {False, True}` of `validate` is vacuous.) -/
structure SimpleDialect where
  delimiter : Option Str
  quotechar : Option Str
  escapechar : Option Str
  strict : Bool := false
deriving DecidableEq, Repr

/-- One clause of `validate`: `x is None or len(x) > 1` does not hold. -/
def validPart (x : Option Str) : Bool :=
  match x with
  | none => false
  | some s => s.length ≤ 1

/-- `SimpleDialect.validate`, clevercsv/dialect.py:65-84. -/
def SimpleDialect.validate (d : SimpleDialect) : Except PyExc Unit :=
  if !validPart d.delimiter then
    .error (.valueError "Delimiter should be zero or one characters")
  else if !validPart d.quotechar then
    .error (.valueError "Quotechar should be zero or one characters")
  else if !validPart d.escapechar then
    .error (.valueError "Escapechar should be zero or one characters")
  else .ok ()

/-- `_set_char`, src/cparser.c:126-153 (also src/abstraction.c:18-45), for an argument that is
passed (not `NULL`). -/
def setChar (name : String) (x : Option Str) : Except PyExc Char :=
  match x with
  | none => .ok NUL
  | some [] => .ok NUL
  | some [c] => .ok c
  | some _ => .error (.typeError s!"\"{name}\" must be a 1-character string")

/-- `_set_long`, src/cparser.c:106-124, for a Python `int`: values that do not fit a C `long`
(64 bit) raise `OverflowError`. -/
def setLong (x : Int) : Except PyExc Int :=
  if -9223372036854775808 ≤ x ∧ x ≤ 9223372036854775807 then .ok x else .error .overflowError

/-- Construction of a `Parser`, src/cparser.c:611-698, with all keyword arguments passed. -/
def mkCfg (delimiter quotechar escapechar : Option Str) (limit : Int) (strict : Bool) :
    Except PyExc Cfg := do
  let d ← setChar "delimiter" delimiter
  let q ← setChar "quotechar" quotechar
  let e ← setChar "escapechar" escapechar
  let l ← setLong limit
  return { delimiter := d, quotechar := q, escapechar := e, fieldLimit := l, strict := strict }

/-- The configuration used by `parse_data` for a dialect (clevercsv/cparser_util.py:127-139). -/
def SimpleDialect.cfg (d : SimpleDialect) (limit : Int) : Except PyExc Cfg :=
  mkCfg d.delimiter d.quotechar d.escapechar limit d.strict

/-- What a generator yields: the items, and the exception that ends it, if any. -/
abbrev Gen (β : Type) := List β × Option PyExc

/-- `list(gen)`. -/
def Gen.toList {β : Type} (g : Gen β) : Except PyExc (List β) :=
  match g.2 with
  | none => .ok g.1
  | some e => .error e

/-- `parse_data(data, dialect)`, clevercsv/cparser_util.py:49-139; `limit` is the value of
`field_size_limit()` when the iteration starts, `items` is what iterating `data` delivers.
(The overrides `delimiter=...` etc. of `parse_data` amount to changing the dialect.) -/
def parseData {α : Type} (limit : Int) (d : SimpleDialect) (mk : Str → Bool → α)
    (items : List Item) : Gen (List α) :=
  match d.cfg limit with
  | .error e => ([], some e)
  | .ok cfg => let r := parseRows cfg mk items; (r.1, r.2.map PyExc.parse)

/-- `parse_string(data, dialect)`, clevercsv/cparser_util.py:142-152. -/
def parseString (limit : Int) (d : SimpleDialect) (data : Str) : Gen (List Str) :=
  parseData limit d mkPlain (strItems (linesUniv data))

/-- `parse_string(data, dialect, return_quoted=True)`. -/
def parseStringQuoted (limit : Int) (d : SimpleDialect) (data : Str) : Gen (List (Str × Bool)) :=
  parseData limit d mkQuoted (strItems (linesUniv data))

/-- The dialect `SimpleDialect(delimiter, quotechar, escapechar)` for characters, where `none`
stands for the empty string. -/
def dialectOf (d q e : Option Char) (strict : Bool := false) : SimpleDialect :=
  ⟨some d.toList, some q.toList, some e.toList, strict⟩

end Clever
