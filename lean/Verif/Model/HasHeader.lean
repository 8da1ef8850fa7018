import Verif.Model.Detect
import Verif.Model.Reader

/-!
# Header detection (`Detector.has_header`, clevercsv/detect.py:129-210)

`int(s)`, `float(s)` and `complex(s)` of a string are library functions: they are parameters here.
For a string they return or raise `ValueError`, and `has_header` uses only which of the two happens.
-/

namespace Clever

/-- Does `int(s)`, `float(s)`, `complex(s)` succeed? -/
structure Casts where
  int : Str → Bool
  float : Str → Bool
  complex : Str → Bool

/-- The values of `thisType`: one of the three classes, or the length of a string. -/
inductive ColType where
  | int
  | float
  | complex
  | len (n : Nat)
deriving DecidableEq, Repr

/-- The type of a cell, clevercsv/detect.py:171-179. -/
def cellType (casts : Casts) (cell : Str) : ColType :=
  if casts.int cell then .int
  else if casts.float cell then .float
  else if casts.complex cell then .complex
  else .len cell.length

/-- The dictionary `columnTypes`, in insertion order. -/
abbrev ColumnTypes := List (Nat × Option ColType)

/-- `columnTypes` before the loop, clevercsv/detect.py:154-157. -/
def initTypes (columns : Nat) : ColumnTypes := (List.range columns).map (·, none)

/-- The loop over the columns for one row, clevercsv/detect.py:170-187. -/
def updateTypes (casts : Casts) (row : List Str) : ColumnTypes → Except PyExc ColumnTypes
  | [] => .ok []
  | (col, ct) :: rest =>
    match row[col]? with
    | none => .error .indexError
    | some cell => do
      let rest' ← updateTypes casts row rest
      let thisType := cellType casts cell
      if some thisType ≠ ct then
        if ct = none then return (col, some thisType) :: rest'
        else return rest'
      else return (col, ct) :: rest'

/-- The loop over the rows, clevercsv/detect.py:160-187.  The fuel bounds the number of rows that can be
read. -/
def headerLoop (casts : Casts) (limit : Int) (maxRows : Int) (columns : Nat) :
    Nat → Reader → Int → ColumnTypes → Except PyExc ColumnTypes
  | 0, _, _, types => .ok types
  | fuel + 1, rdr, checked, types =>
    match rdr.next limit with
    | (_, .error .stopIteration) => .ok types
    | (_, .error e) => .error e
    | (rdr, .ok row) =>
      if checked > maxRows then .ok types
      else if row.length ≠ columns then headerLoop casts limit maxRows columns fuel rdr (checked + 1) types
      else do
        let types ← updateTypes casts row types
        headerLoop casts limit maxRows columns fuel rdr (checked + 1) types

/-- `colType(header[col])` succeeds, clevercsv/detect.py:203-208. -/
def ColType.castable (casts : Casts) (cell : Str) : ColType → Bool
  | .int => casts.int cell
  | .float => casts.float cell
  | .complex => casts.complex cell
  | .len _ => false

/-- The votes, clevercsv/detect.py:191-208. -/
def vote (casts : Casts) (header : List Str) : ColumnTypes → Int → Except PyExc Int
  | [], hasHeader => .ok hasHeader
  | (_, none) :: rest, hasHeader => vote casts header rest (hasHeader + 1)
  | (col, some (.len n)) :: rest, hasHeader =>
    match header[col]? with
    | none => .error .indexError
    | some cell => vote casts header rest (if cell.length ≠ n then hasHeader + 1 else hasHeader - 1)
  | (col, some t) :: rest, hasHeader =>
    match header[col]? with
    | none => .error .indexError
    | some cell =>
      vote casts header rest (if t.castable casts cell then hasHeader - 1 else hasHeader + 1)

/-- `has_header` after the dialect has been detected, clevercsv/detect.py:150-210. -/
def hasHeaderWith (casts : Casts) (limit : Int) (dialect : SimpleDialect) (sample : Str) (maxRows : Int) :
    Except PyExc Bool := do
  let rdr ← mkReader (.stream (strItems (linesLF sample))) (.simple dialect)
  match rdr.next limit with
  | (_, .error e) => .error e
  | (rdr, .ok header) =>
    -- `for row in rdr` calls `__iter__`
    let rdr ← rdr.iter limit
    let types ← headerLoop casts limit maxRows header.length (rdr.source.items.length + 1) rdr 0
      (initTypes header.length)
    let v ← vote casts header types 0
    return decide (v > 0)

/-- `Detector.has_header`, clevercsv/detect.py:129-210. -/
def hasHeader (casts : Casts) (env : PyEnv) (ord : SetOrder) (limit : Int) (sample : Str)
    (maxRows : Int := 20) : Except PyExc Bool :=
  let r := sniff env ord limit sample
  match r.result with
  | .error e => .error e
  | .ok none => .error .noDetectionResult
  | .ok (some dialect) => hasHeaderWith casts r.limit dialect sample maxRows

end Clever
