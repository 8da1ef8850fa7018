import Verif.Model.Scans
import Verif.Model.Writer
import Mathlib.Data.List.Dedup

/-!
# The wrappers (clevercsv/wrappers.py)

Generators are modelled by what they yield and the exception that ends them; what happens before the
first item (opening the file, detection) happens when they are started.  `read_dataframe` is in Model/DataFrame.
File names are paths (no file descriptors).
-/

namespace Clever

/-- `fid.read(num_chars) if num_chars else fid.read()`, clevercsv/wrappers.py:95, 277, 397.  (A negative
number makes `read` read everything.) -/
def readSome (text : Str) (numChars : Option Int) : Str :=
  match numChars with
  | none => text
  | some n => if n = 0 then text else if n < 0 then text else text.take n.toNat

/-- `Detector().detect(data, ...)`. -/
def runDetector (sys : Sys) (data : Str) (method : Str := "auto".toList) (skip : Bool := true) :
    Act (Option SimpleDialect) := fun w =>
  let r := detectStr sys.env sys.order w.limit data none method skip
  (r.result, { w with limit := r.limit })

/-- The dialect argument: the given one, or the detected one, clevercsv/wrappers.py:94-100, 276-281. -/
def chooseDialect (sys : Sys) (dialect : Option DialectArg) (text : Str) (numChars : Option Int) :
    Act DialectArg :=
  match dialect with
  | some d => pure d
  | none => do
    match ← runDetector sys (readSome text numChars) with
    | none => raise .noDetectionResult
    | some d => return .simple d

/-- `if encoding is None: encoding = get_encoding(filename)`, clevercsv/wrappers.py:91-92, 273-274. -/
def chooseEncoding (sys : Sys) (p : Path) (encoding : Option Str) : Act (Option Str) :=
  match encoding with
  | some e => pure (some e)
  | none => getEncoding sys p

/-- `stream_table`, clevercsv/wrappers.py:225-283. -/
def streamTable (sys : Sys) (p : Path) (dialect : Option DialectArg := none)
    (encoding : Option Str := none) (numChars : Option Int := none) : Act (Gen (List Str)) := do
  let encoding ← chooseEncoding sys p encoding
  let text ← openText sys p encoding
  let d ← chooseDialect sys dialect text numChars
  let r ← liftExcept (mkReader (.stream (strItems (linesUniv text))) d)
  return r.readAll (← getLimit)

/-- `list(generator)`. -/
def listOf {α : Type} (g : Act (Gen α)) : Act (List α) := do
  let g ← g
  liftExcept g.toList

/-- `read_table`, clevercsv/wrappers.py:166-222. -/
def readTable (sys : Sys) (p : Path) (dialect : Option DialectArg := none)
    (encoding : Option Str := none) (numChars : Option Int := none) : Act (List (List Str)) :=
  listOf (streamTable sys p dialect encoding numChars)

/-- `stream_dicts`, clevercsv/wrappers.py:43-104. -/
def streamDicts (sys : Sys) (p : Path) (dialect : Option DialectArg := none)
    (encoding : Option Str := none) (numChars : Option Int := none) : Act (Gen (List (Key × DVal))) := do
  let encoding ← chooseEncoding sys p encoding
  let text ← openText sys p encoding
  let d ← chooseDialect sys dialect text numChars
  let r ← liftExcept (mkDictReader (.stream (strItems (linesUniv text))) d)
  return r.readAll (← getLimit)

/-- `read_dicts`, clevercsv/wrappers.py:107-163. -/
def readDicts (sys : Sys) (p : Path) (dialect : Option DialectArg := none)
    (encoding : Option Str := none) (numChars : Option Int := none) : Act (List (List (Key × DVal))) :=
  listOf (streamDicts sys p dialect encoding numChars)

/-- Python's `x or y` for an encoding. -/
def truthy (encoding : Option Str) : Option Str :=
  match encoding with
  | some [] => none
  | e => e

/-- `detect_dialect`, clevercsv/wrappers.py:350-401. -/
def detectDialect (sys : Sys) (p : Path) (numChars : Option Int := none) (encoding : Option Str := none)
    (method : Str := "auto".toList) (skip : Bool := true) : Act (Option SimpleDialect) := do
  let enc ← match truthy encoding with
    | some e => pure (some e)
    | none => getEncoding sys p
  let text ← openText sys p enc
  runDetector sys (readSome text numChars) method skip

/-- `list(map(list, zip(*rows)))`: as many rows as the shortest row has cells. -/
def zipRows {α : Type} (rows : List (List α)) : List (List α) :=
  match rows with
  | [] => []
  | _ => (List.range ((rows.map List.length).min?.getD 0)).map fun j => rows.filterMap (·[j]?)

/-- The argument `table` or `items`: a list, or an iterator, which is true even if nothing comes of it. -/
structure Iter (α : Type) where
  items : List α
  isList : Bool

/-- `not table`. -/
def Iter.falsy {α : Type} (t : Iter α) : Bool := t.isList && t.items.isEmpty

/-- The writes of `w.writerows(rows)` on a new `writer(fp, dialect)`. -/
def WDialect.writeGen (d : WDialect) : List (List Str) → Gen Str
  | [] => ([], none)
  | r :: rs =>
    match d.writeRow r with
    | .error e => ([], some e)
    | .ok x => let y := d.writeGen rs; (x :: y.1, y.2)

/-- `write_table`, clevercsv/wrappers.py:404-458, for cells that are strings. -/
def writeTable (sys : Sys) (table : Iter (List Str)) (p : Path) (dialect : DialectArg := .name "excel")
    (transpose : Bool := false) (encoding : Option Str := none) : Act Unit :=
  if table.falsy then pure ()
  else
    let rows := if transpose then zipRows table.items else table.items
    if (rows.map List.length).dedup.length > 1 then
      raise (.valueError "Table doesn't have constant row length.")
    else do
      let c ← openTextWrite sys p encoding
      let wd ← liftExcept (mkWriter dialect)
      writeGen sys p c (wd.writeGen rows)

/-- The writes of `DictWriter.writerows`. -/
def DictWriter.writeGen (w : DictWriter) : List (List (Str × Str)) → Gen Str
  | [] => ([], none)
  | d :: ds =>
    match w.writerow d with
    | .error e => ([], some e)
    | .ok x => let y := w.writeGen ds; (x :: y.1, y.2)

/-- The writes of `write_dicts`: the header, then the dictionaries, clevercsv/wrappers.py:503-507. -/
def DictWriter.writeAll (w : DictWriter) (items : List (List (Str × Str))) : Gen Str :=
  match w.writeheader with
  | .error e => ([], some e)
  | .ok x => let y := w.writeGen items; (x :: y.1, y.2)

/-- `write_dicts`, clevercsv/wrappers.py:461-507. -/
def writeDicts (sys : Sys) (items : Iter (List (Str × Str))) (p : Path)
    (dialect : DialectArg := .name "excel") (encoding : Option Str := none) : Act Unit :=
  if items.falsy then pure ()
  else
    match items.items with
    | [] => pure ()
    | first :: _ => do
      let c ← openTextWrite sys p encoding
      let w ← liftExcept (mkDictWriter (first.map Prod.fst) (arg := dialect))
      writeGen sys p c (w.writeAll items.items)

end Clever
