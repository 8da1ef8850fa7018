import Verif.Model.DictIO
import Mathlib.Data.List.Dedup

/-!
# `DictReader` with its warnings (clevercsv/dict_read_write.py:66-114)

Model/DictIO leaves out the warning about field names that are not unique.  Here every call of `warnings.warn` is counted, and
with `asError` it raises, as after `warnings.simplefilter("error")`.  Which of the calls the `warnings` module prints (by default
the first one of a line of code) is not modelled.
-/

namespace Clever

/-- An exception: one of the model, or the `UserWarning` of `warnings.warn` as an exception. -/
inductive Raised where
  | exc (e : PyExc)
  | userWarning
deriving DecidableEq, Repr

/-- What a method of a `DictReader` does: a result or an exception, the object afterwards, and the number of calls of
`warnings.warn`. -/
def WAct (α : Type) : Type := DictReader → Except Raised α × DictReader × Nat

instance : Monad WAct where
  pure a := fun r => (.ok a, r, 0)
  bind m f := fun r =>
    match m r with
    | (.error e, r', n) => (.error e, r', n)
    | (.ok a, r', n) => let x := f a r'; (x.1, x.2.1, n + x.2.2)

/-- `warnings.warn("fieldnames are not unique, some columns will be dropped.")`. -/
def warn (asError : Bool) : WAct Unit := fun r => (if asError then .error .userWarning else .ok (), r, 1)

/-- `self`. -/
def selfW : WAct DictReader := fun r => (.ok r, r, 0)

/-- `self.line_num = self.reader.line_num`. -/
def setLineNum : WAct Unit := fun r => (.ok (), { r with lineNum := r.reader.lineNum }, 0)

/-- The first lines of the property `fieldnames`: the header is read, clevercsv/dict_read_write.py:68-73. -/
def readHeader (limit : Int) : WAct Unit := fun r =>
  match r.fieldnames with
  | some _ => (.ok (), r, 0)
  | none =>
    match r.reader.next limit with
    | (rd, .ok row) => (.ok (), { r with reader := rd, fieldnames := some (row.map some) }, 0)
    | (rd, .error .stopIteration) => (.ok (), { r with reader := rd }, 0)
    | (rd, .error e) => (.error (.exc e), { r with reader := rd }, 0)

/-- The property `fieldnames`, clevercsv/dict_read_write.py:66-91. -/
def fieldnamesW (asError : Bool) (limit : Int) : WAct (Option (List Key)) := do
  readHeader limit
  let r ← selfW
  match r.fieldnames with
  | none => return none
  | some names =>
    if names.length ≠ names.dedup.length then warn asError
    setLineNum
    return some names

/-- The `TypeError` of `None` where a sequence is needed. -/
def noneError : WAct (List Key) := fun r => (.error (.exc (.typeError "'NoneType' object is not iterable")), r, 0)

/-- `self.fieldnames` where a sequence is needed: `None` is a `TypeError`. -/
def needNames (asError : Bool) (limit : Int) : WAct (List Key) := do
  match ← fieldnamesW asError limit with
  | none => noneError
  | some names => return names

/-- `row = next(self.reader); self.line_num = self.reader.line_num`, clevercsv/dict_read_write.py:100-101. -/
def nextRowW (limit : Int) : WAct (List Str) := fun r =>
  match r.reader.next limit with
  | (rd, .error e) => (.error (.exc e), { r with reader := rd }, 0)
  | (rd, .ok row) => (.ok row, { r with reader := rd, lineNum := rd.lineNum }, 0)

/-- `while row == []: row = next(self.reader)`, clevercsv/dict_read_write.py:103-104. -/
def skipBlankW (limit : Int) (row : List Str) : WAct (List Str) := fun r =>
  match skipBlank limit (r.reader.left + 1) r.reader row with
  | (rd, .error e) => (.error (.exc e), { r with reader := rd }, 0)
  | (rd, .ok row) => (.ok row, { r with reader := rd }, 0)

/-- The dictionary of a row, clevercsv/dict_read_write.py:106-114; `self.fieldnames` is evaluated two or three times. -/
def rowDictW (asError : Bool) (limit : Int) (row : List Str) : WAct (List (Key × DVal)) := do
  let names ← needNames asError limit
  let d := dictOf (names.zip (row.map .cell))
  let names ← needNames asError limit
  let r ← selfW
  if names.length < row.length then
    return dictPut r.restkey (.rest (row.drop names.length)) d
  else if names.length > row.length then
    let names ← needNames asError limit
    return (names.drop row.length).foldl (fun d k => dictPut k .restval d) d
  else return d

/-- `if self.line_num == 0: self.fieldnames`, clevercsv/dict_read_write.py:98-99. -/
def firstNamesW (asError : Bool) (limit : Int) : WAct Unit := do
  let r ← selfW
  if r.lineNum = 0 then
    let _ ← fieldnamesW asError limit
    return ()
  else return ()

/-- `DictReader.__next__`, clevercsv/dict_read_write.py:97-114. -/
def nextW (asError : Bool) (limit : Int) : WAct (List (Key × DVal)) := do
  firstNamesW asError limit
  let row ← nextRowW limit
  let row ← skipBlankW limit row
  rowDictW asError limit row

/-- Calls of `next` until an exception, at most `n`: the dictionaries, the exception, and the number of warnings. -/
def callsW (asError : Bool) (limit : Int) : Nat → DictReader → List (List (Key × DVal)) × Option Raised × Nat
  | 0, _ => ([], none, 0)
  | n + 1, r =>
    match nextW asError limit r with
    | (.error e, _, k) => ([], some e, k)
    | (.ok d, r', k) => let x := callsW asError limit n r'; (d :: x.1, x.2.1, k + x.2.2)

end Clever
