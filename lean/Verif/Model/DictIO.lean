import Verif.Model.Reader
import Verif.Model.Writer

/-!
# `DictReader` and `DictWriter` (clevercsv/dict_read_write.py)

Dictionaries are association lists in insertion order.  Keys are strings or `None` (the default of
`restkey`).  Warnings are not modelled.
-/

namespace Clever

/-- `d[k] = v` for a dictionary: an existing key keeps its place. -/
def dictPut {K V : Type} [DecidableEq K] (k : K) (v : V) : List (K × V) → List (K × V)
  | [] => [(k, v)]
  | (k', v') :: d => if k' = k then (k, v) :: d else (k', v') :: dictPut k v d

/-- `d.get(k)`. -/
def dictGet {K V : Type} [DecidableEq K] (k : K) : List (K × V) → Option V
  | [] => none
  | (k', v) :: d => if k' = k then some v else dictGet k d

/-- `dict(pairs)`. -/
def dictOf {K V : Type} [DecidableEq K] (pairs : List (K × V)) : List (K × V) :=
  pairs.foldl (fun d p => dictPut p.1 p.2 d) []

/-- A key of a row dictionary: a string, or `None`. -/
abbrev Key := Option Str

/-- A value in a row dictionary: a cell, the list of surplus cells, or `restval`. -/
inductive DVal where
  | cell (s : Str)
  | rest (l : List Str)
  | restval
deriving DecidableEq, Repr

/-- `DictReader`, clevercsv/dict_read_write.py:47-62.  (`restval` is only passed on, and is represented
by `DVal.restval`.) -/
structure DictReader where
  reader : Reader
  fieldnames : Option (List Key)
  restkey : Key
  lineNum : Nat
deriving DecidableEq, Repr

/-- `DictReader.__init__`, clevercsv/dict_read_write.py:47-62. -/
def mkDictReader (source : Source) (arg : DialectArg) (fieldnames : Option (List Key) := none)
    (restkey : Key := none) (f : FmtParams := {}) : Except PyExc DictReader := do
  return ⟨← mkReader source arg f, fieldnames, restkey, 0⟩

/-- The property `fieldnames`, clevercsv/dict_read_write.py:67-91. -/
def DictReader.getFieldnames (r : DictReader) (limit : Int) : DictReader × Except PyExc (Option (List Key)) :=
  match r.fieldnames with
  | some f => ({ r with lineNum := r.reader.lineNum }, .ok (some f))
  | none =>
    match r.reader.next limit with
    | (rd, .ok row) =>
      ({ r with reader := rd, fieldnames := some (row.map some), lineNum := rd.lineNum },
        .ok (some (row.map some)))
    | (rd, .error .stopIteration) => ({ r with reader := rd }, .ok none)
    | (rd, .error e) => ({ r with reader := rd }, .error e)

/-- The dictionary of a row, clevercsv/dict_read_write.py:106-114. -/
def rowDict (fieldnames : List Key) (restkey : Key) (row : List Str) : List (Key × DVal) :=
  let d := dictOf (fieldnames.zip (row.map .cell))
  if fieldnames.length < row.length then dictPut restkey (.rest (row.drop fieldnames.length)) d
  else if fieldnames.length > row.length then
    (fieldnames.drop row.length).foldl (fun d k => dictPut k .restval d) d
  else d

/-- `while row == []: row = next(self.reader)`, clevercsv/dict_read_write.py:103-104, with fuel for the
number of rows that can be read. -/
def skipBlank (limit : Int) : Nat → Reader → List Str → Reader × Except PyExc (List Str)
  | 0, rd, row => (rd, .ok row)
  | n + 1, rd, row =>
    if row = [] then
      match rd.next limit with
      | (rd, .ok row) => skipBlank limit n rd row
      | (rd, .error e) => (rd, .error e)
    else (rd, .ok row)

/-- The items that are left for a reader. -/
def Reader.left (r : Reader) : Nat :=
  match r.source, r.gen with
  | .stream items, _ => items.length
  | .seq items, none => items.length
  | .seq _, some g => g.own.length

/-- `DictReader.__next__`, clevercsv/dict_read_write.py:97-114. -/
def DictReader.next (r : DictReader) (limit : Int) : DictReader × Except PyExc (List (Key × DVal)) :=
  let (r, first) : DictReader × Except PyExc Unit :=
    if r.lineNum = 0 then
      match r.getFieldnames limit with
      | (r, .ok _) => (r, .ok ())
      | (r, .error e) => (r, .error e)
    else (r, .ok ())
  match first with
  | .error e => (r, .error e)
  | .ok _ =>
    match r.reader.next limit with
    | (rd, .error e) => ({ r with reader := rd }, .error e)
    | (rd, .ok row) =>
      let r := { r with reader := rd, lineNum := rd.lineNum }
      match skipBlank limit (rd.left + 1) rd row with
      | (rd, .error e) => ({ r with reader := rd }, .error e)
      | (rd, .ok row) =>
        let r := { r with reader := rd }
        match r.getFieldnames limit with
        | (r, .error e) => (r, .error e)
        | (r, .ok none) => (r, .error (.typeError "'NoneType' object is not iterable"))
        | (r, .ok (some f)) => (r, .ok (rowDict f r.restkey row))

/-- Auxiliary for `DictReader.readAll`, with fuel. -/
def DictReader.readAux (limit : Int) : Nat → DictReader → Gen (List (Key × DVal))
  | 0, _ => ([], none)
  | n + 1, r =>
    match r.next limit with
    | (r', .ok d) => let p := DictReader.readAux limit n r'; (d :: p.1, p.2)
    | (_, .error .stopIteration) => ([], none)
    | (_, .error e) => ([], some e)

/-- `for d in dictreader: ...`. -/
def DictReader.readAll (r : DictReader) (limit : Int) : Gen (List (Key × DVal)) :=
  r.readAux limit (r.reader.left + 1)

/-! ## `DictWriter` -/

/-- `s.lower()` in so far as `extrasaction.lower()` matters: no character outside ASCII is turned into a
letter of `raise` or `ignore` alone. -/
def lowerAscii (s : Str) : Str := s.map Char.toLower

/-- `DictWriter`, clevercsv/dict_read_write.py:117-135, for string keys and values. -/
structure DictWriter where
  fieldnames : List Str
  restval : Str
  extrasaction : Str
  writer : WDialect
deriving DecidableEq, Repr

/-- `DictWriter.__init__`, clevercsv/dict_read_write.py:118-135. -/
def mkDictWriter (fieldnames : List Str) (restval : Str := []) (extrasaction : Str := "raise".toList)
    (arg : DialectArg := .name "excel") (f : FmtParams := {}) : Except PyExc DictWriter :=
  if lowerAscii extrasaction ≠ "raise".toList ∧ lowerAscii extrasaction ≠ "ignore".toList then
    .error (.valueError "extrasaction must be 'raise' or 'ignore'")
  else do
    return ⟨fieldnames, restval, extrasaction, ← mkWriter arg f⟩

/-- `DictWriter._dict_to_list`, clevercsv/dict_read_write.py:141-149. -/
def DictWriter.dictToList (w : DictWriter) (rowdict : List (Str × Str)) : Except PyExc (List Str) :=
  if w.extrasaction = "raise".toList ∧ ¬ ∀ k ∈ rowdict.map Prod.fst, k ∈ w.fieldnames then
    .error (.valueError "dict contains fields not in fieldnames")
  else .ok (w.fieldnames.map fun k => (dictGet k rowdict).getD w.restval)

/-- `DictWriter.writerow`, clevercsv/dict_read_write.py:151-152: the text passed to the file, or an
exception.  (`_csv.writer.writerow` passes a record to the file in one piece.) -/
def DictWriter.writerow (w : DictWriter) (rowdict : List (Str × Str)) : Except PyExc Str := do
  w.writer.writeRow (← w.dictToList rowdict)

/-- `DictWriter.writeheader`, clevercsv/dict_read_write.py:137-139. -/
def DictWriter.writeheader (w : DictWriter) : Except PyExc Str :=
  w.writerow (dictOf (w.fieldnames.zip w.fieldnames))

/-- `DictWriter.writerows`, clevercsv/dict_read_write.py:154-155: the rows are converted one by one, so
what precedes an exception has been written. -/
def DictWriter.writerows (w : DictWriter) : List (List (Str × Str)) → Str × Option PyExc
  | [] => ([], none)
  | d :: ds =>
    match w.writerow d with
    | .error e => ([], some e)
    | .ok x => let y := w.writerows ds; (x ++ y.1, y.2)

end Clever
