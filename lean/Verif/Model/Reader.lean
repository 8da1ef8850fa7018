import Verif.Model.CsvDialect

/-!
# The reader object (clevercsv/read.py)
-/

namespace Clever

/-- `setattr(sd, key, value)` for the four keys, clevercsv/read.py:55-57. -/
def SimpleDialect.setParams (d : SimpleDialect) (f : FmtParams) : SimpleDialect where
  delimiter := f.delimiter.getD d.delimiter
  quotechar := f.quotechar.getD d.quotechar
  escapechar := f.escapechar.getD d.escapechar
  strict := f.strict.getD d.strict

/-- The first part of `_make_simple_dialect`, clevercsv/read.py:47-54. -/
def baseDialect (arg : DialectArg) : Except PyExc SimpleDialect :=
  match arg with
  | .name n => do fromCsvDialect (← getDialect n)
  | .pyInstance d => fromCsvDialect d
  | .simple d => .ok d
  | .cInstance _ => .error (.valueError "Unknown dialect type")
  | .pyClass _ => .error (.valueError "Unknown dialect type")
  | .other => .error (.valueError "Unknown dialect type")

/-- `reader._make_simple_dialect`, clevercsv/read.py:44-59. -/
def makeSimpleDialect (arg : DialectArg) (f : FmtParams) : Except PyExc SimpleDialect := do
  let sd := (← baseDialect arg).setParams f
  sd.validate
  return sd

/-- The `csvfile` of a reader: an iterator such as an open file, which is shared by everyone who
iterates it, or a sequence such as a list, for which every `iter()` starts anew. -/
inductive Source where
  | stream (items : List Item)
  | seq (items : List Item)
deriving DecidableEq, Repr

/-- A `Parser` object between calls of `next`: its configuration, and the items left in its own
iterator if the source is a sequence.  (The rest of the parser object is reset at every call,
src/cparser.c:461-462.) -/
structure ParserGen where
  cfg : Cfg
  own : List Item
deriving DecidableEq, Repr

/-- `reader`, clevercsv/read.py:27-38. -/
structure Reader where
  source : Source
  dialect : SimpleDialect
  lineNum : Nat
  gen : Option ParserGen
deriving DecidableEq, Repr

/-- `reader.__init__`, clevercsv/read.py:28-38. -/
def mkReader (source : Source) (arg : DialectArg) (f : FmtParams := {}) : Except PyExc Reader := do
  return ⟨source, ← makeSimpleDialect arg f, 0, none⟩

/-- `reader.__iter__`, clevercsv/read.py:61-70; `limit` is the value of `field_size_limit()`. -/
def Reader.iter (r : Reader) (limit : Int) : Except PyExc Reader := do
  let cfg ← r.dialect.cfg limit
  let own := match r.source with
    | .stream _ => []
    | .seq items => items
  return { r with gen := some ⟨cfg, own⟩ }

/-- The `next(self.parser_gen)` part of `reader.__next__`, clevercsv/read.py:76-81. -/
def Reader.nextGen (r : Reader) (g : ParserGen) : Reader × Except PyExc (List Str) :=
  let items := match r.source with
    | .stream items => items
    | .seq _ => g.own
  let out := nextRow g.cfg mkPlain items
  let r' : Reader := match r.source with
    | .stream _ => { r with source := .stream out.2 }
    | .seq _ => { r with gen := some { g with own := out.2 } }
  match out.1 with
  | .row row => ({ r' with lineNum := r'.lineNum + 1 }, .ok row)
  | .stop => (r', .error .stopIteration)
  | .error e => (r', .error (.parse e))

/-- `reader.__next__`, clevercsv/read.py:72-81. -/
def Reader.next (r : Reader) (limit : Int) : Reader × Except PyExc (List Str) :=
  match r.gen with
  | some g => r.nextGen g
  | none =>
    match r.iter limit with
    | .error e => (r, .error e)
    | .ok r' =>
      match r'.gen with
      | some g => r'.nextGen g
      | none => (r', .error .assertionError)

/-- Auxiliary for `Reader.readAll` with fuel. -/
def Reader.readAux (limit : Int) : Nat → Reader → Gen (List Str)
  | 0, _ => ([], none)
  | n + 1, r =>
    match r.next limit with
    | (r', .ok row) => let p := Reader.readAux limit n r'; (row :: p.1, p.2)
    | (_, .error .stopIteration) => ([], none)
    | (_, .error e) => ([], some e)

/-- The number of items that the reader can still consume. -/
def Source.items : Source → List Item
  | .stream items => items
  | .seq items => items

/-- `for row in reader: ...`: the rows, and the exception that ends the loop, if any. -/
def Reader.readAll (r : Reader) (limit : Int) : Gen (List Str) :=
  match r.iter limit with
  | .error e => ([], some e)
  | .ok r' => Reader.readAux limit (r.source.items.length + 1) r'

/-- `list(reader(io.StringIO(text, newline=""), dialect, **fmtparams))` (or with a file opened with
`newline=""`). -/
def readText (limit : Int) (arg : DialectArg) (f : FmtParams) (text : Str) :
    Except PyExc (List (List Str)) := do
  let r ← mkReader (.stream (strItems (linesUniv text))) arg f
  (r.readAll limit).toList


end Clever
