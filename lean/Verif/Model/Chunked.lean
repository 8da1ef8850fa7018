import Verif.Model.Streams
import Verif.Model.Standardize

/-!
# The wrappers and the standardize command with files that are read in chunks and written through a buffer

Model/Wrappers and Model/Standardize decode a file when it is opened and write without a buffer.  Here the same functions of
clevercsv read through Model/Streams, and what they write waits in a buffer until it is flushed.  How the reads of a file divide
it, whether one of them fails, and how much is flushed when, are parameters (`Io`).  The reads are numbered when the file is
opened; their errors come when their chunks are needed.
-/

namespace Clever

/-- Reading and writing in parts. -/
structure Io where
  /-- the chunks in which the file with these bytes is read, if it is opened by the operation with this number, and whether
  the read after them fails -/
  reads : Nat → Bytes → List Bytes × Bool
  /-- the decoders; `none` is `LookupError` -/
  decoder : Option Str → Option Decoder
  /-- the number of bytes of the buffer that are written when this operation is the next one -/
  flush : Nat → Nat

/-- `open(p, "r", newline="", encoding=encoding)`; also `fid.seek(0)`, clevercsv/wrappers.py:97, 281, after which the file is
read again. -/
def openStream (sys : Sys) (io : Io) (p : Path) (encoding : Option Str) : Act TextIn := fun w =>
  match openRead sys p w with
  | (.error e, w') => (.error e, w')
  | (.ok b, w') =>
    match io.decoder encoding with
    | none => (.error .lookupError, w')
    | some d => (.ok { dec := d, chunks := (io.reads w.ticks b).1, fails := (io.reads w.ticks b).2 }, w')

/-- `fid.read(num_chars) if num_chars else fid.read()`, clevercsv/wrappers.py:95, 277, 397. -/
def TextIn.readSome (f : TextIn) (numChars : Option Int) : Except PyExc Str :=
  match numChars with
  | none => f.readAll
  | some n => if n = 0 then f.readAll else if n < 0 then f.readAll else f.readN n.toNat

/-- What the parser gets from iterating over the file. -/
def TextIn.items (f : TextIn) : List Item := strItems f.lines.1 ++ (if f.lines.2.isSome then [.raise] else [])

/-- The exception of the file comes out of the parser as it is (src/cparser.c:464-470). -/
def TextIn.passOn {α : Type} (f : TextIn) (g : Gen α) : Gen α :=
  (g.1, match f.lines.2, g.2 with
    | some e, some (.parse .inputRaised) => some e
    | _, x => x)

/-- `stream_table`, clevercsv/wrappers.py:225-283. -/
def streamTableC (sys : Sys) (io : Io) (p : Path) (dialect : Option DialectArg := none)
    (encoding : Option Str := none) (numChars : Option Int := none) : Act (Gen (List Str)) := do
  let encoding ← chooseEncoding sys p encoding
  let f ← openStream sys io p encoding
  match dialect with
  | some d =>
    let r ← liftExcept (mkReader (.stream f.items) d)
    return f.passOn (r.readAll (← getLimit))
  | none =>
    let data ← liftExcept (f.readSome numChars)
    match ← runDetector sys data with
    | none => raise .noDetectionResult
    | some d =>
      let f ← openStream sys io p encoding
      let r ← liftExcept (mkReader (.stream f.items) (.simple d))
      return f.passOn (r.readAll (← getLimit))

/-- `read_table`, clevercsv/wrappers.py:166-222. -/
def readTableC (sys : Sys) (io : Io) (p : Path) (dialect : Option DialectArg := none)
    (encoding : Option Str := none) (numChars : Option Int := none) : Act (List (List Str)) :=
  listOf (streamTableC sys io p dialect encoding numChars)

/-- `detect_dialect`, clevercsv/wrappers.py:350-401. -/
def detectDialectC (sys : Sys) (io : Io) (p : Path) (numChars : Option Int := none) (encoding : Option Str := none)
    (method : Str := "auto".toList) (skip : Bool := true) : Act (Option SimpleDialect) := do
  let enc ← match truthy encoding with
    | some e => pure (some e)
    | none => getEncoding sys p
  let f ← openStream sys io p enc
  let data ← liftExcept (f.readSome numChars)
  runDetector sys data method skip

/-- Run something, and catch its exception. -/
def attempt {α : Type} (m : Act α) : Act (Except PyExc α) := fun w => (.ok (m w).1, (m w).2)

/-- Write pieces of text, one `write` call each, to the buffer of an open file, which is flushed from time to time: the buffer
afterwards, and the exception, if any. -/
def bufferPieces (sys : Sys) (io : Io) (p : Path) (c : Codec) : Nat → Bytes → List Str → Act (Bytes × Option PyExc)
  | _, buf, [] => pure (buf, none)
  | s, buf, x :: xs =>
    match c.encodeFrom s x with
    | none => pure (buf, some .unicodeError)
    | some (s', b) => fun w =>
      let out := (buf ++ b).take (io.flush w.ticks)
      let rest := (buf ++ b).drop (io.flush w.ticks)
      if out.isEmpty then bufferPieces sys io p c s' rest xs w
      else
        match append sys p out w with
        | (.ok _, w') => bufferPieces sys io p c s' rest xs w'
        | (.error e, w') => (.ok (out.drop ((sys.fault w.ticks).getD 0) ++ rest, some e), w')

/-- The writes of a generator to a file, and `close()` in any case (`with open(...) as fp`). -/
def writeAndClose (sys : Sys) (io : Io) (p : Path) (c : Codec) (g : Gen Str) : Act Unit := do
  let x ← bufferPieces sys io p c 0 [] g.1
  append sys p x.1
  match x.2.orElse fun _ => g.2 with
  | none => return ()
  | some e => raise e

/-- The writes of a generator to a file, and `close()` if there is no exception; otherwise the file object is thrown away, and
some of the buffer may get into the file. -/
def writeThenClose (sys : Sys) (io : Io) (p : Path) (c : Codec) (g : Gen Str) : Act Unit := do
  let x ← bufferPieces sys io p c 0 [] g.1
  match x.2.orElse fun _ => g.2 with
  | none => append sys p x.1
  | some e =>
    let _ ← attempt (append sys p x.1)
    raise e

/-- `write_table`, clevercsv/wrappers.py:404-458, for cells that are strings. -/
def writeTableC (sys : Sys) (io : Io) (table : Iter (List Str)) (p : Path) (dialect : DialectArg := .name "excel")
    (transpose : Bool := false) (encoding : Option Str := none) : Act Unit :=
  if table.falsy then pure ()
  else
    let rows := if transpose then zipRows table.items else table.items
    if (rows.map List.length).dedup.length > 1 then
      raise (.valueError "Table doesn't have constant row length.")
    else do
      let c ← openTextWrite sys p encoding
      let wd ← liftExcept (mkWriter dialect)
      writeAndClose sys io p c (wd.writeGen rows)

/-- `_write_to_stream`, clevercsv/console/commands/standardize.py:228-238, with `_write_transposed` (lines 200-213)
and `_write_direct` (lines 215-226): the writes to the stream.  The exception of a read comes after the writes of the rows
before it. -/
def writeToStreamC (sys : Sys) (io : Io) (transpose : Bool) (p : Path) (dialect : SimpleDialect) (encoding : Option Str) :
    Act (Gen Str) := do
  let f ← openStream sys io p encoding
  let r ← liftExcept (mkReader (.stream f.items) (.simple dialect))
  let rows := f.passOn (r.readAll (← getLimit))
  if transpose then
    let rows ← liftExcept rows.toList
    let wd ← liftExcept (mkWriter (.name "excel"))
    return wd.writeGen (zipRows rows)
  else
    let wd ← liftExcept (mkWriter (.name "excel"))
    return wd.copyGen rows

/-- `_in_place`, clevercsv/console/commands/standardize.py:240-267. -/
def inPlaceC (sys : Sys) (io : Io) (transpose : Bool) (p : Path) (dialect : SimpleDialect)
    (encoding target : Option Str) : Act Nat := do
  let tmp ← mkstemp sys
  let c ← getCodec sys target
  let g ← writeToStreamC sys io transpose p dialect encoding
  writeThenClose sys io tmp c g
  let previous ← sha1sum sys p
  let new ← sha1sum sys tmp
  if previous = new then
    unlink sys tmp
    return 0
  else
    move sys tmp p
    return 2

/-- `_to_stdout`, clevercsv/console/commands/standardize.py:269-276. -/
def toStdoutC (sys : Sys) (io : Io) (transpose : Bool) (p : Path) (dialect : SimpleDialect) (encoding : Option Str) :
    Act Nat := do
  let g ← writeToStreamC sys io transpose p dialect encoding
  let pieces ← liftExcept g.toList
  printText pieces.flatten
  return 0

/-- `_to_file`, clevercsv/console/commands/standardize.py:278-288. -/
def toFileC (sys : Sys) (io : Io) (transpose : Bool) (p output : Path) (dialect : SimpleDialect)
    (encoding target : Option Str) : Act Nat := do
  let c ← openTextWrite sys output target
  let g ← writeToStreamC sys io transpose p dialect encoding
  writeAndClose sys io output c g
  return 0

/-- `handle_path`, clevercsv/console/commands/standardize.py:176-198. -/
def handlePathC (sys : Sys) (io : Io) (a : StdArgs) (p : Path) (output : Option Path) (encoding : Option Str) : Act Nat := do
  let encoding ← match truthy encoding with
    | some e => pure (some e)
    | none => getEncoding sys p
  let target := match truthy a.target with
    | some t => some t
    | none => encoding
  match ← detectDialectC sys io p a.numChars encoding with
  | none => return 1
  | some d =>
    if a.inPlace then inPlaceC sys io a.transpose p d encoding target
    else
      match output with
      | none => toStdoutC sys io a.transpose p d encoding
      | some o => toFileC sys io a.transpose p o d encoding target

end Clever
