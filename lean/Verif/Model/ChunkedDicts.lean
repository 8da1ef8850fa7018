import Verif.Model.Chunked

/-!
# `stream_dicts`, `read_dicts` and `write_dicts` with files that are read in chunks and written through a buffer

As in `Verif/Model/Chunked.lean`.
-/

namespace Clever

/-- `stream_dicts`, clevercsv/wrappers.py:43-104. -/
def streamDictsC (sys : Sys) (io : Io) (p : Path) (dialect : Option DialectArg := none)
    (encoding : Option Str := none) (numChars : Option Int := none) : Act (Gen (List (Key × DVal))) := do
  let encoding ← chooseEncoding sys p encoding
  let f ← openStream sys io p encoding
  match dialect with
  | some d =>
    let r ← liftExcept (mkDictReader (.stream f.items) d)
    return f.passOn (r.readAll (← getLimit))
  | none =>
    let data ← liftExcept (f.readSome numChars)
    match ← runDetector sys data with
    | none => raise .noDetectionResult
    | some d =>
      let f ← openStream sys io p encoding
      let r ← liftExcept (mkDictReader (.stream f.items) (.simple d))
      return f.passOn (r.readAll (← getLimit))

/-- `read_dicts`, clevercsv/wrappers.py:107-163. -/
def readDictsC (sys : Sys) (io : Io) (p : Path) (dialect : Option DialectArg := none)
    (encoding : Option Str := none) (numChars : Option Int := none) : Act (List (List (Key × DVal))) :=
  listOf (streamDictsC sys io p dialect encoding numChars)

/-- `write_dicts`, clevercsv/wrappers.py:461-507. -/
def writeDictsC (sys : Sys) (io : Io) (items : Iter (List (Str × Str))) (p : Path)
    (dialect : DialectArg := .name "excel") (encoding : Option Str := none) : Act Unit :=
  if items.falsy then pure ()
  else
    match items.items with
    | [] => pure ()
    | first :: _ => do
      let c ← openTextWrite sys p encoding
      let w ← liftExcept (mkDictWriter (first.map Prod.fst) (arg := dialect))
      writeAndClose sys io p c (w.writeAll items.items)

end Clever
