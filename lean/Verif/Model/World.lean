import Verif.Model.Detect
import Verif.Model.Reader
import Verif.Model.DictIO

/-!
# Files, encodings and the operating system

The wrappers and the command line tools work on files.  What the operating system and the standard
library do is library code: it is described by parameters (`Sys`) and by a few primitive operations that
may fail at any time.

* A file system maps paths to contents; two different paths are two different files (no links).
* An encoding is an incremental encoder, character by character, and a decoder for whole files.  A text
  file is decoded when it is opened; an undecodable file raises then (Python raises when it gets to the
  offending chunk).
* Every operation has a number, and `fault` says which of them raise `OSError`; a failing write may have
  written some of its bytes.  Output buffers are not modelled: what is written arrives in the file.
-/

namespace Clever

/-- File contents. -/
abbrev Bytes := List UInt8

/-- Paths of files. -/
abbrev Path := Str

/-- A text encoding (a codec of the Python library). -/
structure Codec where
  /-- the incremental encoder, whose states are numbered from 0: `none` is `UnicodeEncodeError` -/
  step : Nat → Char → Option (Nat × Bytes)
  /-- the decoder: `none` is `UnicodeDecodeError` -/
  decode : Bytes → Option Str

/-- Encode a text from a state of the encoder. -/
def Codec.encodeFrom (c : Codec) (s : Nat) : Str → Option (Nat × Bytes)
  | [] => some (s, [])
  | x :: xs =>
    match c.step s x with
    | none => none
    | some (s', b) =>
      match c.encodeFrom s' xs with
      | none => none
      | some (s'', b') => some (s'', b ++ b')

/-- A `UniversalDetector` of `chardet` or `cchardet`. -/
structure EncDetector where
  State : Type
  init : State
  feed : State → Bytes → State
  done : State → Bool
  /-- `close()` followed by `result.get("encoding")` -/
  result : State → Option Str

/-- The environment of a run. -/
structure Sys where
  /-- `none`: the default of `open` -/
  codec : Option Str → Option Codec
  sniffer : EncDetector
  env : PyEnv
  order : SetOrder
  fault : Nat → Option Nat
  sha1 : Bytes → Str
  tempName : (Path → Option Bytes) → Path
  /-- is the directory of temporary files on another file system? -/
  crossDevice : Bool

/-- The state of the world. -/
structure World where
  files : Path → Option Bytes
  /-- the number of operations so far -/
  ticks : Nat
  /-- `field_size_limit()` -/
  limit : Int
  stdout : Str

/-- A piece of a program: it returns a value or raises an exception. -/
def Act (α : Type) := World → Except PyExc α × World

instance : Monad Act where
  pure a := fun w => (.ok a, w)
  bind m f := fun w =>
    match m w with
    | (.ok a, w') => f a w'
    | (.error e, w') => (.error e, w')

/-- `raise e`. -/
def raise {α : Type} (e : PyExc) : Act α := fun w => (.error e, w)

/-- Pass on a value or an exception. -/
def liftExcept {α : Type} (x : Except PyExc α) : Act α := fun w => (x, w)

/-- `field_size_limit()`. -/
def getLimit : Act Int := fun w => (.ok w.limit, w)

/-- Change the contents of a file. -/
def World.set (w : World) (p : Path) (b : Option Bytes) : World :=
  { w with files := fun q => if q = p then b else w.files q }

/-- The number of the operation that is about to run, if it fails: how many bytes a write gets done. -/
def tick (sys : Sys) : Act (Option Nat) :=
  fun w => (.ok (sys.fault w.ticks), { w with ticks := w.ticks + 1 })

/-- Open a file for reading, and read it. -/
def openRead (sys : Sys) (p : Path) : Act Bytes := do
  match ← tick sys with
  | some _ => raise .osError
  | none => fun w =>
    match w.files p with
    | none => (.error .osError, w)
    | some b => (.ok b, w)

/-- Open a file for writing: it is created, or truncated. -/
def openWrite (sys : Sys) (p : Path) : Act Unit := do
  match ← tick sys with
  | some _ => raise .osError
  | none => fun w => (.ok (), w.set p (some []))

/-- Write bytes to the end of an open file. -/
def append (sys : Sys) (p : Path) (b : Bytes) : Act Unit := do
  match ← tick sys with
  | some k => fun w => (.error .osError, w.set p (some ((w.files p).getD [] ++ b.take k)))
  | none => fun w => (.ok (), w.set p (some ((w.files p).getD [] ++ b)))

/-- `os.unlink`. -/
def unlink (sys : Sys) (p : Path) : Act Unit := do
  match ← tick sys with
  | some _ => raise .osError
  | none => fun w => (.ok (), w.set p none)

/-- `os.rename` within a file system. -/
def rename (sys : Sys) (p q : Path) : Act Unit := do
  match ← tick sys with
  | some _ => raise .osError
  | none => fun w => (.ok (), (w.set q (w.files p)).set p none)

/-- `shutil.move(p, q)` for a file: `os.rename`, or, between file systems, a copy followed by
`os.unlink`. -/
def move (sys : Sys) (p q : Path) : Act Unit :=
  if sys.crossDevice then do
    let b ← openRead sys p
    openWrite sys q
    append sys q b
    unlink sys p
  else rename sys p q

/-- `tempfile.mkstemp`: a new file, which did not exist before. -/
def mkstemp (sys : Sys) : Act Path := do
  match ← tick sys with
  | some _ => raise .osError
  | none => fun w =>
    let p := sys.tempName w.files
    if w.files p = none then (.ok p, w.set p (some [])) else (.error .osError, w)

/-- `codecs.lookup` for an encoding. -/
def getCodec (sys : Sys) (encoding : Option Str) : Act Codec :=
  match sys.codec encoding with
  | none => raise .lookupError
  | some c => pure c

/-- `open(p, "r", newline="", encoding=encoding)`: the text of the file. -/
def openText (sys : Sys) (p : Path) (encoding : Option Str) : Act Str := do
  let b ← openRead sys p
  let c ← getCodec sys encoding
  match c.decode b with
  | none => raise .unicodeError
  | some text => return text

/-- Write pieces of text, one `write` call each, to an open file. -/
def writePieces (sys : Sys) (p : Path) (c : Codec) : Nat → List Str → Act Unit
  | _, [] => pure ()
  | s, x :: xs =>
    match c.encodeFrom s x with
    | none => raise .unicodeError
    | some (s', b) => do
      append sys p b
      writePieces sys p c s' xs

/-- A writer that was stopped by an exception has written what came before it. -/
def writeGen (sys : Sys) (p : Path) (c : Codec) (g : Gen Str) : Act Unit := do
  writePieces sys p c 0 g.1
  match g.2 with
  | none => return ()
  | some e => raise e

/-- `open(p, "w", newline="", encoding=encoding)`.  (The file is truncated before the encoding is looked
up.) -/
def openTextWrite (sys : Sys) (p : Path) (encoding : Option Str) : Act Codec := do
  openWrite sys p
  getCodec sys encoding

end Clever
