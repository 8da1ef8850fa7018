import Verif.Model.World

/-!
# Text files that are read in chunks

Library behaviour: `io.TextIOWrapper` of CPython (Lib/_pyio.py: `_read_chunk`, `read`, `readline`, `__next__`) for a file opened
with `newline=""`, `IncrementalNewlineDecoder` without translation, and `codecs.IncrementalDecoder` with `errors="strict"`.
The wrappers and the standardize command read all their files in this way (clevercsv/wrappers.py:93-95, 275-277, 396-397,
clevercsv/console/commands/standardize.py:207, 222).  In Model/World a file is decoded when it is opened; here it is read
chunk by chunk, and an error comes when its chunk is read.
-/

namespace Clever

/-- An incremental decoder, byte by byte; its states are numbered from 0. -/
structure Decoder where
  /-- the next state and the characters that are decoded: `none` is `UnicodeDecodeError` -/
  step : Nat → UInt8 → Option (Nat × Str)
  /-- may the input end in this state? -/
  atEnd : Nat → Bool

/-- `decoder.decode(chunk)`. -/
def Decoder.feed (d : Decoder) : Nat → Bytes → Option (Nat × Str)
  | s, [] => some (s, [])
  | s, b :: bs =>
    match d.step s b with
    | none => none
    | some (s', t) =>
      match d.feed s' bs with
      | none => none
      | some (s'', t') => some (s'', t ++ t')

/-- `decoder.decode(chunk, final)`. -/
def Decoder.decode (d : Decoder) (s : Nat) (chunk : Bytes) (final : Bool) : Option (Nat × Str) :=
  match d.feed s chunk with
  | none => none
  | some (s', t) => if final && !d.atEnd s' then none else some (s', t)

/-- A whole file: `decoder.decode(b, final=True)`. -/
def Decoder.whole (d : Decoder) (b : Bytes) : Option Str := (d.decode 0 b true).map (·.2)

/-- `IncrementalNewlineDecoder.decode` with `translate=False`, after the inner decoder has returned `t`: a CR at the end waits
for the next chunk.  The new value of `pendingcr`, and the text. -/
def crDecode (cr : Bool) (t : Str) (final : Bool) : Bool × Str :=
  let out := if cr && (!t.isEmpty || final) then '\r' :: t else t
  let cr' := cr && !(!t.isEmpty || final)
  if out.getLast? = some '\r' && !final then (true, out.dropLast) else (cr', out)

/-- A text file that is open for reading. -/
structure TextIn where
  dec : Decoder
  /-- what the reads of the underlying file are going to return -/
  chunks : List Bytes
  /-- what the read after that does: `OSError`, or nothing left to read -/
  fails : Bool
  state : Nat := 0
  /-- `pendingcr` -/
  cr : Bool := false
  /-- decoded characters that have not been used -/
  chars : Str := []

/-- `buffer.read1(n)`. -/
def TextIn.read1 (f : TextIn) : Except PyExc (Bytes × TextIn) :=
  match f.chunks with
  | [] => if f.fails then .error .osError else .ok ([], f)
  | c :: cs => .ok (c, { f with chunks := cs })

/-- `_read_chunk`: whether there was something to read, and the file with the new decoded characters. -/
def TextIn.readChunk (f : TextIn) : Except PyExc (Bool × TextIn) :=
  match f.read1 with
  | .error e => .error e
  | .ok (chunk, f) =>
    let eof := chunk.isEmpty
    match f.dec.decode f.state chunk eof with
    | none => .error .unicodeError
    | some (s, t) =>
      let x := crDecode f.cr t eof
      .ok (!eof, { f with state := s, cr := x.1, chars := x.2 })

/-- The loop of `read(n)`: `result` has been read.  With fuel. -/
def TextIn.readLoop (n : Nat) : Nat → Str → TextIn → Except PyExc Str
  | 0, result, _ => .ok result
  | k + 1, result, f =>
    if result.length < n then
      match f.readChunk with
      | .error e => .error e
      | .ok (more, f) =>
        let got := f.chars.take (n - result.length)
        let f' := { f with chars := f.chars.drop (n - result.length) }
        if more then f'.readLoop n k (result ++ got) else .ok (result ++ got)
    else .ok result

/-- `read(n)` for `n ≥ 0`. -/
def TextIn.readN (f : TextIn) (n : Nat) : Except PyExc Str :=
  TextIn.readLoop n (f.chunks.length + 1) (f.chars.take n) { f with chars := f.chars.drop n }

/-- `read()`. -/
def TextIn.readAll (f : TextIn) : Except PyExc Str :=
  if f.fails then .error .osError
  else
    match f.dec.decode f.state f.chunks.flatten true with
    | none => .error .unicodeError
    | some (_, t) => .ok (f.chars ++ (crDecode f.cr t true).2)

/-- Where the first line ends (`_readuniversal`). -/
def lineEnd : Str → Option Nat
  | [] => none
  | '\n' :: _ => some 1
  | '\r' :: '\n' :: _ => some 2
  | '\r' :: _ => some 1
  | _ :: r => (lineEnd r).map (· + 1)

/-- `while self._read_chunk(): if self._decoded_chars: break`, with fuel. -/
def TextIn.fill : Nat → TextIn → Except PyExc TextIn
  | 0, f => .ok f
  | k + 1, f =>
    match f.readChunk with
    | .error e => .error e
    | .ok (more, f') => if more && f'.chars.isEmpty then f'.fill k else .ok f'

/-- The loop of `readline`, with fuel. -/
def TextIn.lineLoop : Nat → Str → TextIn → Except PyExc (Str × TextIn)
  | 0, line, f => .ok (line, f)
  | k + 1, line, f =>
    match lineEnd line with
    | some n => .ok (line.take n, { f with chars := line.drop n })
    | none =>
      match f.fill (f.chunks.length + 1) with
      | .error e => .error e
      | .ok f' => if f'.chars.isEmpty then .ok (line, f') else lineLoop k (line ++ f'.chars) { f' with chars := [] }

/-- `readline()`. -/
def TextIn.readline (f : TextIn) : Except PyExc (Str × TextIn) :=
  TextIn.lineLoop (f.chunks.length + 3) f.chars { f with chars := [] }

/-- `for line in f`, with fuel. -/
def TextIn.linesLoop : Nat → TextIn → Gen Str
  | 0, _ => ([], none)
  | k + 1, f =>
    match f.readline with
    | .error e => ([], some e)
    | .ok (line, f') => if line.isEmpty then ([], none) else let g := f'.linesLoop k; (line :: g.1, g.2)

/-- The number of characters that are decoded at most. -/
def Decoder.count (d : Decoder) : Nat → Bytes → Nat
  | _, [] => 0
  | s, b :: bs =>
    match d.step s b with
    | none => 0
    | some (s', t) => t.length + d.count s' bs

/-- `for line in f`: the lines, and the exception that ends the loop, if any. -/
def TextIn.lines (f : TextIn) : Gen Str :=
  f.linesLoop (f.chars.length + f.dec.count f.state f.chunks.flatten + 2)

end Clever
