import Verif.Basic

/-!
# Specification of parsing by quote parity

Independent of the parser's state machine: the text is first cut into records, each record into
raw cells, and each raw cell is decoded on its own.
-/

namespace Clever.Spec

open Clever

/-- Put a character in front of the first piece. -/
def consHead (c : Char) : List Str → List Str
  | [] => [[c]]
  | r :: rs => (c :: r) :: rs

/-- Cut a text into records: a newline (`\n`, `\r` or `\r\n`) ends the record if the number of
quote characters seen before it is even (`inQ = false`).  Terminators are dropped (the
CR of a CRLF is skipped, then the LF ends the record).  A text that
does not end in a terminator has its last record all the same; the empty text has none. -/
def records (q : Char) : Bool → Str → List Str
  | _, [] => []
  | inQ, c :: rest =>
    if inQ = false ∧ c = '\r' ∧ rest.head? = some '\n' then records q false rest
    else if inQ = false ∧ (c = '\n' ∨ c = '\r') then [] :: records q false rest
    else consHead c (records q (inQ ^^ (c == q)) rest)

/-- Cut a record into raw cells: a delimiter separates cells if the number of quote characters
before it is even. -/
def rawCells (d q : Char) : Bool → Str → List Str
  | _, [] => [[]]
  | inQ, c :: rest =>
    if c ≠ q ∧ inQ = false ∧ c = d then [] :: rawCells d q false rest
    else consHead c (rawCells d q (inQ ^^ (c == q)) rest)

/-- Inside quotes, the first of two adjacent quotes is dropped (so that a doubled quote stands for
one quote); everything else is kept, also the quotes that open and close quoted stretches. -/
def undouble (q : Char) : Bool → Str → Str
  | _, [] => []
  | inQ, c :: rest =>
    if inQ = true ∧ c = q ∧ rest.head? = some q then undouble q false rest
    else c :: undouble q (inQ ^^ (c == q)) rest

/-- Remove the outer quotes of a decoded cell that begins and ends with the quote character; the
flag tells whether there were any. -/
def stripOuter (q : Char) (s : Str) : Str × Bool :=
  match s with
  | a :: b :: t =>
    if a = q ∧ (b :: t).getLast? = some q then ((b :: t).dropLast, true) else (s, false)
  | _ => (s, false)

/-- Remove an opening quote that is never closed. -/
def stripOpen (q : Char) (c : Str × Bool) : Str × Bool :=
  match c.1 with
  | a :: t => if a = q then (t, true) else c
  | [] => c

/-- The value of a raw cell. -/
def cellValue (q : Char) (raw : Str) : Str × Bool := stripOuter q (undouble q false raw)

/-- The value of the last raw cell of a text that ends inside quotes.  (This is what the parser
does; see property C13 for the cases in which it is not what one would expect.) -/
def openCellValue (q : Char) (raw : Str) : Str × Bool :=
  stripOpen q (stripOuter q (undouble q false raw))

/-- Number of quote characters is odd. -/
def oddQuotes (q : Char) (s : Str) : Bool := s.count q % 2 == 1

/-- The row for a record: nothing for a blank record; otherwise the values of its cells. -/
def recordRow (d q : Char) (r : Str) : List (Str × Bool) :=
  if r = [] then []
  else
    let raws := rawCells d q false r
    if oddQuotes q r then
      raws.dropLast.map (cellValue q) ++ (raws.getLast?.map (openCellValue q)).toList
    else raws.map (cellValue q)

/-- Does every decoded cell of the record fit the field size limit?  (Outer quotes count; a limit
below zero is as good as zero.) -/
def fits (limit : Int) (d q : Char) (r : Str) : Bool :=
  (rawCells d q false r).all fun raw => (undouble q false raw).length ≤ limit.toNat

/-- The rows of a list of records up to the first one that has a cell beyond the limit. -/
def limitedRows (limit : Int) (d q : Char) : List Str → List (List (Str × Bool)) × Option PErr
  | [] => ([], none)
  | r :: rs =>
    if fits limit d q r then
      (recordRow d q r :: (limitedRows limit d q rs).1, (limitedRows limit d q rs).2)
    else ([], some (.fieldLimit limit))

/-- The rows of a text, each cell with the flag that tells whether it was quoted. -/
def parse (d q : Char) (text : Str) : List (List (Str × Bool)) :=
  (records q false text).map (recordRow d q)

end Clever.Spec

namespace Clever.Spec

open Clever

/-- The lines of a text without their terminators `\n`, `\r\n`, `\r`. -/
def textLines : Str → List Str
  | [] => []
  | c :: rest =>
    if c = '\r' ∧ rest.head? = some '\n' then textLines rest
    else if c = '\n' ∨ c = '\r' then [] :: textLines rest
    else consHead c (textLines rest)

/-- `str.split(d)` for a one-character separator. -/
def splitOn (d : Char) : Str → List Str
  | [] => [[]]
  | c :: rest => if c = d then [] :: splitOn d rest else consHead c (splitOn d rest)

/-- `d.join(cells)`. -/
def joinWith (d : Char) : List Str → Str
  | [] => []
  | [x] => x
  | x :: y :: t => x ++ d :: joinWith d (y :: t)

end Clever.Spec
