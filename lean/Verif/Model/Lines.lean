import Verif.Model.Parser

/-!
# Splitting text into lines

Library behaviour (CPython `io`), checked against CPython 3.11/3.12:
* iterating `io.StringIO(data, newline="")` or a file opened with `newline=""` yields the lines of
  the text, terminated by `\n`, `\r` or `\r\n`, with the terminators kept;
* iterating `io.StringIO(data)` (default `newline="\n"`) splits after `\n` only.
-/

namespace Clever

/-- Does a line (in the sense of `newline=""`) end right after the character `c`, if `rest` is
the text that follows? -/
def lineEndAfter (c : Char) (rest : Str) : Bool :=
  c = '\n' || (c = '\r' && rest.head? ≠ some '\n')

/-- Lines of `io.StringIO(data, newline="")` and of files opened with `newline=""`
(clevercsv/cparser_util.py:148-149, clevercsv/wrappers.py:93, 275, 396). -/
def linesUniv : Str → List Str
  | [] => []
  | c :: rest =>
    if lineEndAfter c rest then [c] :: linesUniv rest
    else
      match linesUniv rest with
      | [] => [[c]]
      | l :: ls => (c :: l) :: ls

/-- Lines of `io.StringIO(data)` (clevercsv/detect.py:150). -/
def linesLF : Str → List Str
  | [] => []
  | c :: rest =>
    if c = '\n' then [c] :: linesLF rest
    else
      match linesLF rest with
      | [] => [[c]]
      | l :: ls => (c :: l) :: ls

/-- The strings of a line iterator as items of the parser's input. -/
def strItems (ls : List Str) : List Item := ls.map Item.str

/-- The parser run over the lines of a text: what iterating
`Parser(io.StringIO(data, newline=""), ...)` yields, and the error that ends the iteration, if any. -/
def parseText {α : Type} (cfg : Cfg) (mk : Str → Bool → α) (data : Str) :
    List (List α) × Option PErr :=
  parseRows cfg mk (strItems (linesUniv data))

end Clever
