import Verif.Model.BreakTies

/-!
# Normal forms (`clevercsv/normal_form.py`)

The dialects that occur have string components, so the assertions hold; strings are passed instead of
dialects where only one component is used.
-/

namespace Clever

/-- `DELIMS`, clevercsv/normal_form.py:29. -/
def nfDelims : List Str := [[','], [';'], ['|'], ['\t']]

/-- `QUOTECHARS`, clevercsv/normal_form.py:30. -/
def nfQuotechars : List Str := [['\''], ['"']]

/-- `cell[1:-1]`. -/
def inner (cell : Str) : Str := (cell.drop 1).dropLast

/-- `is_quoted_cell`, clevercsv/normal_form.py:105-108. -/
def isQuotedCell (cell quotechar : Str) : Bool :=
  2 ≤ cell.length && cell.head?.map (fun c => [c]) = some quotechar &&
    cell.getLast?.map (fun c => [c]) = some quotechar

/-- `is_any_quoted_cell`, clevercsv/normal_form.py:111-112. -/
def isAnyQuotedCell (cell : Str) : Bool := isQuotedCell cell ['\''] || isQuotedCell cell ['"']

/-- `is_any_partial_quoted_cell`, clevercsv/normal_form.py:115-120. -/
def isAnyPartialQuotedCell (cell : Str) : Bool :=
  cell.head? = some '"' || cell.head? = some '\'' || cell.getLast? = some '"' ||
    cell.getLast? = some '\''

/-- `is_empty_quoted`, clevercsv/normal_form.py:123-124. -/
def isEmptyQuoted (cell quotechar : Str) : Bool := cell.length = 2 && isQuotedCell cell quotechar

/-- `is_any_empty`, clevercsv/normal_form.py:131-136. -/
def isAnyEmpty (cell : Str) : Bool :=
  cell.isEmpty || isEmptyQuoted cell ['\''] || isEmptyQuoted cell ['"']

/-- `maybe_has_escapechar`, clevercsv/normal_form.py:147-155. -/
def maybeHasEscapechar (env : PyEnv) (data delim quotechar : Str) : Bool :=
  if !isInfixOf delim data && !isInfixOf quotechar data then false
  else (pairwise data).any (fun p =>
    ([p.2] = delim || [p.2] = quotechar) && isPotentialEscapechar env p.1)

/-- `strip_trailing_crnl`, clevercsv/normal_form.py:158-163. -/
def stripTrailingCrnl (data : Str) : Str :=
  ((data.reverse.dropWhile (· = '\n')).dropWhile (· = '\r')).reverse

/-- `s.split(sep)` for a non-empty separator; `skip` counts the characters of a separator that are
still to be passed over. -/
def pySplit (sep : Str) : Nat → Str → List Str
  | _, [] => [[]]
  | skip + 1, _ :: s => pySplit sep skip s
  | 0, c :: s =>
    if sep.isPrefixOf (c :: s) then [] :: pySplit sep (sep.length - 1) s
    else
      match pySplit sep 0 s with
      | [] => [[c]]
      | x :: xs => (c :: x) :: xs

/-- `split_file`, clevercsv/normal_form.py:197-205. -/
def splitFile (data : Str) : List Str :=
  let s := stripTrailingCrnl data
  if isInfixOf ['\r', '\n'] s then pySplit ['\r', '\n'] 0 s
  else if isInfixOf ['\n'] s then pySplit ['\n'] 0 s
  else if isInfixOf ['\r'] s then pySplit ['\r'] 0 s
  else [s]

/-- The loop of `split_row`, clevercsv/normal_form.py:216-230. -/
def splitRowLoop (delim quotechar : Str) : Str → Bool → Str → List Str
  | cur, _, [] => if cur.isEmpty then [] else [cur]
  | cur, inq, c :: rest =>
    if [c] = delim ∧ inq = false then cur :: splitRowLoop delim quotechar [] inq rest
    else if [c] = quotechar then splitRowLoop delim quotechar (cur ++ [c]) (!inq) rest
    else splitRowLoop delim quotechar (cur ++ [c]) inq rest

/-- `split_row`, clevercsv/normal_form.py:208-230. -/
def splitRow (row delim quotechar : Str) : List Str :=
  if quotechar.isEmpty || !isInfixOf quotechar row then
    if delim.isEmpty then [row] else pySplit delim 0 row
  else splitRowLoop delim quotechar [] false row

/-- `every_row_has_delim`, clevercsv/normal_form.py:166-171. -/
def everyRowHasDelim (rows : List Str) (delim : Str) : Bool := rows.all (isInfixOf delim)

/-- `every_row_has_delim_and_is_the_same_length`, clevercsv/normal_form.py:174-187. -/
def everyRowSameLength (rows : List Str) (delim quotechar : Str) : Bool :=
  match rows with
  | [] => false
  | first :: _ =>
    rows.all (fun row => isInfixOf delim row &&
      (splitRow row delim quotechar).length = (splitRow first delim quotechar).length)

/-- The characters of `is_elementary`, clevercsv/normal_form.py:192. -/
def elementaryChar (c : Char) : Bool :=
  isLow c || isUpp c || isDig c || ['.', '_', '&', '-', '@', '+', '%', '(', ')', ' ', '/'].contains c

/-- `is_elementary`, clevercsv/normal_form.py:190-194: the regular expression is a character class with
a `+`, written out. -/
def isElementary (cell : Str) : Bool := !cell.isEmpty && cell.all elementaryChar

/-- `is_form_1`, clevercsv/normal_form.py:233-258. -/
def isForm1 (rows : List Str) (delim quotechar : Str) : Bool :=
  everyRowSameLength rows delim quotechar &&
  rows.all (fun row =>
    let cells := splitRow row delim quotechar
    cells.length ≠ 1 && cells.all (fun cell =>
      !cell.isEmpty && isQuotedCell cell quotechar && !isInfixOf quotechar (inner cell)))

/-- `is_form_2`, clevercsv/normal_form.py:261-280. -/
def isForm2 (rows : List Str) (delim quotechar : Str) : Bool :=
  everyRowSameLength rows delim quotechar &&
  rows.all (fun row =>
    let cells := splitRow row delim quotechar
    cells.length ≠ 1 && cells.all (fun cell =>
      !isAnyQuotedCell cell && !isAnyPartialQuotedCell cell && (cell.isEmpty || isElementary cell)))

/-- `is_form_3`, clevercsv/normal_form.py:283-313. -/
def isForm3 (rows : List Str) (delim quotechar : Str) : Bool :=
  everyRowSameLength rows delim quotechar && 1 < rows.length &&
  rows.all (fun row =>
    let cells := splitRow row delim quotechar
    cells.length ≠ 1 && cells.all (fun cell =>
      !isAnyEmpty cell &&
        (if isAnyQuotedCell cell then isQuotedCell cell quotechar else isElementary cell)))

/-- The complement of the character classes of `is_form_4`, clevercsv/normal_form.py:323-324. -/
def form4Char (c : Char) : Bool :=
  isLow c || isUpp c || isDig c || ['.', '_', '&', '-'].contains c

/-- `is_form_4`, clevercsv/normal_form.py:316-338. -/
def isForm4 (rows : List Str) (quotechar : Str) : Bool :=
  1 < rows.length &&
  rows.all (fun row =>
    if quotechar.isEmpty then !isAnyQuotedCell row && row.all form4Char
    else isQuotedCell row quotechar && (inner row).all (fun c => form4Char c || c = ' '))

/-- `is_form_5`, clevercsv/normal_form.py:341-361. -/
def isForm5 (rows : List Str) (delim quotechar : Str) : Bool :=
  everyRowHasDelim rows delim && 1 < rows.length &&
  rows.all (fun row => 2 < row.length && isQuotedCell row quotechar) &&
  isForm2 (rows.map inner) delim quotechar

/-- The test of one entry of `form_and_dialect`. -/
structure FormTest where
  form : Nat
  dialect : SimpleDialect
  holds : List Str → Bool

/-- `form_and_dialect`, clevercsv/normal_form.py:64-91. -/
def formTests (delimiters : List Str) : List FormTest :=
  delimiters.map (fun d => ⟨2, mkDialect d [] [], fun rows => isForm2 rows d []⟩) ++
  delimiters.flatMap (fun d => nfQuotechars.flatMap (fun q =>
    [⟨1, mkDialect d q [], fun rows => isForm1 rows d q⟩,
     ⟨3, mkDialect d q [], fun rows => isForm3 rows d q⟩,
     ⟨5, mkDialect d q [], fun rows => isForm5 rows d q⟩])) ++
  nfQuotechars.map (fun q => ⟨4, mkDialect [] q [], fun rows => isForm4 rows q⟩) ++
  [⟨4, mkDialect [] [] [], fun rows => isForm4 rows []⟩]

/-- `detect_dialect_normal`, clevercsv/normal_form.py:33-102. -/
def detectDialectNormal (env : PyEnv) (data : Str) (delimiters : Option (List Str) := none) :
    Option SimpleDialect :=
  let ds := delimiters.getD nfDelims
  if ds.any (fun d => nfQuotechars.any (fun q => maybeHasEscapechar env data d q)) then none
  else ((formTests ds).find? (fun t => t.holds (splitFile data))).map (·.dialect)

end Clever
