import Verif.Model.Potential

/-!
# Tie breaking (`clevercsv/break_ties.py`)

`limit` is the value of `field_size_limit()`.
-/

namespace Clever

/-- `list(parse_string(data, dialect))`. -/
def parseAll (limit : Int) (data : Str) (d : SimpleDialect) : Except PyExc (List (List Str)) :=
  (parseString limit d data).toList

/-- `len(X) != len(Y)`, or the rows differ in length: the opposite of "the same shape",
clevercsv/break_ties.py:185-189 and 231-235. -/
def sameShape : List (List Str) → List (List Str) → Bool
  | [], [] => true
  | x :: xs, y :: ys => x.length = y.length && sameShape xs ys
  | _, _ => false

/-- The pairs of cells that differ, for tables of the same shape. -/
def diffCells (X Y : List (List Str)) : List (Str × Str) :=
  (X.zip Y).flatMap (fun r => (r.1.zip r.2).filter (fun p => p.1 ≠ p.2))

/-- `needle in s`. -/
def isInfixOf (needle : Str) : Str → Bool
  | [] => needle.isEmpty
  | c :: s => needle.isPrefixOf (c :: s) || isInfixOf needle s

/-- Number of times the escapechar precedes the quotechar, clevercsv/break_ties.py:208-213. -/
def countEscaped (d : SimpleDialect) (u : Str) : Nat :=
  ((pairwise u).filter (fun p => some [p.1] = d.escapechar && some [p.2] = d.quotechar)).length

/-- `_dialects_only_differ_in_field(A, B, "quotechar")`, clevercsv/break_ties.py:100-106. -/
def onlyQuotechar (A B : SimpleDialect) : Bool :=
  A.delimiter = B.delimiter && A.escapechar = B.escapechar

/-- `_dialects_only_differ_in_field(A, B, "delimiter")`. -/
def onlyDelimiter (A B : SimpleDialect) : Bool :=
  A.quotechar = B.quotechar && A.escapechar = B.escapechar

/-- `_dialects_only_differ_in_field(A, B, "escapechar")`. -/
def onlyEscapechar (A B : SimpleDialect) : Bool :=
  A.delimiter = B.delimiter && A.quotechar = B.quotechar

/-- The case of `break_ties_two` in which one dialect has no quotechar, clevercsv/break_ties.py:150-162. -/
def tieQuote (limit : Int) (data : Str) (A B : SimpleDialect) :
    Except PyExc (Option SimpleDialect) :=
  if A.quotechar = some [] ∨ B.quotechar = some [] then
    let dNo := if A.quotechar = some [] then A else B
    let dYes := if dNo = A then B else A
    match parseAll limit data dNo with
    | .error e => .error e
    | .ok X =>
      match parseAll limit data dYes with
      | .error e => .error e
      | .ok Y => .ok (some (if X = Y then dNo else dYes))
  else .ok none

/-- The case of different delimiters, clevercsv/break_ties.py:164-175. -/
def tieDelimiter (A B : SimpleDialect) : Option SimpleDialect :=
  if (A.delimiter = some [','] ∧ B.delimiter = some [' ']) ∨
      (A.delimiter = some [' '] ∧ B.delimiter = some [',']) then
    if A.delimiter = some [','] then some A else some B
  else if A.delimiter = some ['-'] ∨ B.delimiter = some ['-'] then
    if A.delimiter = some ['-'] then some B else some A
  else none

/-- The case of different escapechars, clevercsv/break_ties.py:177-217.  The loop over the cells that
differ returns in its first iteration. -/
def tieEscape (limit : Int) (data : Str) (A B : SimpleDialect) :
    Except PyExc (Option SimpleDialect) :=
  let dNone := if A.escapechar = some [] then A else B
  let dEscape := if A.escapechar = some [] then B else A
  match parseAll limit data dNone with
  | .error e => .error e
  | .ok X =>
    match parseAll limit data dEscape with
    | .error e => .error e
    | .ok Y =>
      if !sameShape X Y then .ok none
      else
        match diffCells X Y with
        | [] => .ok none
        | (u, _) :: _ =>
          let count := countEscaped dEscape u
          .ok (some (if 0 < count ∧ count % 2 = 0 then dEscape else dNone))

/-- The case in which only the delimiter is the same, clevercsv/break_ties.py:219-252. -/
def tieQuoteEscape (limit : Int) (data : Str) (A B : SimpleDialect) :
    Except PyExc (Option SimpleDialect) :=
  let plain (d : SimpleDialect) : Bool := d.quotechar = some [] && d.escapechar = some []
  if plain A ∨ plain B then
    let dNo := if plain A then A else B
    let dYes := if dNo = A then B else A
    match parseAll limit data dNo with
    | .error e => .error e
    | .ok X =>
      match parseAll limit data dYes with
      | .error e => .error e
      | .ok Y =>
        if !sameShape X Y then .ok none
        else
          match dYes.escapechar, dYes.quotechar with
          | some e, some q =>
            if (diffCells X Y).all (fun p => isInfixOf (e ++ q) p.1) then .ok (some dYes) else .ok none
          | _, _ => .error .assertionError
  else .ok none

/-- `break_ties_two`, clevercsv/break_ties.py:109-254. -/
def breakTiesTwo (limit : Int) (data : Str) (A B : SimpleDialect) :
    Except PyExc (Option SimpleDialect) :=
  if onlyQuotechar A B then tieQuote limit data A B
  else if onlyDelimiter A B then .ok (tieDelimiter A B)
  else if onlyEscapechar A B then tieEscape limit data A B
  else if A.delimiter = B.delimiter then tieQuoteEscape limit data A B
  else .ok none

/-- The delimiters are all the same: `len(set(...)) == 1`. -/
def equalDelim (ds : List SimpleDialect) : Bool := (ds.map (·.delimiter)).dedup.length = 1

/-- Pairs of neighbours with the same parsing result, clevercsv/break_ties.py:74-80. -/
def equalPairs (limit : Int) (data : Str) :
    List (SimpleDialect × SimpleDialect) → Except PyExc (List (SimpleDialect × SimpleDialect))
  | [] => .ok []
  | (a, b) :: rest =>
    match parseAll limit data a with
    | .error e => .error e
    | .ok X =>
      match parseAll limit data b with
      | .error e => .error e
      | .ok Y =>
        match equalPairs limit data rest with
        | .error e => .error e
        | .ok ps => .ok (if X = Y then (a, b) :: ps else ps)

/-- The answers for these pairs, clevercsv/break_ties.py:82-90. -/
def pairAnswers (limit : Int) (data : Str) :
    List (SimpleDialect × SimpleDialect) → Except PyExc (List SimpleDialect)
  | [] => .ok []
  | (a, b) :: rest =>
    match breakTiesTwo limit data a b with
    | .error e => .error e
    | .ok ans =>
      match pairAnswers limit data rest with
      | .error e => .error e
      | .ok l => .ok (ans.toList ++ l)

/-- `reduce_pairwise`, clevercsv/break_ties.py:50-97. -/
def reducePairwise (ord : SetOrder) (limit : Int) (data : Str) (ds : List SimpleDialect) :
    Except PyExc (Option (List SimpleDialect)) :=
  if !equalDelim ds then .ok none
  else
    match equalPairs limit data (pairwise ds) with
    | .error e => .error e
    | .ok ps =>
      match pairAnswers limit data ps with
      | .error e => .error e
      | .ok ans =>
        let visited := ps.flatMap (fun p => [p.1, p.2])
        .ok (some (ord.dialects (ans ++ ds.filter (fun d => !visited.contains d))))

/-- `break_ties_three`, clevercsv/break_ties.py:257-363. -/
def breakTiesThree (ord : SetOrder) (limit : Int) (data : Str) (A B C : SimpleDialect) :
    Except PyExc (Option SimpleDialect) :=
  let eqDelim := A.delimiter = B.delimiter ∧ B.delimiter = C.delimiter
  let eqEscape := A.escapechar = B.escapechar ∧ B.escapechar = C.escapechar
  if eqDelim ∧ eqEscape then
    match parseAll limit data A with
    | .error e => .error e
    | .ok pA =>
    match parseAll limit data B with
    | .error e => .error e
    | .ok pB =>
    match parseAll limit data C with
    | .error e => .error e
    | .ok pC =>
      if pA.length ≠ pB.length ∨ pA.length ≠ pC.length ∨ pB.length ≠ pC.length then .ok none
      else
        let ps := [(pA, A), (pB, B), (pC, C)]
        match ps.find? (fun p => p.2.quotechar = some []) with
        | none => .ok none
        | some (pNone, dNone) =>
          let rem := ps.filter (fun p => p.1 ≠ pNone)
          if rem.length ≤ 1 then
            match reducePairwise ord limit data [A, B, C] with
            | .error e => .error e
            | .ok (some [d]) => .ok (some d)
            | .ok _ => .ok none
          else
            match rem with
            | (p0, d0) :: (p1, d1) :: _ =>
              if pNone = p0 then breakTiesTwo limit data dNone d0
              else if pNone = p1 then breakTiesTwo limit data dNone d1
              else .ok none
            | _ => .ok none
  else if eqDelim then
    match [A, B, C].filter (fun d => d.quotechar ≠ some []) with
    | [x, y] => breakTiesTwo limit data x y
    | _ => .ok none
  else .ok none

/-- `break_ties_four`, clevercsv/break_ties.py:366-417. -/
def breakTiesFour (ord : SetOrder) (limit : Int) (data : Str) (ds : List SimpleDialect) :
    Except PyExc (Option SimpleDialect) :=
  if !equalDelim ds then .ok none
  else
    match reducePairwise ord limit data ds with
    | .error e => .error e
    | .ok (some [x]) => .ok (some x)
    | .ok (some [x, y]) => breakTiesTwo limit data x y
    | .ok (some [x, y, z]) => breakTiesThree ord limit data x y z
    | .ok _ => .ok none

/-- `tie_breaker`, clevercsv/break_ties.py:18-47. -/
def tieBreaker (ord : SetOrder) (limit : Int) (data : Str) (ds : List SimpleDialect) :
    Except PyExc (Option SimpleDialect) :=
  match ds with
  | [a, b] => breakTiesTwo limit data a b
  | [a, b, c] => breakTiesThree ord limit data a b c
  | [_, _, _, _] => breakTiesFour ord limit data ds
  | _ => .ok none

end Clever
