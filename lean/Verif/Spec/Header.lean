import Verif.Model.HasHeader

/-!
# What `has_header` is meant to compute, from the rows of the sample
-/

namespace Clever.Spec

/-- The kind of a cell: an integer, else a float, else a complex number, else a string. -/
def kind (casts : Casts) (cell : Str) : Nat :=
  if casts.int cell then 0 else if casts.float cell then 1 else if casts.complex cell then 2 else 3

/-- Two cells look alike: the same kind of number, or two strings of the same length. -/
def alike (casts : Casts) (a b : Str) : Bool :=
  kind casts a = kind casts b && (kind casts a ≠ 3 || a.length = b.length)

/-- Does the header cell fit in a column that consists of cells alike `c`? -/
def headerFits (casts : Casts) (header c : Str) : Bool :=
  if kind casts c = 0 then casts.int header
  else if kind casts c = 1 then casts.float header
  else if kind casts c = 2 then casts.complex header
  else header.length = c.length

/-- The vote of a column: none if its cells are not all alike; otherwise for a header if the header cell
does not fit, and against if it does.  A column without cells votes for a header. -/
def columnVote (casts : Casts) (header : Str) (cells : List Str) : Int :=
  match cells with
  | [] => 1
  | c :: cs => if cs.all (alike casts c) then (if headerFits casts header c then -1 else 1) else 0

/-- The votes of all columns, from the rows that are as long as the header. -/
def votes (casts : Casts) (header : List Str) (rows : List (List Str)) : Int :=
  ((List.range header.length).map fun i =>
    columnVote casts (header.getD i [])
      ((rows.filter (fun r => r.length = header.length)).map (fun r => r.getD i []))).sum

/-- The number of rows after the header that are looked at. -/
def window (maxRows : Int) : Nat := (maxRows + 1).toNat

/-- `has_header`, from the rows of the sample and the error that ends them.  An error counts if it turns
up before or just after the rows that are looked at. -/
def hasHeader (casts : Casts) (maxRows : Int) (rows : List (List Str)) (err : Option PyExc) :
    Except PyExc Bool :=
  match rows, err with
  | [], none => .error .stopIteration
  | [], some e => .error e
  | header :: body, none => .ok (decide (votes casts header (body.take (window maxRows)) > 0))
  | header :: body, some e =>
    if body.length ≤ window maxRows then .error e
    else .ok (decide (votes casts header (body.take (window maxRows)) > 0))

end Clever.Spec
