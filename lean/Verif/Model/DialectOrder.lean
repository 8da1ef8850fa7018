import Verif.Model.Dialect

/-!
# Comparison of dialects (clevercsv/dialect.py:148-174)
-/

namespace Clever

/-- `a < b` for Python strings: lexicographic by code points. -/
def strLt : Str → Str → Bool
  | [], [] => false
  | [], _ :: _ => true
  | _ :: _, [] => false
  | a :: as, b :: bs => if a = b then strLt as bs else a.toNat < b.toNat

/-- `a < b` for values that may be `None`, which cannot be ordered. -/
def optLt (a b : Option Str) : Except PyExc Bool :=
  match a, b with
  | some a, some b => .ok (strLt a b)
  | _, _ => .error (.typeError "'<' not supported")

/-- `a < b` for `bool`. -/
def boolLt (a b : Bool) : Bool := !a && b

/-- Comparison of the key tuples, clevercsv/dialect.py:174: tuples are compared at the first index
at which the components differ. -/
def keyLt (a b : SimpleDialect) : Except PyExc Bool :=
  if a.delimiter ≠ b.delimiter then optLt a.delimiter b.delimiter
  else if a.quotechar ≠ b.quotechar then optLt a.quotechar b.quotechar
  else if a.escapechar ≠ b.escapechar then optLt a.escapechar b.escapechar
  else .ok (boolLt a.strict b.strict)

/-- `SimpleDialect.__lt__`, clevercsv/dialect.py:161-174 (for two `SimpleDialect`s). -/
def SimpleDialect.lt (a b : SimpleDialect) : Except PyExc Bool :=
  if a.delimiter = some [','] ∧ ¬ b.delimiter = some [','] then .ok true
  else if b.delimiter = some [','] ∧ ¬ a.delimiter = some [','] then .ok false
  else if a.delimiter = some [';'] ∧ ¬ b.delimiter = some [';'] then .ok true
  else if b.delimiter = some [';'] ∧ ¬ a.delimiter = some [';'] then .ok false
  else keyLt a b

/-- `__eq__`, clevercsv/dialect.py:156-159. -/
def SimpleDialect.eq (a b : SimpleDialect) : Bool :=
  (a.delimiter, a.quotechar, a.escapechar, a.strict) =
    (b.delimiter, b.quotechar, b.escapechar, b.strict)

/-- `__le__` as derived by `functools.total_ordering` (clevercsv/dialect.py:28). -/
def SimpleDialect.le (a b : SimpleDialect) : Except PyExc Bool := do
  return (← a.lt b) || a.eq b

/-- `__gt__` as derived by `functools.total_ordering`. -/
def SimpleDialect.gt (a b : SimpleDialect) : Except PyExc Bool := do
  return !(← a.lt b) && !a.eq b

/-- `__ge__` as derived by `functools.total_ordering`. -/
def SimpleDialect.ge (a b : SimpleDialect) : Except PyExc Bool := do
  return !(← a.lt b)

end Clever
