import Verif.Basic

/-!
# Specification of the rules for ties
-/

namespace Clever.Spec

/-- The tables have the same number of rows, and the rows have the same lengths. -/
def SameShape (X Y : List (List Str)) : Prop := X.map List.length = Y.map List.length

/-- The pairs of cells at the same place, row by row. -/
def cellPairs (X Y : List (List Str)) : List (Str × Str) := X.flatten.zip Y.flatten

/-- How often `e` comes right before `q`. -/
def escapedQuotes (e q : Char) : Str → Nat
  | a :: b :: r => (if a = e ∧ b = q then 1 else 0) + escapedQuotes e q (b :: r)
  | _ => 0

end Clever.Spec
