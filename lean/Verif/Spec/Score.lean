import Verif.Spec.Parse
import Mathlib.Algebra.Order.Field.Rat
import Mathlib.Data.List.Dedup
import Mathlib.Algebra.BigOperators.Group.List.Basic

/-!
# Specification of the pattern score
-/

namespace Clever.Spec

/-- The distinct elements of a list in the order of their first occurrences. -/
def firsts {α : Type} [DecidableEq α] : List α → List α
  | [] => []
  | x :: xs => x :: (firsts xs).filter (fun y => decide (y ≠ x))

/-- The pattern score in exact arithmetic: the sum over the row patterns of `max(eps, L - 1) / L`, where `L` is the
number of cells of the pattern, divided by the number of distinct row patterns. -/
def exactScore (eps : ℚ) (rows : List Str) : ℚ :=
  (rows.map fun p => max eps (((splitOn 'D' p).length : ℚ) - 1) / ((splitOn 'D' p).length : ℚ)).sum /
    (rows.dedup.length : ℚ)

/-- Two numbers that differ by at most `n` roundings to 53 binary digits. -/
def Near (n : Nat) (x y : ℚ) : Prop := y * (1 - 1 / 2 ^ 53) ^ n ≤ x ∧ x ≤ y * (1 + 1 / 2 ^ 53) ^ n

end Clever.Spec
