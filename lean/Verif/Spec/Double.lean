import Verif.Spec.Score
import Mathlib.Algebra.Order.Field.Power

/-!
# Specification of IEEE 754 double precision numbers (binary64), for numbers that are not negative
-/

namespace Clever.Spec

/-- A finite double: a significand below `2 ^ 53` times a power of two with exponent from -1074 to 971. -/
def IsDouble (x : ℚ) : Prop :=
  ∃ (m : Nat) (z : Int), m < 2 ^ 53 ∧ -1074 ≤ z ∧ z ≤ 971 ∧ x = (m : ℚ) * (2 : ℚ) ^ z

/-- A finite double whose last bit is zero.  The significand has all 53 bits, unless the number is subnormal. -/
def EvenDouble (x : ℚ) : Prop :=
  ∃ (m : Nat) (z : Int), m < 2 ^ 53 ∧ -1074 ≤ z ∧ z ≤ 971 ∧ (2 ^ 52 ≤ m ∨ z = -1074) ∧ m % 2 = 0 ∧
    x = (m : ℚ) * (2 : ℚ) ^ z

/-- `x` is the result of an operation with the exact result `q`, in the mode "round to nearest, ties to even", and the
operation does not overflow. -/
structure Rounds (q x : ℚ) : Prop where
  range : q < (2 : ℚ) ^ (1024 : Int) - (2 : ℚ) ^ (970 : Int)
  double : IsDouble x
  nearest : ∀ y, IsDouble y → |x - q| ≤ |y - q|
  ties : ∀ y, IsDouble y → y ≠ x → |x - q| = |y - q| → EvenDouble x

/-- The loop of the pattern score over the row patterns, each with the number `n` of its rows and the number `l` of its
cells, from the sum `P` to the sum `R`:  `P += n * (max(eps, l - 1) / l)`.  The two integers have to be doubles too. -/
def SumRuns (eps : ℚ) : List (Nat × Nat) → ℚ → ℚ → Prop
  | [], P, R => R = P
  | (n, l) :: rest, P, R =>
    IsDouble n ∧ IsDouble l ∧ ∃ a b c, Rounds (max eps ((l : ℚ) - 1) / l) a ∧ Rounds (n * a) b ∧ Rounds (P + b) c ∧
      SumRuns eps rest c R

/-- The pattern score of the row patterns of an abstraction, computed in double precision. -/
def ScoreRuns (eps : ℚ) (rows : List Str) (S : ℚ) : Prop :=
  IsDouble ((firsts rows).length : ℚ) ∧
  ∃ P, SumRuns eps ((firsts rows).map fun p => ((rows.filter fun r => decide (r = p)).length, (splitOn 'D' p).length)) 0 P ∧
    Rounds (P / ((firsts rows).length : ℚ)) S

end Clever.Spec
