import Mathlib.Algebra.Order.Field.Rat

/-!
# Floating point numbers

The scores of clevercsv/detect_pattern.py, detect_type.py and consistency.py are Python floats, that is IEEE 754
double precision numbers.  A double is modelled by its value, a rational number, and each arithmetic operation by the
exact operation followed by `fl`, which rounds to the nearest double.

Simplification: the exponent is unbounded, so there is no overflow, no underflow and no subnormal number.  The theorems
C102 show that these do not occur in the scores of texts below `2 ** 53` characters.
-/

namespace Clever

/-- `2 ** z`. -/
def pow2 : Int → ℚ
  | .ofNat n => ((2 ^ n : Nat) : ℚ)
  | .negSucc n => 1 / ((2 ^ (n + 1) : Nat) : ℚ)

/-- The exponent of a positive number: `2 ** expo q <= q < 2 ** (expo q + 1)`. -/
def expo (q : ℚ) : Int :=
  let z : Int := (Nat.log2 q.num.natAbs : Int) - (Nat.log2 q.den : Int)
  if pow2 z ≤ q then z else z - 1

/-- The nearest integer, and the even one of two. -/
def roundEven (x : ℚ) : Int :=
  let f := x.floor
  let r := x - (f : ℚ)
  if r < 1 / 2 then f else if 1 / 2 < r then f + 1 else if f % 2 = 0 then f else f + 1

/-- The double nearest to a number that is not negative: 53 significant binary digits, ties to even. -/
def fl (q : ℚ) : ℚ :=
  if q ≤ 0 then 0
  else
    let u := pow2 (expo q - 52)
    (roundEven (q / u) : ℚ) * u

end Clever
