import Verif.Model.Abstraction
import Verif.Model.Double

/-!
# The pattern score (`clevercsv/detect_pattern.py`)

Floats are rational numbers, and each operation rounds its result (`fl`).  Simplification: the conversion of a count to
a float is exact, as it is below `2 ** 53`.
-/

namespace Clever

/-- `c[k] += 1` on a `dict` with insertion order. -/
def counterAdd {α : Type} [DecidableEq α] : List (α × Nat) → α → List (α × Nat)
  | [], k => [(k, 1)]
  | (k', n) :: rest, k => if k' = k then (k', n + 1) :: rest else (k', n) :: counterAdd rest k

/-- `collections.Counter(xs)`: keys in the order of their first occurrence. -/
def counter {α : Type} [DecidableEq α] (xs : List α) : List (α × Nat) := xs.foldl counterAdd []

/-- `DEFAULT_EPS_PAT`, clevercsv/detect_pattern.py:20. -/
def defaultEpsPat : ℚ := fl (1 / 1000)

/-- `len(pat_k.split("D"))`, clevercsv/detect_pattern.py:50. -/
def patCells (p : Str) : Nat := (splitChar 'D' p).length

/-- The loop and the division, clevercsv/detect_pattern.py:47-53, for a given abstraction. -/
def scoreOfAbstraction (eps : ℚ) (A : Str) : ℚ :=
  let rowPatterns := counter (splitChar 'R' A)
  let P := rowPatterns.foldl
    (fun P kv => fl (P + fl ((kv.2 : ℚ) * fl (max eps ((patCells kv.1 : ℚ) - 1) / (patCells kv.1 : ℚ))))) 0
  fl (P / (rowPatterns.length : ℚ))

/-- `pattern_score(data, dialect, eps)`, clevercsv/detect_pattern.py:25-53. -/
def patternScore (data : Str) (dialect : SimpleDialect) (eps : ℚ := defaultEpsPat) :
    Except PyExc ℚ :=
  match makeAbstraction data dialect with
  | .error e => .error e
  | .ok A => .ok (scoreOfAbstraction eps A)

end Clever
