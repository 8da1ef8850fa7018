import Verif.Model.BreakTies
import Verif.Model.DialectOrder
import Verif.Model.PatternScore
import Verif.Model.TypeCache

/-!
# The consistency measure (`clevercsv/consistency.py`)

Scores are rational numbers, rounded to doubles (`fl`); the incumbent score is `none` for `-float("inf")`.  The dictionary of
scores is the list of its items.  The `verbose` output is not modelled.
-/

namespace Clever

/-- `ConsistencyScore`, clevercsv/consistency.py:28-47. -/
structure ConsistencyScore where
  P : ℚ
  T : Option ℚ
  Q : Option ℚ
deriving DecidableEq, Repr

/-- `scores[d] = s`. -/
def dictSet {K V : Type} [DecidableEq K] : List (K × V) → K → V → List (K × V)
  | [], k, v => [(k, v)]
  | (k', v') :: rest, k, v => if k' = k then (k', v) :: rest else (k', v') :: dictSet rest k v

/-- Insert a dialect before the first one that is not smaller. -/
def insertSorted (d : SimpleDialect) : List SimpleDialect → Except PyExc (List SimpleDialect)
  | [] => .ok [d]
  | x :: xs =>
    match x.lt d with
    | .error e => .error e
    | .ok true =>
      match insertSorted d xs with
      | .error e => .error e
      | .ok l => .ok (x :: l)
    | .ok false => .ok (d :: x :: xs)

/-- `sorted(dialects)`.  For dialects whose components are strings the order is total and the result
does not depend on the sorting algorithm (see `C33_best` and `sortDialects_spec`). -/
def sortDialects : List SimpleDialect → Except PyExc (List SimpleDialect)
  | [] => .ok []
  | x :: xs =>
    match sortDialects xs with
    | .error e => .error e
    | .ok l => insertSorted x l

/-- `max(incumbent_score, Q)`. -/
def maxScore (inc : Option ℚ) (q : ℚ) : ℚ :=
  match inc with
  | none => q
  | some i => max i q

/-- `P < incumbent_score`. -/
def belowIncumbent (p : ℚ) (inc : Option ℚ) : Bool :=
  match inc with
  | none => false
  | some i => p < i

/-- The loop of `compute_consistency_scores`, clevercsv/consistency.py:160-179, as a function of the
functions that compute the scores. -/
def scoreLoop (pat : SimpleDialect → Except PyExc ℚ)
    (typ : TypeCache → SimpleDialect → Except PyExc ℚ × TypeCache) (skip : Bool) :
    List SimpleDialect → Option ℚ → TypeCache → List (SimpleDialect × ConsistencyScore) →
      Except PyExc (List (SimpleDialect × ConsistencyScore)) × TypeCache
  | [], _, cache, scores => (.ok scores, cache)
  | d :: ds, inc, cache, scores =>
    match pat d with
    | .error e => (.error e, cache)
    | .ok P =>
      if belowIncumbent P inc && skip then
        scoreLoop pat typ skip ds inc cache (dictSet scores d ⟨P, none, none⟩)
      else
        match typ cache d with
        | (.error e, cache') => (.error e, cache')
        | (.ok T, cache') =>
          scoreLoop pat typ skip ds (some (maxScore inc (fl (P * T)))) cache'
            (dictSet scores d ⟨P, some T, some (fl (P * T))⟩)

/-- `ConsistencyDetector.compute_consistency_scores`, clevercsv/consistency.py:132-179. -/
def computeConsistencyScores (env : PyEnv) (cap : Option Nat) (skip : Bool) (cache : TypeCache)
    (limit : Int) (data : Str) (dialects : List SimpleDialect) :
    Except PyExc (List (SimpleDialect × ConsistencyScore)) × TypeCache :=
  match sortDialects dialects with
  | .error e => (.error e, cache)
  | .ok ds =>
    scoreLoop (fun d => patternScore data d) (fun c d => computeTypeScore env cap c limit data d) skip
      ds none cache []

/-- The loop that computes `Qmax`, clevercsv/consistency.py:186-191. -/
def qMax : List (SimpleDialect × ConsistencyScore) → Option ℚ → Option ℚ
  | [], m => m
  | (_, s) :: rest, m =>
    match s.Q with
    | none => qMax rest m
    | some q => qMax rest (some (maxScore m q))

/-- `get_best_dialects`, clevercsv/consistency.py:181-192. -/
def getBestDialects (scores : List (SimpleDialect × ConsistencyScore)) : List SimpleDialect :=
  match qMax scores none with
  | none => []
  | some m => (scores.filter (fun p => p.2.Q = some m)).map (·.1)

/-- `ConsistencyDetector.detect`, clevercsv/consistency.py:90-130: the result, and the field size limit
afterwards.  `limit` is the field size limit before the call. -/
def consistencyDetect (env : PyEnv) (ord : SetOrder) (cap : Option Nat) (skip : Bool) (limit : Int)
    (data : Str) (delimiters : Option (List Str)) : Except PyExc (Option SimpleDialect) × Int :=
  let dialects := getDialects env ord data delimiters
  let newLimit : Int := data.length + 1
  match (computeConsistencyScores env cap skip [] newLimit data dialects).1 with
  | .error e => (.error e, newLimit)
  | .ok scores =>
    match getBestDialects scores with
    | [d] => (.ok (some d), limit)
    | best =>
      match tieBreaker ord newLimit data best with
      | .error e => (.error e, newLimit)
      | .ok r => (.ok r, limit)

end Clever
