import Verif.Model.TypeDetect

/-!
# The cached type score of the consistency detector (`clevercsv/consistency.py`)

`functools.lru_cache` is a library function: its behaviour is modelled from the CPython
documentation.  A cache is the list of its entries, the most recently used one first.  The capacity
is `some n`, or `none` for an unbounded cache.  A call that raises is not cached.
-/

namespace Clever

/-- A call of a function decorated with `lru_cache(capacity)`: the result and the new cache. -/
def lruCall {K V E : Type} [DecidableEq K] (cap : Option Nat) (f : K → Except E V)
    (cache : List (K × V)) (k : K) : Except E V × List (K × V) :=
  if cap = some 0 then (f k, cache)
  else
    match cache.find? (fun p => p.1 = k) with
    | some p => (.ok p.2, (k, p.2) :: cache.filter (fun p => p.1 ≠ k))
    | none =>
      match f k with
      | .error e => (.error e, cache)
      | .ok v =>
        let entries := (k, v) :: cache
        (.ok v, match cap with
          | none => entries
          | some n => entries.take n)

/-- A sequence of calls; the results are in the order of the calls. -/
def lruCalls {K V E : Type} [DecidableEq K] (cap : Option Nat) (f : K → Except E V) :
    List (K × V) → List K → List (Except E V) × List (K × V)
  | cache, [] => ([], cache)
  | cache, k :: ks =>
    let r := lruCall cap f cache k
    let rs := lruCalls cap f r.2 ks
    (r.1 :: rs.1, rs.2)

/-- The cache of a `ConsistencyDetector`: the key is `(cell, is_quoted)`. -/
abbrev TypeCache := List ((Str × Bool) × Bool)

/-- The loop of `compute_type_score` over the cells, clevercsv/consistency.py:198-203. -/
def countCached (cap : Option Nat) (f : Str × Bool → Except PyExc Bool) :
    TypeCache → List (Str × Bool) → Except PyExc Nat × TypeCache
  | cache, [] => (.ok 0, cache)
  | cache, c :: cs =>
    let r := lruCall cap f cache c
    match r.1 with
    | .error e => (.error e, r.2)
    | .ok b =>
      let rs := countCached cap f r.2 cs
      match rs.1 with
      | .error e => (.error e, rs.2)
      | .ok n => (.ok ((if b then 1 else 0) + n), rs.2)

/-- `ConsistencyDetector.compute_type_score`, clevercsv/consistency.py:194-206. -/
def computeTypeScore (env : PyEnv) (cap : Option Nat) (cache : TypeCache) (limit : Int) (data : Str)
    (dialect : SimpleDialect) (eps : ℚ := defaultEpsType) : Except PyExc ℚ × TypeCache :=
  let g := parseStringQuoted limit dialect data
  let r := countCached cap (fun c => isKnownType env c.1 c.2) cache g.1.flatten
  match r.1 with
  | .error e => (.error e, r.2)
  | .ok n =>
    match g.2 with
    | some e => (.error e, r.2)
    | none => (.ok (typeRatio eps n g.1.flatten.length), r.2)

end Clever
