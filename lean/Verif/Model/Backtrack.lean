import Verif.Model.Regexes

/-!
# The backtracking search with its steps

Library behaviour of the `regex` package: a plain backtracking matcher, without the optimisations of the package.  It
tries the alternatives in order, goes on with what comes after the expression (the continuation `k`), and returns to the
last choice when that fails.  The steps are counted: every visit of a part of the expression is one step, and so is every
character of a back reference that is compared.
-/

namespace Clever

/-- What a search gives: its steps, and the position at which it succeeded. -/
abbrev Found := Nat × Option MState

/-- One more step. -/
def Found.tick (f : Found) : Found := (f.1 + 1, f.2)

/-- Another search after a failure. -/
def Found.orElse (f : Found) (g : Unit → Found) : Found :=
  match f.2 with
  | some _ => f
  | none => (f.1 + (g ()).1, (g ()).2)

/-- The steps of a comparison with the text of a group. -/
def MState.eatSteps : Str → MState → Nat
  | [], _ => 1
  | c :: w, s =>
    match s.rest with
    | [] => 1
    | x :: rest => if x = c then MState.eatSteps w { s with pre := x :: s.pre, rest := rest } + 1 else 1

/-- Greedy repetition: first another iteration, then what comes after it. -/
def starGo (f : MState → (MState → Found) → Found) : Nat → MState → (MState → Found) → Found
  | 0, s, k => (k s).tick
  | n + 1, s, k =>
    ((f s (fun t => if t.rest.length < s.rest.length then starGo f n t k else (1, none))).orElse fun _ => k s).tick

/-- The search for an expression followed by what the continuation accepts. -/
def Re.go : Re → MState → (MState → Found) → Found
  | .eps, s, k => (k s).tick
  | .cls p, s, k =>
    match s.rest with
    | [] => (1, none)
    | c :: rest => if p c then (k { s with pre := c :: s.pre, rest := rest }).tick else (1, none)
  | .seq a b, s, k => (a.go s (fun t => b.go t k)).tick
  | .alt a b, s, k => ((a.go s k).orElse fun _ => b.go s k).tick
  | .star a, s, k => starGo a.go s.rest.length s k
  | .grp i a, s, k => (a.go s (fun t => k { t with caps := (i, s.between t) :: t.caps })).tick
  | .bref i, s, k =>
    match s.group i with
    | none => (1, none)
    | some w =>
      match MState.eat w s with
      | none => (MState.eatSteps w s, none)
      | some t => ((k t).1 + MState.eatSteps w s, (k t).2)
  | .ahead a, s, k =>
    match a.go s (fun t => (0, some t)) with
    | (n, none) => (n + 1, none)
    | (n, some _) => ((k s).1 + n + 1, (k s).2)
  | .nahead a, s, k =>
    match a.go s (fun t => (0, some t)) with
    | (n, none) => ((k s).1 + n + 1, (k s).2)
    | (n, some _) => (n + 1, none)
  | .behind p, s, k =>
    match s.pre with
    | [] => (1, none)
    | c :: _ => if p c then (k s).tick else (1, none)
  | .cond i a b, s, k => (if (s.group i).isSome then a.go s k else b.go s k).tick
  | .bol, s, k => if s.pre = [] then (k s).tick else (1, none)
  | .eol, s, k => if s.rest = [] ∨ s.rest = ['\n'] then (k s).tick else (1, none)

/-- The search of `fullmatch`. -/
def Re.search (r : Re) (s : Str) : Found := r.go ⟨[], s, []⟩ (fun t => if t.rest = [] then (1, some t) else (1, none))

/-- The expressions of `DEFAULT_TYPE_REGEXES`, clevercsv/_regexes.py:289-307. -/
def defaultRegexes (env : PyEnv) : List (String × Re) :=
  [("number_1", reNumber1 env), ("number_2", reNumber2 env), ("number_3", reNumber3 env),
   ("url", reUrl env), ("email", reEmail), ("ipv4", reIpv4 env),
   ("unicode_alphanum", reAlphanum env), ("unicode_alphanum_quoted", reAlphanumQuoted env),
   ("time_hhmmss", reTimeHHMMSS), ("time_hhmm", reTimeHHMM1), ("time_HHMM", reTimeHHMM2),
   ("time_HH", reTimeHH), ("time_hmm", reTimeHMM), ("time_hhmmsszz", reTimeHHMMSSZZ),
   ("currency", reCurrency env), ("unix_path", reUnixPath), ("date", reDate env)]

/-- The search of `sub` at one position. -/
def Re.searchAt (r : Re) (pre s : Str) : Found := r.go ⟨pre, s, []⟩ (fun t => (1, some t))

/-- `pat.sub(rep, s)` with the search at every position at which no match is being skipped: the steps and the text. -/
def Re.subRun (r : Re) (rep : Str) : Nat → Str → Str → Nat × Str
  | _, _, [] => (0, [])
  | k + 1, pre, c :: rest => r.subRun rep k (c :: pre) rest
  | 0, pre, c :: rest =>
    match r.searchAt pre (c :: rest) with
    | (n, none) => ((r.subRun rep 0 (c :: pre) rest).1 + n, c :: (r.subRun rep 0 (c :: pre) rest).2)
    | (n, some t) =>
      if t.rest.length ≤ rest.length then
        ((r.subRun rep (rest.length - t.rest.length) (c :: pre) rest).1 + n,
          rep ++ (r.subRun rep (rest.length - t.rest.length) (c :: pre) rest).2)
      else ((r.subRun rep 0 (c :: pre) rest).1 + n, c :: (r.subRun rep 0 (c :: pre) rest).2)

/-- The steps of `sub`, with a search at every position at which no match is being skipped. -/
def Re.subSteps (r : Re) : Nat → Str → Str → Nat
  | _, _, [] => 0
  | k + 1, pre, c :: rest => r.subSteps k (c :: pre) rest
  | 0, pre, c :: rest =>
    (r.searchAt pre (c :: rest)).1 +
      match (r.searchAt pre (c :: rest)).2 with
      | none => r.subSteps 0 (c :: pre) rest
      | some t =>
        if t.rest.length ≤ rest.length then r.subSteps (rest.length - t.rest.length) (c :: pre) rest
        else r.subSteps 0 (c :: pre) rest

end Clever
