import Verif.Model.PyEnv

/-!
# Regular expressions

Library behaviour of the `regex` package, as far as the patterns of CleverCSV use it: ordered
backtracking.  `Re.run` lists the ways in which an expression can match at a position, in the
order in which the engine tries them; `fullmatch` returns the first one that reaches the end of the
string, `sub` replaces the first one at every position from left to right.
-/

namespace Clever

inductive Re where
  /-- the empty expression -/
  | eps
  /-- a character class -/
  | cls (p : Char → Bool)
  | seq (a b : Re)
  /-- `a|b` -/
  | alt (a b : Re)
  /-- `a*`, greedy -/
  | star (a : Re)
  /-- a capturing group -/
  | grp (k : Nat) (a : Re)
  /-- `(?P=k)` -/
  | bref (k : Nat)
  /-- `(?=a)` -/
  | ahead (a : Re)
  /-- `(?!a)` -/
  | nahead (a : Re)
  /-- `(?<=p)` for a character class -/
  | behind (p : Char → Bool)
  /-- `(?(k)a|b)` -/
  | cond (k : Nat) (a b : Re)
  /-- `^` -/
  | bol
  /-- `$`: at the end, or before a line feed at the end -/
  | eol

/-- Position in the string: the part before it (reversed), the part after it, and the groups
captured so far (the last one first). -/
structure MState where
  pre : Str
  rest : Str
  caps : List (Nat × Str)
deriving DecidableEq, Repr

/-- The text of a group. -/
def MState.group (s : MState) (k : Nat) : Option Str :=
  (s.caps.find? (fun p => p.1 = k)).map Prod.snd

/-- Advance over the text `w`, if it is what comes next. -/
def MState.eat : Str → MState → Option MState
  | [], s => some s
  | c :: w, s =>
    match s.rest with
    | [] => none
    | x :: rest => if x = c then MState.eat w { s with pre := x :: s.pre, rest := rest } else none

/-- The text between two positions. -/
def MState.between (s t : MState) : Str := s.rest.take (s.rest.length - t.rest.length)

/-- Greedy repetition of `f`; an iteration that consumes nothing ends the repetition. -/
def starRun (f : MState → List MState) : Nat → MState → List MState
  | 0, s => [s]
  | n + 1, s =>
    ((f s).filter (fun t => t.rest.length < s.rest.length)).flatMap (starRun f n) ++ [s]

/-- The matches of an expression at a position, in the order of the backtracking search. -/
def Re.run : Re → MState → List MState
  | .eps, s => [s]
  | .cls p, s =>
    match s.rest with
    | [] => []
    | c :: rest => if p c then [{ s with pre := c :: s.pre, rest := rest }] else []
  | .seq a b, s => (a.run s).flatMap b.run
  | .alt a b, s => a.run s ++ b.run s
  | .star a, s => starRun a.run s.rest.length s
  | .grp k a, s => (a.run s).map (fun t => { t with caps := (k, s.between t) :: t.caps })
  | .bref k, s =>
    match s.group k with
    | none => []
    | some w => (MState.eat w s).toList
  | .ahead a, s => if (a.run s).isEmpty then [] else [s]
  | .nahead a, s => if (a.run s).isEmpty then [s] else []
  | .behind p, s =>
    match s.pre with
    | [] => []
    | c :: _ => if p c then [s] else []
  | .cond k a b, s => if (s.group k).isSome then a.run s else b.run s
  | .bol, s => if s.pre = [] then [s] else []
  | .eol, s => if s.rest = [] ∨ s.rest = ['\n'] then [s] else []

/-- `pat.fullmatch(s)`. -/
def Re.fullmatch (r : Re) (s : Str) : Option MState :=
  (r.run ⟨[], s, []⟩).find? (fun t => t.rest = [])

/-- `pat.sub(rep, s)` for a pattern that does not match the empty string.  The first argument is
the number of characters of the current match that are still to be skipped. -/
def Re.subAux (r : Re) (rep : Str) : Nat → Str → Str → Str
  | _, _, [] => []
  | k + 1, pre, c :: rest => r.subAux rep k (c :: pre) rest
  | 0, pre, c :: rest =>
    match (r.run ⟨pre, c :: rest, []⟩).head? with
    | none => c :: r.subAux rep 0 (c :: pre) rest
    | some t =>
      if t.rest.length ≤ rest.length then
        rep ++ r.subAux rep (rest.length - t.rest.length) (c :: pre) rest
      else c :: r.subAux rep 0 (c :: pre) rest

def Re.sub (r : Re) (rep : Str) (s : Str) : Str := r.subAux rep 0 [] s

/-- A literal character. -/
def Re.chr (c : Char) : Re := .cls (fun x => x = c)

/-- A literal text. -/
def Re.lit : List Char → Re
  | [] => .eps
  | [c] => .chr c
  | c :: cs => .seq (.chr c) (Re.lit cs)

/-- `a?`, greedy. -/
def Re.opt (a : Re) : Re := .alt a .eps

/-- `a+`, greedy. -/
def Re.plus (a : Re) : Re := .seq a (.star a)

/-- `a{n}`. -/
def Re.times (a : Re) : Nat → Re
  | 0 => .eps
  | 1 => a
  | n + 1 => .seq a (Re.times a n)

/-- `a{0,n}`, greedy. -/
def Re.upto (a : Re) : Nat → Re
  | 0 => .eps
  | n + 1 => .opt (.seq a (Re.upto a n))

/-- `a{m,n}`, greedy. -/
def Re.between (a : Re) (m n : Nat) : Re := .seq (a.times m) (a.upto (n - m))

/-- `a{m,}`, greedy. -/
def Re.atLeast (a : Re) (m : Nat) : Re := .seq (a.times m) (.star a)

/-- Concatenation of several expressions. -/
def Re.cat : List Re → Re
  | [] => .eps
  | [r] => r
  | r :: rs => .seq r (Re.cat rs)

/-- Alternatives. -/
def Re.any : List Re → Re
  | [] => .cls (fun _ => false)
  | [r] => r
  | r :: rs => .alt r (Re.any rs)

end Clever
