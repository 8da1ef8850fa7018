import Verif.Model.TypeDetect
import Verif.Model.DictIO

/-!
# `TypeDetector` with given patterns (`clevercsv/detect_type.py`)

The patterns are values with a method `fullmatch`.  Model/TypeDetect has the same functions for the default patterns,
which raise nothing.
-/

namespace Clever

/-- The result of `pat.fullmatch(cell)` if it is not `None`: `m.group(1)` is a text, `None` for a group that takes no
part in the match, or raises `IndexError` if there is no group. -/
structure PatMatch where
  group1 : Except PyExc (Option Str)

/-- A pattern by its method `fullmatch`. -/
abbrev Pat := Str → Option PatMatch

/-- A dictionary of patterns. -/
abbrev Patterns := List (String × Pat)

/-- An expression as a pattern. -/
def Pat.ofRe (r : Re) : Pat := fun s => (r.fullmatch s).map fun m => ⟨.ok (m.group 1)⟩

/-- `DEFAULT_TYPE_REGEXES`, clevercsv/_regexes.py:289-307. -/
def defaultPatterns (env : PyEnv) : Patterns :=
  [("number_1", .ofRe (reNumber1 env)), ("number_2", .ofRe (reNumber2 env)), ("number_3", .ofRe (reNumber3 env)),
   ("url", .ofRe (reUrl env)), ("email", .ofRe reEmail), ("ipv4", .ofRe (reIpv4 env)),
   ("unicode_alphanum", .ofRe (reAlphanum env)), ("unicode_alphanum_quoted", .ofRe (reAlphanumQuoted env)),
   ("time_hhmmss", .ofRe reTimeHHMMSS), ("time_hhmm", .ofRe reTimeHHMM1), ("time_HHMM", .ofRe reTimeHHMM2),
   ("time_HH", .ofRe reTimeHH), ("time_hmm", .ofRe reTimeHMM), ("time_hhmmsszz", .ofRe reTimeHHMMSSZZ),
   ("currency", .ofRe (reCurrency env)), ("unix_path", .ofRe reUnixPath), ("date", .ofRe (reDate env))]

/-- `patterns or DEFAULT_TYPE_REGEXES.copy()`, clevercsv/detect_type.py:30. -/
def patternsOr (env : PyEnv) : Option Patterns → Patterns
  | none => defaultPatterns env
  | some [] => defaultPatterns env
  | some p => p

/-- `a and b`. -/
def pyAnd (a b : Except PyExc Bool) : Except PyExc Bool :=
  match a with
  | .ok true => b
  | r => r

/-- `a or b`, also `if a: return True` followed by `return b`. -/
def pyOr (a b : Except PyExc Bool) : Except PyExc Bool :=
  match a with
  | .ok false => b
  | r => r

/-- `TypeDetector._run_regex`, clevercsv/detect_type.py:66-71. -/
def runPat (env : PyEnv) (sw : Bool) (P : Patterns) (name : String) (cell : Str) : Except PyExc Bool :=
  match dictGet name P with
  | none => .error .assertionError
  | some p => .ok (p (maybeStrip env sw cell)).isSome

/-- `is_number`, clevercsv/detect_type.py:73-82. -/
def isNumberP (env : PyEnv) (sw : Bool) (P : Patterns) (cell : Str) : Except PyExc Bool :=
  if cell = [] then .ok false
  else pyOr (runPat env sw P "number_1" cell) (pyOr (runPat env sw P "number_2" cell) (runPat env sw P "number_3" cell))

/-- `is_date`, clevercsv/detect_type.py:98-105. -/
def isDateP (env : PyEnv) (sw : Bool) (P : Patterns) (cell : Str) : Except PyExc Bool :=
  let cell := maybeStrip env sw cell
  if startsWithDigit env cell then runPat env sw P "date" cell else .ok false

/-- `is_time`, clevercsv/detect_type.py:107-118. -/
def isTimeP (env : PyEnv) (sw : Bool) (P : Patterns) (cell : Str) : Except PyExc Bool :=
  let cell := maybeStrip env sw cell
  if startsWithDigit env cell then
    pyOr (runPat env sw P "time_hmm" cell) (pyOr (runPat env sw P "time_hhmm" cell)
      (pyOr (runPat env sw P "time_hhmmss" cell) (runPat env sw P "time_hhmmsszz" cell)))
  else .ok false

/-- `is_percentage`, clevercsv/detect_type.py:123-124. -/
def isPercentageP (env : PyEnv) (sw : Bool) (P : Patterns) (cell : Str) : Except PyExc Bool :=
  if endsWith1 cell '%' then isNumberP env sw P (rstrip1 cell '%') else .ok false

/-- `is_currency`, clevercsv/detect_type.py:126-135.  For `None`, `is_number` calls `None.strip()`, or `fullmatch(None)`
if nothing is to be stripped. -/
def isCurrencyP (env : PyEnv) (sw : Bool) (P : Patterns) (cell : Str) : Except PyExc Bool :=
  match dictGet "currency" P with
  | none => .error .assertionError
  | some p =>
    match p cell with
    | none => .ok false
    | some m =>
      match m.group1 with
      | .error e => .error e
      | .ok (some grp) => isNumberP env sw P grp
      | .ok none =>
        if sw then .error (.attributeError "strip")
        else
          match dictGet "number_1" P with
          | none => .error .assertionError
          | some _ => .error (.typeError "expected string or buffer")

/-- Auxiliary for `is_datetime`, clevercsv/detect_type.py:164-186. -/
def isOffsetTimeP (env : PyEnv) (sw : Bool) (P : Patterns) (sep : Char) (t : Str) : Except PyExc Bool :=
  match splitAt1 sep t with
  | a :: b :: _ =>
    pyAnd (isTimeP env sw P a)
      (pyOr (isTimeP env sw P b) (pyOr (runPat env sw P "time_HHMM" b) (runPat env sw P "time_HH" b)))
  | _ => .ok false

/-- Auxiliary for `is_datetime`, clevercsv/detect_type.py:158-187. -/
def isIsoTimeP (env : PyEnv) (sw : Bool) (P : Patterns) (t : Str) : Except PyExc Bool :=
  pyOr (if endsWith1 t 'Z' then isTimeP env sw P t.dropLast else .ok false)
    (pyOr (isTimeP env sw P t)
      (if t.contains '+' then isOffsetTimeP env sw P '+' t
       else if t.contains '-' then isOffsetTimeP env sw P '-' t
       else .ok false))

/-- `is_datetime`, clevercsv/detect_type.py:137-187. -/
def isDatetimeP (env : PyEnv) (sw : Bool) (P : Patterns) (cell : Str) : Except PyExc Bool :=
  if !startsWithDigit env cell then .ok false
  else if cell.contains ' ' then
    match splitAt1 ' ' cell with
    | [a, b] => pyAnd (isDateP env sw P a) (isTimeP env sw P b)
    | _ => .ok false
  else if cell.contains 'T' then
    match splitAt1 'T' cell with
    | [a, b] => pyAnd (isDateP env sw P a) (isIsoTimeP env sw P b)
    | _ => .ok false
  else .ok false

/-- `is_unicode_alphanum`, clevercsv/detect_type.py:93-96. -/
def isUnicodeAlphanumP (env : PyEnv) (sw : Bool) (P : Patterns) (cell : Str) (isQuoted : Bool) : Except PyExc Bool :=
  if isQuoted then runPat env sw P "unicode_alphanum_quoted" cell else runPat env sw P "unicode_alphanum" cell

/-- `_type_tests`, clevercsv/detect_type.py:34-51. -/
def typeTestsP (env : PyEnv) (sw : Bool) (P : Patterns) : List (String × (Str → Bool → Except PyExc Bool)) :=
  [("empty", fun c _ => .ok (c = [])),
   ("url", fun c _ => runPat env sw P "url" c),
   ("email", fun c _ => runPat env sw P "email" c),
   ("ipv4", fun c _ => runPat env sw P "ipv4" c),
   ("number", fun c _ => isNumberP env sw P c),
   ("time", fun c _ => isTimeP env sw P c),
   ("percentage", fun c _ => isPercentageP env sw P c),
   ("currency", fun c _ => isCurrencyP env sw P c),
   ("unix_path", fun c _ => runPat env sw P "unix_path" c),
   ("nan", fun c _ => .ok (isNan env c)),
   ("date", fun c _ => isDateP env sw P c),
   ("datetime", fun c _ => isDatetimeP env sw P c),
   ("unicode_alphanum", fun c q => isUnicodeAlphanumP env sw P c q),
   ("bytearray", fun c _ => .ok (isBytearray c)),
   ("json", fun c _ => isJsonObj env c)]

/-- `list_known_types`, clevercsv/detect_type.py:53-54. -/
def knownTypes (env : PyEnv) (sw : Bool) (P : Patterns) : List String := (typeTestsP env sw P).map Prod.fst

/-- `TypeDetector(patterns, strip_whitespace).detect_type(cell, is_quoted)`, clevercsv/detect_type.py:25-32, 59-64. -/
def detectTypeP (env : PyEnv) (patterns : Option Patterns) (cell : Str) (isQuoted : Bool := false) (sw : Bool := true) :
    Except PyExc (Option String) :=
  firstType (maybeStrip env sw cell) isQuoted (typeTestsP env sw (patternsOr env patterns))

end Clever
