import Verif.Model.Regexes
import Verif.Model.JsonValid
import Verif.Model.Dialect
import Verif.Model.Double

/-!
# Type detection (`clevercsv/detect_type.py`)

Simplification: the detector uses the default patterns (a custom `patterns` dictionary is not
modelled).
-/

namespace Clever

/-- `cell.strip() if self.strip_whitespace else cell`; `sw` is `strip_whitespace`. -/
def maybeStrip (env : PyEnv) (sw : Bool) (cell : Str) : Str := if sw then env.strip cell else cell

/-- `TypeDetector._run_regex`, clevercsv/detect_type.py:66-71. -/
def runRegex (env : PyEnv) (sw : Bool) (r : Re) (cell : Str) : Bool :=
  (r.fullmatch (maybeStrip env sw cell)).isSome

/-- `is_number`, clevercsv/detect_type.py:73-82. -/
def isNumber (env : PyEnv) (sw : Bool) (cell : Str) : Bool :=
  if cell = [] then false
  else runRegex env sw (reNumber1 env) cell || runRegex env sw (reNumber2 env) cell ||
    runRegex env sw (reNumber3 env) cell

/-- `cell[0].isdigit()` for a non-empty cell. -/
def startsWithDigit (env : PyEnv) (cell : Str) : Bool :=
  match cell with
  | [] => false
  | c :: _ => env.digit c

/-- `is_date`, clevercsv/detect_type.py:98-105. -/
def isDate (env : PyEnv) (sw : Bool) (cell : Str) : Bool :=
  let cell := maybeStrip env sw cell
  startsWithDigit env cell && runRegex env sw (reDate env) cell

/-- `is_time`, clevercsv/detect_type.py:107-118. -/
def isTime (env : PyEnv) (sw : Bool) (cell : Str) : Bool :=
  let cell := maybeStrip env sw cell
  startsWithDigit env cell &&
    (runRegex env sw reTimeHMM cell || runRegex env sw reTimeHHMM1 cell ||
      runRegex env sw reTimeHHMMSS cell || runRegex env sw reTimeHHMMSSZZ cell)

/-- `s.endswith(x)` for a character. -/
def endsWith1 (s : Str) (x : Char) : Bool := s.getLast? = some x

/-- `s.rstrip(x)` for a character. -/
def rstrip1 (s : Str) (x : Char) : Str := (s.reverse.dropWhile (· = x)).reverse

/-- `is_percentage`, clevercsv/detect_type.py:123-124. -/
def isPercentage (env : PyEnv) (sw : Bool) (cell : Str) : Bool :=
  endsWith1 cell '%' && isNumber env sw (rstrip1 cell '%')

/-- `is_currency`, clevercsv/detect_type.py:126-135. -/
def isCurrency (env : PyEnv) (sw : Bool) (cell : Str) : Bool :=
  match (reCurrency env).fullmatch cell with
  | none => false
  | some m =>
    match m.group 1 with
    | none => false
    | some grp => isNumber env sw grp

/-- `s.split(x)` for a one-character separator. -/
def splitAt1 (x : Char) : Str → List Str
  | [] => [[]]
  | c :: rest =>
    if c = x then [] :: splitAt1 x rest
    else
      match splitAt1 x rest with
      | [] => [[c]]
      | p :: ps => (c :: p) :: ps

/-- The part of `is_datetime` after a `+` or `-` is found in the time, clevercsv/detect_type.py:164-186:
`sep` is that character. -/
def isOffsetTime (env : PyEnv) (sw : Bool) (sep : Char) (t : Str) : Bool :=
  match splitAt1 sep t with
  | a :: b :: _ =>
    isTime env sw a &&
      (isTime env sw b || runRegex env sw reTimeHHMM2 b || runRegex env sw reTimeHH b)
  | _ => false

/-- The part of `is_datetime` after the `T`, clevercsv/detect_type.py:158-187. -/
def isIsoTime (env : PyEnv) (sw : Bool) (t : Str) : Bool :=
  if endsWith1 t 'Z' && isTime env sw t.dropLast then true
  else if isTime env sw t then true
  else if t.contains '+' then isOffsetTime env sw '+' t
  else if t.contains '-' then isOffsetTime env sw '-' t
  else false

/-- `is_datetime`, clevercsv/detect_type.py:137-187. -/
def isDatetime (env : PyEnv) (sw : Bool) (cell : Str) : Bool :=
  if !startsWithDigit env cell then false
  else if cell.contains ' ' then
    match splitAt1 ' ' cell with
    | [a, b] => isDate env sw a && isTime env sw b
    | _ => false
  else if cell.contains 'T' then
    match splitAt1 'T' cell with
    | [a, b] => isDate env sw a && isIsoTime env sw b
    | _ => false
  else false

/-- `is_nan`, clevercsv/detect_type.py:189-192. -/
def isNan (env : PyEnv) (cell : Str) : Bool :=
  let l := env.lower cell
  l = "n/a".toList || l = "na".toList || l = "nan".toList

/-- `is_unicode_alphanum`, clevercsv/detect_type.py:93-96. -/
def isUnicodeAlphanum (env : PyEnv) (sw : Bool) (cell : Str) (isQuoted : Bool) : Bool :=
  if isQuoted then runRegex env sw (reAlphanumQuoted env) cell
  else runRegex env sw (reAlphanum env) cell

/-- `is_bytearray`, clevercsv/detect_type.py:197-198. -/
def isBytearray (cell : Str) : Bool :=
  "bytearray(b".toList.isPrefixOf cell && endsWith1 cell ')'

/-- `is_json_obj`, clevercsv/detect_type.py:200-207.  Only `JSONDecodeError` is caught. -/
def isJsonObj (env : PyEnv) (cell : Str) : Except PyExc Bool :=
  if !(cell.head? = some '{' && endsWith1 cell '}') then .ok false
  else
    match jsonLoads env cell with
    | .ok () => .ok true
    | .error .decode => .ok false
    | .error .intLimit => .error (.valueError "Exceeds the limit for integer string conversion")
    | .error .recursion => .error .recursionError
    | .error .fuel => .error .assertionError

/-- `_type_tests`, clevercsv/detect_type.py:34-51. -/
def typeTests (env : PyEnv) (sw : Bool) : List (String × (Str → Bool → Except PyExc Bool)) :=
  [("empty", fun c _ => .ok (c = [])),
   ("url", fun c _ => .ok (runRegex env sw (reUrl env) c)),
   ("email", fun c _ => .ok (runRegex env sw reEmail c)),
   ("ipv4", fun c _ => .ok (runRegex env sw (reIpv4 env) c)),
   ("number", fun c _ => .ok (isNumber env sw c)),
   ("time", fun c _ => .ok (isTime env sw c)),
   ("percentage", fun c _ => .ok (isPercentage env sw c)),
   ("currency", fun c _ => .ok (isCurrency env sw c)),
   ("unix_path", fun c _ => .ok (runRegex env sw reUnixPath c)),
   ("nan", fun c _ => .ok (isNan env c)),
   ("date", fun c _ => .ok (isDate env sw c)),
   ("datetime", fun c _ => .ok (isDatetime env sw c)),
   ("unicode_alphanum", fun c q => .ok (isUnicodeAlphanum env sw c q)),
   ("bytearray", fun c _ => .ok (isBytearray c)),
   ("json", fun c _ => isJsonObj env c)]

/-- The loop of `detect_type`, clevercsv/detect_type.py:61-63. -/
def firstType (cell : Str) (isQuoted : Bool) :
    List (String × (Str → Bool → Except PyExc Bool)) → Except PyExc (Option String)
  | [] => .ok none
  | (name, f) :: rest =>
    match f cell isQuoted with
    | .error e => .error e
    | .ok true => .ok (some name)
    | .ok false => firstType cell isQuoted rest

/-- `TypeDetector.detect_type`, clevercsv/detect_type.py:59-64. -/
def detectType (env : PyEnv) (cell : Str) (isQuoted : Bool := false) (sw : Bool := true) :
    Except PyExc (Option String) :=
  firstType (maybeStrip env sw cell) isQuoted (typeTests env sw)

/-- `TypeDetector.is_known_type`, clevercsv/detect_type.py:56-57. -/
def isKnownType (env : PyEnv) (cell : Str) (isQuoted : Bool := false) (sw : Bool := true) :
    Except PyExc Bool :=
  match detectType env cell isQuoted sw with
  | .error e => .error e
  | .ok t => .ok t.isSome

/-- `DEFAULT_EPS_TYPE`, clevercsv/detect_type.py:21. -/
def defaultEpsType : ℚ := fl (1 / 10000000000)

/-- Number of known cells among a list of cells, and the exception of the first cell that raises. -/
def countKnown (known : Str × Bool → Except PyExc Bool) : List (Str × Bool) → Except PyExc Nat
  | [] => .ok 0
  | c :: cs =>
    match known c with
    | .error e => .error e
    | .ok b =>
      match countKnown known cs with
      | .error e => .error e
      | .ok n => .ok ((if b then 1 else 0) + n)

/-- The ratio of known cells: `eps if total == 0 else max(eps, known / total)`. -/
def typeRatio (eps : ℚ) (known total : Nat) : ℚ :=
  if total = 0 then eps else max eps (fl ((known : ℚ) / (total : ℚ)))

/-- `type_score(data, dialect, eps)`, clevercsv/detect_type.py:220-252.  The rows are consumed as the
parser yields them, so that an exception of a cell comes before a later parser error. -/
def typeScoreWith (known : Str × Bool → Except PyExc Bool) (limit : Int) (data : Str)
    (dialect : SimpleDialect) (eps : ℚ) : Except PyExc ℚ :=
  let g := parseStringQuoted limit dialect data
  match countKnown known g.1.flatten with
  | .error e => .error e
  | .ok n =>
    match g.2 with
    | some e => .error e
    | none => .ok (typeRatio eps n g.1.flatten.length)

/-- `type_score(data, dialect, eps)` with the detector itself. -/
def typeScore (env : PyEnv) (limit : Int) (data : Str) (dialect : SimpleDialect)
    (eps : ℚ := defaultEpsType) : Except PyExc ℚ :=
  typeScoreWith (fun c => isKnownType env c.1 c.2) limit data dialect eps

end Clever
