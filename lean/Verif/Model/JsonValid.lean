import Verif.Model.PyEnv

/-!
# `json.loads`, as far as success and exceptions are concerned

Library behaviour of CPython 3.11 (Modules/_json.c `scan_once`, Lib/json/decoder.py), for a `str`
argument that does not begin with a byte order mark: `json.loads` returns a value, or raises
`json.JSONDecodeError`, or `ValueError` for an integer with more digits than
`sys.get_int_max_str_digits()`, or `RecursionError` for values that are nested too deeply.
-/

namespace Clever

/-- The ways in which `json.loads` can fail. -/
inductive JFail where
  | decode
  | intLimit
  | recursion
  /-- the model ran out of fuel (never happens, see `Verif/Proofs/JsonValid.lean`) -/
  | fuel
deriving DecidableEq, Repr

/-- `[ \t\n\r]*`. -/
def jWs : Str → Str
  | [] => []
  | c :: rest => if c = ' ' ∨ c = '\t' ∨ c = '\n' ∨ c = '\r' then jWs rest else c :: rest

/-- A hexadecimal digit. -/
def isHex (c : Char) : Bool := isDig c || ('a' ≤ c && c ≤ 'f') || ('A' ≤ c && c ≤ 'F')

/-- State inside a string literal: plain text, after a backslash, or in the digits after `\u`. -/
inductive JStr where
  | text
  | esc
  | hex (n : Nat)
deriving DecidableEq, Repr

/-- The rest of a string literal after the opening quote: what follows the closing quote. -/
def jString : JStr → Str → Except JFail Str
  | _, [] => .error .decode
  | .text, c :: rest =>
    if c = '"' then .ok rest
    else if c = '\\' then jString .esc rest
    else if c.toNat < 32 then .error .decode
    else jString .text rest
  | .esc, c :: rest =>
    if c = 'u' then jString (.hex 4) rest
    else if c = '"' ∨ c = '\\' ∨ c = '/' ∨ c = 'b' ∨ c = 'f' ∨ c = 'n' ∨ c = 'r' ∨ c = 't' then
      jString .text rest
    else .error .decode
  | .hex n, c :: rest =>
    if isHex c then jString (if n ≤ 1 then .text else .hex (n - 1)) rest else .error .decode

/-- The text after an optional fraction `.digits` (CPython `_match_number_unicode`). -/
def jFrac (s : Str) : Str :=
  match s with
  | c :: d :: rest => if c = '.' ∧ isDig d then rest.dropWhile isDig else s
  | _ => s

/-- An optional sign. -/
def jSign (s : Str) : Str :=
  match s with
  | g :: r => if g = '+' ∨ g = '-' then r else s
  | [] => s

/-- The text after an optional exponent. -/
def jExp (s : Str) : Str :=
  match s with
  | e :: rest =>
    if e = 'e' ∨ e = 'E' then
      match jSign rest with
      | d :: r => if isDig d then r.dropWhile isDig else s
      | [] => s
    else s
  | [] => s

/-- Whether a fraction or an exponent follows, and the text after them. -/
def jFraction (s : Str) : Bool × Str :=
  ((jExp (jFrac s)).length < s.length, jExp (jFrac s))

/-- The integer part of a number: its digits, and the rest. -/
def jDigits (s : Str) : Option (Str × Str) :=
  match s with
  | [] => none
  | c :: rest =>
    if c = '0' then some ([c], rest)
    else if isDig c then some (c :: rest.takeWhile isDig, rest.dropWhile isDig)
    else none

/-- A number without its sign. -/
def jNumber (env : PyEnv) (s : Str) : Except JFail Str :=
  match jDigits s with
  | none => .error .decode
  | some (ds, rest) =>
    let f := jFraction rest
    if f.1 then .ok f.2
    else if env.maxStrDigits ≠ 0 ∧ ds.length > env.maxStrDigits then .error .intLimit
    else .ok rest

/-- Remove a given prefix. -/
def jLit : Str → Str → Option Str
  | [], s => some s
  | _ :: _, [] => none
  | p :: ps, c :: cs => if p = c then jLit ps cs else none

/-- `null`, `true`, `false`, `NaN`, `Infinity`, `-Infinity`, or a number. -/
def jScalar (env : PyEnv) (s : Str) : Except JFail Str :=
  match jLit "null".toList s with
  | some r => .ok r
  | none =>
  match jLit "true".toList s with
  | some r => .ok r
  | none =>
  match jLit "false".toList s with
  | some r => .ok r
  | none =>
  match jLit "NaN".toList s with
  | some r => .ok r
  | none =>
  match jLit "Infinity".toList s with
  | some r => .ok r
  | none =>
  match jLit "-Infinity".toList s with
  | some r => .ok r
  | none =>
  match jLit "-".toList s with
  | some r => jNumber env r
  | none => jNumber env s

mutual

/-- `scan_once`.  `depth` is the number of nested values that are still allowed. -/
def jValue (env : PyEnv) : Nat → Nat → Str → Except JFail Str
  | 0, _, _ => .error .fuel
  | n + 1, depth, s =>
    match s with
    | [] => .error .decode
    | c :: rest =>
      if c = '"' then jString .text rest
      else if c = '{' then
        match depth with
        | 0 => .error .recursion
        | d + 1 =>
          match jWs rest with
          | [] => .error .decode
          | x :: r =>
            if x = '}' then .ok r
            else if x = '"' then jMembers env n d r
            else .error .decode
      else if c = '[' then
        match depth with
        | 0 => .error .recursion
        | d + 1 =>
          match jWs rest with
          | [] => .error .decode
          | x :: r => if x = ']' then .ok r else jElements env n d (x :: r)
      else jScalar env (c :: rest)

/-- The members of an object after the opening quote of a key, up to the closing brace. -/
def jMembers (env : PyEnv) : Nat → Nat → Str → Except JFail Str
  | 0, _, _ => .error .fuel
  | n + 1, depth, s =>
    match jString .text s with
    | .error e => .error e
    | .ok r =>
      match jWs r with
      | [] => .error .decode
      | x :: r =>
        if x = ':' then
          match jValue env n depth (jWs r) with
          | .error e => .error e
          | .ok r =>
            match jWs r with
            | [] => .error .decode
            | x :: r =>
              if x = '}' then .ok r
              else if x = ',' then
                match jWs r with
                | [] => .error .decode
                | x :: r => if x = '"' then jMembers env n depth r else .error .decode
              else .error .decode
        else .error .decode

/-- The elements of an array, up to the closing bracket. -/
def jElements (env : PyEnv) : Nat → Nat → Str → Except JFail Str
  | 0, _, _ => .error .fuel
  | n + 1, depth, s =>
    match jValue env n depth s with
    | .error e => .error e
    | .ok r =>
      match jWs r with
      | [] => .error .decode
      | x :: r =>
        if x = ']' then .ok r
        else if x = ',' then jElements env n depth (jWs r)
        else .error .decode

end

/-- `json.loads(s)`: success, or the kind of failure. -/
def jsonLoads (env : PyEnv) (s : Str) : Except JFail Unit :=
  match jValue env (2 * s.length + 1) env.jsonDepth (jWs s) with
  | .error e => .error e
  | .ok r => if jWs r = [] then .ok () else .error .decode

end Clever
