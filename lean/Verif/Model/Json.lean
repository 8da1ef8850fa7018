import Verif.Model.Dialect
import Verif.Model.JsonValid

/-!
# `SimpleDialect.serialize` and `deserialize` (clevercsv/dialect.py:86-93, 122-139)

`json.dumps` and `json.loads` are library code.  `dumps` is modelled for an object of strings,
booleans, `None` and values whose text is given, with `ensure_ascii=True`.  `loads` is modelled for
all objects.  Values other than strings, booleans and `null` are kept as the text that they have, and
so are strings with a surrogate that is not part of a pair, because `Char` cannot represent it.  For
keys with such a surrogate the model gives an error, although `json.loads` accepts them.
-/

namespace Clever

/-- A JSON value. -/
inductive JVal where
  | str (s : Str)
  | bool (b : Bool)
  | null
  /-- another value: a number, an array, an object, or a string that is not representable -/
  | other (text : Str)
deriving DecidableEq, Repr

/-- Lower-case hexadecimal digit. -/
def hexDigit (n : Nat) : Char :=
  if n < 10 then Char.ofNat (48 + n) else Char.ofNat (87 + n)

/-- `'\\u{0:04x}'.format(n)`. -/
def u4 (n : Nat) : Str :=
  ['\\', 'u', hexDigit (n / 4096 % 16), hexDigit (n / 256 % 16), hexDigit (n / 16 % 16),
    hexDigit (n % 16)]

/-- One character of `py_encode_basestring_ascii` (CPython Lib/json/encoder.py). -/
def encodeChar (c : Char) : Str :=
  if c = '\\' then ['\\', '\\']
  else if c = '"' then ['\\', '"']
  else if c = '\n' then ['\\', 'n']
  else if c = '\r' then ['\\', 'r']
  else if c = '\t' then ['\\', 't']
  else if c.toNat = 12 then ['\\', 'f']
  else if c.toNat = 8 then ['\\', 'b']
  else if 32 ≤ c.toNat ∧ c.toNat ≤ 126 then [c]
  else if c.toNat < 65536 then u4 c.toNat
  else
    let n := c.toNat - 65536
    u4 (55296 + n / 1024 % 1024) ++ u4 (56320 + n % 1024)

/-- A JSON string literal. -/
def encodeStr (s : Str) : Str := '"' :: (s.flatMap encodeChar ++ ['"'])

def encodeVal : JVal → Str
  | .str s => encodeStr s
  | .bool true => "true".toList
  | .bool false => "false".toList
  | .null => "null".toList
  | .other t => t

/-- The items of an object, separated by `", "`. -/
def encodeItems : List (Str × JVal) → Str
  | [] => []
  | [(k, v)] => encodeStr k ++ ": ".toList ++ encodeVal v
  | (k, v) :: p :: ps =>
    encodeStr k ++ ": ".toList ++ encodeVal v ++ ", ".toList ++ encodeItems (p :: ps)

/-- `json.dumps` of a flat dict. -/
def dumps (d : List (Str × JVal)) : Str := '{' :: (encodeItems d ++ ['}'])

/-- Value of a hexadecimal digit. -/
def hexVal (c : Char) : Option Nat :=
  if 48 ≤ c.toNat ∧ c.toNat ≤ 57 then some (c.toNat - 48)
  else if 97 ≤ c.toNat ∧ c.toNat ≤ 102 then some (c.toNat - 87)
  else if 65 ≤ c.toNat ∧ c.toNat ≤ 70 then some (c.toNat - 55)
  else none

/-- Four hexadecimal digits. -/
def hex4 (s : Str) : Option (Nat × Str) :=
  match s with
  | a :: b :: c :: d :: rest => do
    return ((← hexVal a) * 4096 + (← hexVal b) * 256 + (← hexVal c) * 16 + (← hexVal d), rest)
  | _ => none

/-- The escape sequence after a backslash (`py_scanstring`, CPython Lib/json/decoder.py). -/
def decodeEscape (s : Str) : Option (Char × Str) :=
  match s with
  | [] => none
  | c :: rest =>
    if c = '"' ∨ c = '\\' ∨ c = '/' then some (c, rest)
    else if c = 'b' then some (Char.ofNat 8, rest)
    else if c = 'f' then some (Char.ofNat 12, rest)
    else if c = 'n' then some ('\n', rest)
    else if c = 'r' then some ('\r', rest)
    else if c = 't' then some ('\t', rest)
    else if c = 'u' then
      match hex4 rest with
      | none => none
      | some (n, rest) =>
        if 55296 ≤ n ∧ n ≤ 56319 then
          match rest with
          | b :: u :: rest =>
            if b = '\\' ∧ u = 'u' then
              match hex4 rest with
              | none => none
              | some (m, rest) =>
                if 56320 ≤ m ∧ m ≤ 57343 then
                  some (Char.ofNat (65536 + ((n - 55296) * 1024 + (m - 56320))), rest)
                else none
            else none
          | _ => none
        else if 56320 ≤ n ∧ n ≤ 57343 then none
        else some (Char.ofNat n, rest)
    else none

/-- The rest of a string literal after the opening quote.  The fuel bounds the length. -/
def decodeStr : Nat → Str → Option (Str × Str)
  | 0, _ => none
  | _ + 1, [] => none
  | n + 1, c :: rest =>
    if c = '"' then some ([], rest)
    else if c = '\\' then
      match decodeEscape rest with
      | none => none
      | some (c, rest) =>
        match decodeStr n rest with
        | none => none
        | some (s, rest) => some (c :: s, rest)
    else if c.toNat < 32 then none
    else
      match decodeStr n rest with
      | none => none
      | some (s, rest) => some (c :: s, rest)

/-- Skip JSON whitespace. -/
def skipWs : Str → Str
  | [] => []
  | c :: rest => if c = ' ' ∨ c = '\t' ∨ c = '\n' ∨ c = '\r' then skipWs rest else c :: rest

/-- Remove a given prefix. -/
def dropPrefix : Str → Str → Option Str
  | [], s => some s
  | _ :: _, [] => none
  | p :: ps, c :: cs => if p = c then dropPrefix ps cs else none

/-- A string, or `none` for a string that is not representable. -/
def decodeQuoted (s : Str) : Option (Str × Str) :=
  match dropPrefix ['"'] s with
  | none => none
  | some rest => decodeStr (rest.length + 1) rest

/-- `scan_once` (CPython Modules/_json.c).  `depth` is the number of nested values that are still allowed. -/
def decodeVal (env : PyEnv) (depth : Nat) (s : Str) : Option (JVal × Str) :=
  match decodeQuoted s with
  | some p => some (.str p.1, p.2)
  | none =>
    match dropPrefix "true".toList s with
    | some rest => some (.bool true, rest)
    | none =>
      match dropPrefix "false".toList s with
      | some rest => some (.bool false, rest)
      | none =>
        match dropPrefix "null".toList s with
        | some rest => some (.null, rest)
        | none =>
          match jValue env (2 * s.length + 1) depth s with
          | .error _ => none
          | .ok rest => some (.other (s.take (s.length - rest.length)), rest)

/-- One `key: value` pair. -/
def decodeItem (env : PyEnv) (depth : Nat) (s : Str) : Option ((Str × JVal) × Str) := do
  let (k, rest) ← decodeQuoted (skipWs s)
  let rest ← dropPrefix [':'] (skipWs rest)
  let (v, rest) ← decodeVal env depth (skipWs rest)
  return ((k, v), rest)

/-- The items after the opening brace; the fuel bounds their number. -/
def decodeItems (env : PyEnv) (depth : Nat) : Nat → Str → Option (List (Str × JVal) × Str)
  | 0, _ => none
  | n + 1, s =>
    match decodeItem env depth s with
    | none => none
    | some (p, rest) =>
      match skipWs rest with
      | [] => none
      | c :: rest =>
        if c = '}' then some ([p], rest)
        else if c = ',' then
          match decodeItems env depth n rest with
          | none => none
          | some (ps, rest) => some (p :: ps, rest)
        else none

/-- `json.loads` of an object: its pairs in order. -/
def loads (env : PyEnv) (s : Str) : Option (List (Str × JVal)) :=
  match env.jsonDepth with
  | 0 => none
  | depth + 1 =>
    match dropPrefix ['{'] (skipWs s) with
    | none => none
    | some rest =>
      match dropPrefix ['}'] (skipWs rest) with
      | some rest => if skipWs rest = [] then some [] else none
      | none =>
        match decodeItems env depth (rest.length + 1) rest with
        | none => none
        | some (ps, rest) => if skipWs rest = [] then some ps else none

/-- Lookup in a decoded object: for repeated keys the last one wins. -/
def jget (d : List (Str × JVal)) (k : String) : Option JVal :=
  (d.reverse.find? (fun p => p.1 = k.toList)).map Prod.snd

/-- A component as a JSON value. -/
def jOpt : Option Str → JVal
  | none => .null
  | some s => .str s

/-- A JSON value as a component (the model rejects the values that are no strings: `SimpleDialect` would
accept them, but they cannot be used as components). -/
def ofJOpt : JVal → Except PyExc (Option Str)
  | .null => .ok none
  | .str s => .ok (some s)
  | .bool _ => .error (.typeError "not a string")
  | .other _ => .error (.typeError "not a string")

/-- `SimpleDialect.to_dict`, clevercsv/dialect.py:122-130. -/
def SimpleDialect.toDict (d : SimpleDialect) : Except PyExc (List (Str × JVal)) := do
  d.validate
  return [("delimiter".toList, jOpt d.delimiter), ("quotechar".toList, jOpt d.quotechar),
    ("escapechar".toList, jOpt d.escapechar), ("strict".toList, .bool d.strict)]

/-- `SimpleDialect.serialize`, clevercsv/dialect.py:132-134. -/
def SimpleDialect.serialize (d : SimpleDialect) : Except PyExc Str := do
  return dumps (← d.toDict)

/-- `SimpleDialect.from_dict`, clevercsv/dialect.py:86-93. -/
def fromDict (d : List (Str × JVal)) : Except PyExc SimpleDialect :=
  match jget d "delimiter", jget d "quotechar", jget d "escapechar", jget d "strict" with
  | some dl, some q, some e, some (.bool s) => do
    return ⟨← ofJOpt dl, ← ofJOpt q, ← ofJOpt e, s⟩
  | some _, some _, some _, some _ => .error (.typeError "strict is not a bool")
  | _, _, _, _ => .error .keyError

/-- `SimpleDialect.deserialize`, clevercsv/dialect.py:136-139.  When the text is no object, subscripting its value
raises `TypeError`. -/
def deserialize (env : PyEnv) (s : Str) : Except PyExc SimpleDialect :=
  match loads env s with
  | some d => fromDict d
  | none =>
    match jsonLoads env s with
    | .error .intLimit => .error (.valueError "Exceeds the limit for integer string conversion")
    | .error .recursion => .error .recursionError
    | .error _ => .error (.valueError "JSONDecodeError")
    | .ok () =>
      if (skipWs s).head? = some '{' then .error (.valueError "surrogates in a key")
      else .error (.typeError "not subscriptable")

end Clever
