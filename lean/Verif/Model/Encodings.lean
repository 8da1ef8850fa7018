import Verif.Model.Potential

/-!
# Potential dialects for a given encoding and with given blocked characters

`get_dialects`, `get_delimiters` and `is_potential_escapechar` have a parameter `encoding`; the detector leaves it at
UTF-8, which encodes every character and for which Model/Potential has simpler definitions.  The codec is a parameter.
-/

namespace Clever

/-- An encoding by its name. -/
structure CharCodec where
  /-- `encoding.lower() in set(["utf-8", "ascii"])`, clevercsv/escape.py:73 -/
  direct : Bool
  /-- `codecs.decode(bytes(x, encoding), encoding=encoding)`: raises `UnicodeEncodeError` for characters that cannot be
  encoded, and `LookupError` for an unknown encoding -/
  recode : Char → Except PyExc Str

/-- `unicode_category`, clevercsv/potential_dialects.py:107-125.  `unicodedata.category` raises `TypeError` if it does not
get one character. -/
def unicodeCategory (env : PyEnv) (codec : CharCodec) (x : Char) : Except PyExc String := do
  match ← codec.recode x with
  | [c] => return env.category c
  | _ => .error (.typeError "category() argument must be a unicode character")

/-- The test of the loop, clevercsv/potential_dialects.py:204-209, for the category `c`. -/
def allowsDelimiter (delimiters : Option (List Str)) (blockCat : List String) (blockChar : List Str) (x : Char)
    (c : String) : Bool :=
  match delimiters with
  | none => x = '\t' || (!blockChar.contains [x] && !blockCat.contains c)
  | some l => l.contains [x]

/-- The loop of `get_delimiters`, clevercsv/potential_dialects.py:201-209. -/
def delimitersLoop (env : PyEnv) (codec : CharCodec) (delimiters : Option (List Str)) (blockCat : List String)
    (blockChar : List Str) : List Char → Except PyExc (List Str)
  | [] => .ok []
  | x :: xs => do
    let c ← unicodeCategory env codec x
    let rest ← delimitersLoop env codec delimiters blockCat blockChar xs
    return if allowsDelimiter delimiters blockCat blockChar x c then [x] :: rest else rest

/-- `get_delimiters`, clevercsv/potential_dialects.py:133-211: the insertions into the result. -/
def getDelimitersIn (env : PyEnv) (codec : CharCodec) (ord : SetOrder) (data : Str) (delimiters : Option (List Str))
    (blockCat : Option (List String) := none) (blockChar : Option (List Str) := none) : Except PyExc (List Str) := do
  let D ← delimitersLoop env codec delimiters (blockCat.getD defaultBlockCat)
    (blockChar.getD (defaultBlockChar.map fun x => [x])) (ord.chars data)
  return D ++ [[]]

/-- `is_potential_escapechar`, clevercsv/escape.py:46-84. -/
def isPotentialEscapecharIn (env : PyEnv) (codec : CharCodec) (c : Char) (blockChar : Option (List Str) := none) :
    Except PyExc Bool := do
  let u ← if codec.direct then .ok [c] else codec.recode c
  let po := match u with
    | [x] => env.category x = "Po"
    | _ => false
  return po && !(blockChar.getD (escBlockChars.map fun x => [x])).contains u

/-- The pairs whose first character is a potential escapechar, clevercsv/potential_dialects.py:81-86.  The cache makes
no difference: the answers do not change. -/
def escapePairs (env : PyEnv) (codec : CharCodec) : List (Char × Char) → Except PyExc (List (Char × Char))
  | [] => .ok []
  | p :: ps => do
    let b ← isPotentialEscapecharIn env codec p.1
    let rest ← escapePairs env codec ps
    return if b then p :: rest else rest

/-- `get_dialects`, clevercsv/potential_dialects.py:26-104. -/
def getDialectsIn (env : PyEnv) (codec : CharCodec) (ord : SetOrder) (data : Str) (delimiters : Option (List Str) := none)
    (testMasked : Bool := false) : Except PyExc (List SimpleDialect) := do
  let noUrl := filterUrls env data
  let delims := ord.strs (← getDelimitersIn env codec ord noUrl delimiters)
  let quotechars := ord.strs (getQuotechars ord noUrl)
  let pairs ← escapePairs env codec (pairwise data)
  return delims.flatMap fun d => quotechars.flatMap fun q =>
    ((ord.strs ([] :: (pairs.filter (fun p => [p.2] = d || [p.2] = q)).map (fun p => [p.1]))).filter
      (fun e => !(testMasked && maskedByQuotechar data q e d))).map (mkDialect d q)

end Clever
