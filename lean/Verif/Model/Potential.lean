import Verif.Model.PySet
import Verif.Model.Regexes

/-!
# Potential dialects (`clevercsv/potential_dialects.py`, `clevercsv/escape.py`)

The encoding is the default one (UTF-8), for which `unicode_category` is `unicodedata.category`.
-/

namespace Clever

/-- `pairwise`, clevercsv/utils.py:22-27. -/
def pairwise {α : Type} : List α → List (α × α)
  | [] => []
  | [_] => []
  | a :: b :: rest => (a, b) :: pairwise (b :: rest)

/-- `DEFAULT_BLOCK_CHARS`, clevercsv/escape.py:19-34. -/
def escBlockChars : List Char := ['!', '?', '"', '\'', '.', ',', ';', ':', '%', '*', '&', '#']

/-- `is_potential_escapechar` with the default blocked characters, clevercsv/escape.py:46-84. -/
def isPotentialEscapechar (env : PyEnv) (c : Char) : Bool :=
  env.category c = "Po" && !escBlockChars.contains c

/-- `filter_urls`, clevercsv/potential_dialects.py:128-130. -/
def filterUrls (env : PyEnv) (data : Str) : Str := (reUrl env).sub ['U'] data

/-- Default of `block_cat`, clevercsv/potential_dialects.py:184-197. -/
def defaultBlockCat : List String :=
  ["Lu", "Ll", "Lt", "Lm", "Lo", "Nd", "Nl", "No", "Ps", "Pe", "Co"]

/-- Default of `block_char`, clevercsv/potential_dialects.py:198-199. -/
def defaultBlockChar : List Char := ['.', '/', '"', '\'', '\n', '\r']

/-- The test of the loop, clevercsv/potential_dialects.py:204-209. -/
def isDelimiter (env : PyEnv) (delimiters : Option (List Str)) (x : Char) : Bool :=
  match delimiters with
  | none => x = '\t' || (!defaultBlockChar.contains x && !defaultBlockCat.contains (env.category x))
  | some l => l.contains [x]

/-- `get_delimiters`, clevercsv/potential_dialects.py:133-211: the insertions into the result. -/
def getDelimiters (env : PyEnv) (ord : SetOrder) (data : Str) (delimiters : Option (List Str)) :
    List Str :=
  ((ord.chars data).filter (isDelimiter env delimiters)).map (fun x => [x]) ++ [[]]

/-- Default of `quote_chars`, clevercsv/potential_dialects.py:243. -/
def defaultQuoteChars : List Char := ['\'', '"', '~', '`']

/-- `set(quote_chars) & set(data)`, clevercsv/potential_dialects.py:244: CPython goes through the smaller one of the sets
(the second, if they have the same size) and inserts the elements that are in the other one. -/
def quoteInsertions (ord : SetOrder) (quoteChars data : List Char) : List Char :=
  if quoteChars.dedup.length < data.dedup.length then (ord.chars quoteChars).filter data.contains
  else (ord.chars data).filter quoteChars.contains

/-- `get_quotechars`, clevercsv/potential_dialects.py:214-246: the insertions into the result. -/
def getQuotechars (ord : SetOrder) (data : Str) (quoteChars : List Char := defaultQuoteChars) : List Str :=
  (quoteInsertions ord quoteChars data).map (fun x => [x]) ++ [[]]

/-- The insertions into `escapechars[(delim, quotechar)]`, clevercsv/potential_dialects.py:76-90. -/
def escapeInsertions (env : PyEnv) (data : Str) (delim quotechar : Str) : List Str :=
  [] :: ((pairwise data).filter (fun p =>
    isPotentialEscapechar env p.1 && ([p.2] = delim || [p.2] = quotechar))).map (fun p => [p.1])

/-- The loop of `masked_by_quotechar`, clevercsv/potential_dialects.py:280-301.  `skip` tells that the
current character is the second one of a doubled quote. -/
def maskedLoop (quotechar escapechar testChar : Str) : Bool → Bool → Bool → Str → Bool
  | _, _, _, [] => true
  | true, esc, inq, _ :: rest => maskedLoop quotechar escapechar testChar false esc inq rest
  | false, esc, inq, c :: rest =>
    if [c] = quotechar then
      if esc then maskedLoop quotechar escapechar testChar false esc inq rest
      else if !inq then maskedLoop quotechar escapechar testChar false esc true rest
      else if rest.head? = some c then maskedLoop quotechar escapechar testChar true esc inq rest
      else maskedLoop quotechar escapechar testChar false esc false rest
    else if [c] = testChar ∧ inq = false then false
    else if [c] = escapechar then maskedLoop quotechar escapechar testChar false true inq rest
    else maskedLoop quotechar escapechar testChar false esc inq rest

/-- `masked_by_quotechar`, clevercsv/potential_dialects.py:249-301. -/
def maskedByQuotechar (data quotechar escapechar testChar : Str) : Bool :=
  if testChar = [] then false
  else maskedLoop quotechar escapechar testChar false false false data

/-- `SimpleDialect(delim, quotechar, escapechar)`. -/
def mkDialect (d q e : Str) : SimpleDialect := ⟨some d, some q, some e, false⟩

/-- `get_dialects`, clevercsv/potential_dialects.py:26-104. -/
def getDialects (env : PyEnv) (ord : SetOrder) (data : Str) (delimiters : Option (List Str) := none)
    (testMasked : Bool := false) : List SimpleDialect :=
  let noUrl := filterUrls env data
  let delims := ord.strs (getDelimiters env ord noUrl delimiters)
  let quotechars := ord.strs (getQuotechars ord noUrl)
  delims.flatMap fun d => quotechars.flatMap fun q =>
    ((ord.strs (escapeInsertions env data d q)).filter
      (fun e => !(testMasked && maskedByQuotechar data q e d))).map (mkDialect d q)

end Clever
