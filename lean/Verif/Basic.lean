/-!
# Basic notions shared by all models

Python `str` values are modelled as lists of Unicode scalar values.  Lone surrogates (which a
Python `str` may contain) are not representable in `Char`; this is the only restriction on text.
-/

namespace Clever

/-- A Python `str`. -/
abbrev Str := List Char

/-- The NUL character.  `src/cparser.c` uses it for "no character" in dialects and for the
end-of-line pseudo character. -/
def NUL : Char := '\x00'

/-- `u == '\r' || u == '\n'`. -/
def isNL (c : Char) : Bool := c = '\r' || c = '\n'

/-- Errors raised by the C parser as `cparser.Error` (re-raised as `clevercsv.Error`), plus the
case in which the underlying iterator raises. -/
inductive PErr where
  /-- "line contains NULL byte", src/cparser.c:510-515 -/
  | nullByte
  /-- "field larger than field limit (%ld)", src/cparser.c:269-273 -/
  | fieldLimit (limit : Int)
  /-- "'%c' expected after '%c'", src/cparser.c:368-372, 415-419 -/
  | expectedAfter (delimiter quotechar : Char)
  /-- "new-line character seen in unquoted field", src/cparser.c:428-430 -/
  | newlineInUnquoted
  /-- "unexpected end of data", src/cparser.c:470-472 -/
  | unexpectedEnd
  /-- "iterator should return strings", src/cparser.c:481-490 -/
  | notString
  /-- the input iterator raised an exception itself, src/cparser.c:464-479 -/
  | inputRaised
deriving DecidableEq, Repr

/-- Python exceptions that appear in the models. -/
inductive PyExc where
  /-- `clevercsv.Error` raised for a parser error -/
  | parse (e : PErr)
  /-- `clevercsv.Error` raised by the writer -/
  | writer (msg : String)
  | typeError (msg : String)
  | valueError (msg : String)
  | attributeError (attr : String)
  | overflowError
  | stopIteration
  | noDetectionResult
  | keyError
  | osError
  | assertionError
  /-- `csv.Error` (not `clevercsv.Error`) -/
  | csvError (msg : String)
  | indexError
  | recursionError
  /-- `UnicodeDecodeError` or `UnicodeEncodeError` -/
  | unicodeError
  /-- unknown encoding -/
  | lookupError
  | importError (msg : String)
deriving DecidableEq, Repr

deriving instance DecidableEq for Except

end Clever
