import Verif.Model.HasHeader
import Verif.Model.DictIO

/-!
# Tests: test_detect.py, test_potential_dialects.py, test_consistency.py and test_write.py in tests/test_unit

These are tests of the model, not proofs.  In `test_write.py` the cells are strings, since the model of the writer takes
strings; so the cases with `QUOTE_NONNUMERIC` and with objects are left out.  The longer samples of `test_detect.py` and
those for `has_header` take some minutes and are in checks/detect_samples.txt, outside of the build.
-/

namespace Clever.Tests

open Clever

/-- The delimiter, the quote character and the escape character found. -/
def found (x : Detection) : Option (String × String × String) :=
  match x.result with
  | .ok (some d) => some (String.ofList (d.delimiter.getD []), String.ofList (d.quotechar.getD []),
      String.ofList (d.escapechar.getD []))
  | _ => none

/-- `test_delimiters` -/
example : found (detect asciiEnv .forward 131072 "2147483648;43.0e12;17;abc;def\n147483648;43.0e2;17;abc;def\n47483648;43.0;170;abc;def\n".toList) =
    some (";", "", "") := by
  decide +kernel

/-- `test_delimiters` -/
example : found (detect asciiEnv .forward 131072 "aaa\tbbb\r\nAAA\t\r\nBBB\t\r\n".toList) =
    some ("\t", "", "") := by
  decide +kernel

/-- `test_delimiters` -/
example : found (detect asciiEnv .forward 131072 "a|b|c\r\nd|e|f\r\n".toList) =
    some ("|", "", "") := by
  decide +kernel

/-- `test_delimiters` -/
example : found (detect asciiEnv .forward 131072 "'a'|'b'|'c'\r\n'd'|e|f\r\n".toList) =
    some ("|", "'", "") := by
  decide +kernel

/-- `test_masked_by_quotechar` -/
example : maskedByQuotechar "A\"B&C\"A".toList ['"'] [] ['&'] = true ∧
    maskedByQuotechar "A\"B&C\"A&A".toList ['"'] [] ['&'] = false ∧
    maskedByQuotechar "A|\"B&C\"A".toList ['"'] ['|'] ['&'] = false ∧
    maskedByQuotechar "A\"B\"C".toList ['"'] [] [] = false := by decide +kernel

/-- `test_filter_urls` -/
example : String.ofList (filterUrls asciiEnv "A,B\nwww.google.com,10\nhttps://gertjanvandenburg.com,25\n".toList) =
    "A,B\nU,10\nU,25\n" := by decide +kernel

/-- `test_get_quotechars` -/
example : (getQuotechars .forward "A,B,'A',B\"D\"E".toList).length = 3 ∧
    ∀ q ∈ [['"'], ['\''], []], q ∈ getQuotechars .forward "A,B,'A',B\"D\"E".toList := by decide +kernel

/-- `asciiEnv` with the categories of the pound and the euro sign. -/
def currencyEnv : PyEnv := { asciiEnv with category := fun c => if c = '£' ∨ c = '€' then "Sc" else asciiEnv.category c }

/-- `test_get_delimiters` -/
example : (getDelimiters currencyEnv .forward "A,B|CD,E;F\tD123£123€10.,0".toList none).length = 7 ∧
    ∀ d ∈ [[','], ['|'], [';'], ['\t'], ['€'], ['£'], []],
      d ∈ getDelimiters currencyEnv .forward "A,B|CD,E;F\tD123£123€10.,0".toList none := by decide +kernel

/-- `test_get_best_set_1` -/
example : getBestDialects [(⟨some [','], none, none, false⟩, ⟨1, some 1, some 1⟩), (⟨some [';'], none, none, false⟩, ⟨1, none, none⟩),
      (⟨some ['|'], none, none, false⟩, ⟨2, some 1, some 2⟩)] = [⟨some ['|'], none, none, false⟩] := by decide +kernel

/-- `writer(fp, dialect, **kwargs).writerow(fields)`: the text without the line terminator. -/
def written (fields : List String) (arg : DialectArg := .name "excel") (f : FmtParams := {}) : Option String :=
  match mkWriter arg f with
  | .error _ => none
  | .ok d =>
    match d.writeRow (fields.map String.toList) with
    | .error _ => none
    | .ok s => some (String.ofList (s.take (s.length - d.lineterminator.length)))

/-- `test_write_arg_valid` -/
example : written [] = some "" ∧ written [""] = some "\"\"" ∧ written [""] (f := { quoting := some .none }) = none := by
  decide +kernel

/-- `test_write_quoting` -/
example : written ["a", "1", "p,q"] = some "a,1,\"p,q\"" ∧
    written ["a", "1", "p,q"] (f := { quoting := some .none }) = none ∧
    written ["a", "1", "p,q"] (f := { quoting := some .minimal }) = some "a,1,\"p,q\"" ∧
    written ["a", "1", "p,q"] (f := { quoting := some .all }) = some "\"a\",\"1\",\"p,q\"" ∧
    written ["a\nb", "1"] (f := { quoting := some .all }) = some "\"a\nb\",\"1\"" := by decide +kernel

/-- `test_write_simpledialect` -/
example : written ["a", "1", "p,q"] (.simple ⟨some [','], some ['|'], some [], false⟩) = some "a,1,|p,q|" := by
  decide +kernel

/-- `test_write_csv_dialect` -/
example : written ["a", "1", "p,q"] (.name "excel") = some "a,1,\"p,q\"" ∧
    written ["a", "1", "p,q"] (.name "unix") = some "\"a\",\"1\",\"p,q\"" ∧
    written ["1", "2", "3"] (.name "excel-tab") = some "1\t2\t3" := by decide +kernel

end Clever.Tests
