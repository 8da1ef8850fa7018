import Verif.Model.Reader
import Verif.Model.FieldLimit
import Verif.Tests.Parser

/-!
# Tests: tests/test_unit/test_reader.py against the model

These are tests of the model, not proofs.  The field sizes of `test_read_bigfield` are 5 instead of 500.
-/

namespace Clever.Tests

open Clever

/-- `list(clevercsv.reader(input, **fmtparams))` for a list of strings. -/
def readList (lines : List String) (f : FmtParams := {}) (limit : Int := 131072) : Option (List (List String)) :=
  match mkReader (.seq (lines.map fun l => .str l.toList)) (.name "excel") f with
  | .error _ => none
  | .ok r => shown (r.readAll limit)

/-- `test_read_oddinputs` -/
example : readList [] {  } =
    some [] := by decide +kernel

/-- `test_read_oddinputs` -/
example : readList [""] {  } =
    some [[]] := by decide +kernel

/-- `test_read_oddinputs` -/
example : readList ["\"ab\"c"] { strict := some true } = none := by decide +kernel

/-- `test_read_oddinputs` -/
example : readList ["ab\x00c"] { strict := some true } = none := by decide +kernel

/-- `test_read_eol` -/
example : readList ["a,b"] {  } =
    some [["a", "b"]] := by decide +kernel

/-- `test_read_eol` -/
example : readList ["a,b\n"] {  } =
    some [["a", "b"]] := by decide +kernel

/-- `test_read_eol` -/
example : readList ["a,b\r\n"] {  } =
    some [["a", "b"]] := by decide +kernel

/-- `test_read_eol` -/
example : readList ["a,b\r"] {  } =
    some [["a", "b"]] := by decide +kernel

/-- `test_read_eol` -/
example : readList ["a,b\rc,d"] {  } = none := by decide +kernel

/-- `test_read_eol` -/
example : readList ["a,b\rc,d"] {  } = none := by decide +kernel

/-- `test_read_eol` -/
example : readList ["a,b\rc,d"] {  } = none := by decide +kernel

/-- `test_read_eof` -/
example : readList ["a,\""] {  } =
    some [["a", ""]] := by decide +kernel

/-- `test_read_eof` -/
example : readList ["\"a"] {  } =
    some [["a"]] := by decide +kernel

/-- `test_read_escape` -/
example : readList ["a,\\b,c"] { escapechar := some (some "\\".toList) } =
    some [["a", "\\b", "c"]] := by decide +kernel

/-- `test_read_escape` -/
example : readList ["a,b\\,c"] { escapechar := some (some "\\".toList) } =
    some [["a", "b,c"]] := by decide +kernel

/-- `test_read_escape` -/
example : readList ["a,\"b,c\\\"\""] { escapechar := some (some "\\".toList) } =
    some [["a", "b,c\""]] := by decide +kernel

/-- `test_read_escape` -/
example : readList ["a,\"b,c\"\\"] { escapechar := some (some "\\".toList) } =
    some [["a", "b,c"]] := by decide +kernel

/-- `test_simple` -/
example : readList ["A,B,C,D,E"] { delimiter := some (some ",".toList), quotechar := some (some "\"".toList) } =
    some [["A", "B", "C", "D", "E"]] := by decide +kernel

/-- `test_simple` -/
example : readList ["A,B,C,D,E"] { delimiter := some (some ",".toList), quotechar := some (some "".toList) } =
    some [["A", "B", "C", "D", "E"]] := by decide +kernel

/-- `test_simple` -/
example : readList ["A,B,C,D,E"] { delimiter := some (some "".toList) } =
    some [["A,B,C,D,E"]] := by decide +kernel

/-- `test_simple` -/
example : readList ["A,\"B\",C,D,E"] { delimiter := some (some ",".toList), quotechar := some (some "\"".toList) } =
    some [["A", "B", "C", "D", "E"]] := by decide +kernel

/-- `test_simple` -/
example : readList ["A,\"B,C\",D,E"] { delimiter := some (some ",".toList), quotechar := some (some "\"".toList) } =
    some [["A", "B,C", "D", "E"]] := by decide +kernel

/-- `test_simple` -/
example : readList ["A,\"B,C\",D,E"] { delimiter := some (some ",".toList), quotechar := some (some "".toList) } =
    some [["A", "\"B", "C\"", "D", "E"]] := by decide +kernel

/-- `test_simple` -/
example : readList ["\"A\",\"B\",\"C\",,,,"] { delimiter := some (some ",".toList), quotechar := some (some "".toList) } =
    some [["\"A\"", "\"B\"", "\"C\"", "", "", "", ""]] := by decide +kernel

/-- `test_no_delim` -/
example : readList ["A\"B\"C", "A\"B\"\"C\"\"D\""] { delimiter := some (some "".toList), quotechar := some (some "".toList) } =
    some [["A\"B\"C"], ["A\"B\"\"C\"\"D\""]] := by decide +kernel

/-- `test_no_delim` -/
example : readList ["A\"B\r\nB\"C", "D\"E\"F", "G"] { delimiter := some (some "".toList), quotechar := some (some "\"".toList) } =
    some [["A\"B\r\nB\"C"], ["D\"E\"F"], ["G"]] := by decide +kernel

/-- `test_no_delim` -/
example : readList ["A\"B\nB\"C", "D\"E\"F", "G"] { delimiter := some (some "".toList), quotechar := some (some "\"".toList) } =
    some [["A\"B\nB\"C"], ["D\"E\"F"], ["G"]] := by decide +kernel

/-- `test_no_delim` -/
example : readList ["A\"B\nB\rB\"C", "D\"E\"F", "G"] { delimiter := some (some "".toList), quotechar := some (some "\"".toList) } =
    some [["A\"B\nB\rB\"C"], ["D\"E\"F"], ["G"]] := by decide +kernel

/-- `test_read_oddinputs`: an item that is not a string -/
example : (mkReader (.seq [.nonstr]) (.name "excel")).toOption.map (fun r => shown (r.readAll 131072)) = some none := by
  decide +kernel

/-- `test_read_bigfield` -/
example : readList ["XXXXX,XXXXX"] = some [["XXXXX", "XXXXX"]] := by decide +kernel

/-- `test_read_bigfield` -/
example : readList ["XXXXX,XXXXX"] (limit := 5) = some [["XXXXX", "XXXXX"]] := by decide +kernel

/-- `test_read_bigfield` -/
example : readList ["XXXXX,XXXXX"] (limit := -1) = none := by decide +kernel

/-- `test_read_bigfield` -/
example : (fieldSizeLimitRun 131072 [[], [.int 500], [], [.int (-1)], [.other], [.int 1, .other]]).2.map
    (fun x => x.toOption) = [some 131072, some 131072, some 500, some 500, none, none] := by decide +kernel

/-- The values of `line_num` and the rows of repeated calls of `next`. -/
def nexts : Nat → Reader → List (Option (List String) × Nat)
  | 0, _ => []
  | n + 1, r =>
    let x := r.next 131072
    (x.2.toOption.map (·.map String.ofList), x.1.lineNum) :: nexts n x.1

/-- `test_read_linenum` -/
example : (mkReader (.seq (["line,1", "line,2", "line,3"].map fun l => .str l.toList)) (.name "excel")).toOption.map (nexts 4) =
    some [(some ["line", "1"], 1), (some ["line", "2"], 2), (some ["line", "3"], 3), (none, 3)] := by decide +kernel

/-- `test_with_gen` -/
example : (mkReader (.stream (["line,1", "line,2", "line,3"].map fun l => .str l.toList)) (.name "excel")).toOption.map (nexts 3) =
    some [(some ["line", "1"], 1), (some ["line", "2"], 2), (some ["line", "3"], 3)] := by decide +kernel

/-- `test_github_issue_130` -/
example : ((mkReader (.stream (strItems (linesLF "sku,features,attributes\n22221,\"[{\"\"key\"\":\"\"heel_height\"\",\"\"value\"\":\"\"Ulttra High (4\\\"\"+)\"\"}]\",\"11,room\"\n".toList)))
      (.name "excel") { delimiter := some (some [',']), quotechar := some (some ['"']), escapechar := some (some []) }).toOption.map
      fun r => shown (r.readAll 131072)) =
    some (some [["sku", "features", "attributes"],
      ["22221", "[{\"key\":\"heel_height\",\"value\":\"Ulttra High (4\\\"+)\"}]", "11,room"]]) := by decide +kernel

end Clever.Tests
