import Verif.Model.Dialect

/-!
# Tests: tests/test_unit/test_cparser.py against the model

All cases of the test file.  These are tests of the model, not proofs.
-/

namespace Clever.Tests

open Clever

/-- The rows as strings. -/
def shown (g : Gen (List Str)) : Option (List (List String)) :=
  match g.toList with
  | .error _ => none
  | .ok rows => some (rows.map (·.map String.ofList))

/-- The rows with the flags. -/
def shownQuoted (g : Gen (List (Str × Bool))) : Option (List (List (String × Bool))) :=
  match g.toList with
  | .error _ => none
  | .ok rows => some (rows.map (·.map fun c => (String.ofList c.1, c.2)))

/-- `test_parse_simple_1` -/
example : shown (parseString 131072 (dialectOf (some ',') (some '"') none)
    "A,B,C,D,E".toList) = some [["A", "B", "C", "D", "E"]] := by decide +kernel

/-- `test_parse_simple_2` -/
example : shown (parseString 131072 (dialectOf (some ',') none none)
    "A,B,C,D,E".toList) = some [["A", "B", "C", "D", "E"]] := by decide +kernel

/-- `test_parse_simple_3` -/
example : shown (parseString 131072 (dialectOf none none none)
    "A,B,C,D,E".toList) = some [["A,B,C,D,E"]] := by decide +kernel

/-- `test_parse_simple_4` -/
example : shown (parseString 131072 (dialectOf (some ',') (some '"') none)
    "A,\"B\",C,D,E".toList) = some [["A", "B", "C", "D", "E"]] := by decide +kernel

/-- `test_parse_simple_5` -/
example : shown (parseString 131072 (dialectOf (some ',') (some '"') none)
    "A,\"B,C\",D,E".toList) = some [["A", "B,C", "D", "E"]] := by decide +kernel

/-- `test_parse_simple_6` -/
example : shown (parseString 131072 (dialectOf (some ',') none none)
    "A,\"B,C\",D,E".toList) = some [["A", "\"B", "C\"", "D", "E"]] := by decide +kernel

/-- `test_parse_simple_7` -/
example : shown (parseString 131072 (dialectOf (some ',') none none)
    "\"A\",\"B\",\"C\",,,,".toList) = some [["\"A\"", "\"B\"", "\"C\"", "", "", "", ""]] := by decide +kernel

/-- `test_parse_no_delim_1` -/
example : shown (parseString 131072 (dialectOf none none none)
    "A\"B\"C\rA\"B\"\"C\"\"D\"".toList) = some [["A\"B\"C"], ["A\"B\"\"C\"\"D\""]] := by decide +kernel

/-- `test_parse_no_delim_2` -/
example : shown (parseString 131072 (dialectOf none none none)
    "A\"B\"C\nA\"B\"\"C\"\"D\"".toList) = some [["A\"B\"C"], ["A\"B\"\"C\"\"D\""]] := by decide +kernel

/-- `test_parse_no_delim_3` -/
example : shown (parseString 131072 (dialectOf none none none)
    "A\"B\"C\r\nA\"B\"\"C\"\"D\"".toList) = some [["A\"B\"C"], ["A\"B\"\"C\"\"D\""]] := by decide +kernel

/-- `test_parse_no_delim_4` -/
example : shown (parseString 131072 (dialectOf none (some '"') none)
    "A\"B\r\nB\"C\r\nD\"E\"F\r\nG".toList) = some [["A\"B\r\nB\"C"], ["D\"E\"F"], ["G"]] := by decide +kernel

/-- `test_parse_no_delim_5` -/
example : shown (parseString 131072 (dialectOf none (some '"') none)
    "A\"B\nB\"C\nD\"E\"F\nG".toList) = some [["A\"B\nB\"C"], ["D\"E\"F"], ["G"]] := by decide +kernel

/-- `test_parse_no_delim_6` -/
example : shown (parseString 131072 (dialectOf none (some '"') none)
    "A\"B\nB\rB\"C\nD\"E\"F\nG".toList) = some [["A\"B\nB\rB\"C"], ["D\"E\"F"], ["G"]] := by decide +kernel

/-- `test_parse_builtin_1` -/
example : shown (parseString 131072 (dialectOf none none none)
    "".toList) = some [] := by decide +kernel

/-- `test_parse_builtin_2` -/
example : shown (parseString 131072 (dialectOf (some ',') none none)
    "a,b\r".toList) = some [["a", "b"]] := by decide +kernel

/-- `test_parse_builtin_3` -/
example : shown (parseString 131072 (dialectOf (some ',') none none)
    "a,b\n".toList) = some [["a", "b"]] := by decide +kernel

/-- `test_parse_builtin_4` -/
example : shown (parseString 131072 (dialectOf (some ',') none none)
    "a,b\r\n".toList) = some [["a", "b"]] := by decide +kernel

/-- `test_parse_builtin_5` -/
example : shown (parseString 131072 (dialectOf (some ',') (some '"') none)
    "a,\"".toList) = some [["a", ""]] := by decide +kernel

/-- `test_parse_builtin_6` -/
example : shown (parseString 131072 (dialectOf (some ',') (some '"') none)
    "\"a".toList) = some [["a"]] := by decide +kernel

/-- `test_parse_builtin_7` -/
example : shown (parseString 131072 (dialectOf (some ',') (some '"') (some '|'))
    "a,|b,c".toList) = some [["a", "|b", "c"]] := by decide +kernel

/-- `test_parse_builtin_8` -/
example : shown (parseString 131072 (dialectOf (some ',') (some '"') (some '|'))
    "a,b|,c".toList) = some [["a", "b,c"]] := by decide +kernel

/-- `test_parse_builtin_9` -/
example : shown (parseString 131072 (dialectOf (some ',') (some '"') (some '|'))
    "a,\"b,|c\"".toList) = some [["a", "b,|c"]] := by decide +kernel

/-- `test_parse_builtin_10` -/
example : shown (parseString 131072 (dialectOf (some ',') (some '"') (some '|'))
    "a,\"b,c|\"\"".toList) = some [["a", "b,c\""]] := by decide +kernel

/-- `test_parse_builtin_11` -/
example : shown (parseString 131072 (dialectOf (some ',') (some '"') (some '|'))
    "a,\"b,c\"|".toList) = some [["a", "b,c"]] := by decide +kernel

/-- `test_parse_builtin_12` -/
example : shown (parseString 131072 (dialectOf (some ',') (some '"') none)
    "1,\",3,\",5".toList) = some [["1", ",3,", "5"]] := by decide +kernel

/-- `test_parse_builtin_13` -/
example : shown (parseString 131072 (dialectOf (some ',') none none)
    "1,\",3,\",5".toList) = some [["1", "\"", "3", "\"", "5"]] := by decide +kernel

/-- `test_parse_builtin_14` -/
example : shown (parseString 131072 (dialectOf (some ',') (some '"') none)
    ",3,\"5\",7.3, 9".toList) = some [["", "3", "5", "7.3", " 9"]] := by decide +kernel

/-- `test_parse_builtin_15` -/
example : shown (parseString 131072 (dialectOf (some ',') (some '"') none)
    "\"a\nb\", 7".toList) = some [["a\nb", " 7"]] := by decide +kernel

/-- `test_parse_dq_1` -/
example : shown (parseString 131072 (dialectOf (some ',') (some '"') none)
    "a,\"a\"\"b\"\"c\"".toList) = some [["a", "a\"b\"c"]] := by decide +kernel

/-- `test_parse_dq_2` -/
example : shown (parseString 131072 (dialectOf (some ',') (some '"') none)
    "a,\"a\"\"b,c\"\"d\",e".toList) = some [["a", "a\"b,c\"d", "e"]] := by decide +kernel

/-- `test_parse_mix_double_escape_1` -/
example : shown (parseString 131072 (dialectOf (some ',') (some '"') (some '|'))
    "a,\"bc\"\"d\"\",|\"f|\"\"".toList) = some [["a", "bc\"d\",\"f\""]] := by decide +kernel

/-- `test_parse_other_1` -/
example : shown (parseString 131072 (dialectOf (some ',') none none)
    "a,b \"c\" d,e".toList) = some [["a", "b \"c\" d", "e"]] := by decide +kernel

/-- `test_parse_other_2` -/
example : shown (parseString 131072 (dialectOf (some ',') (some '"') none)
    "a,b \"c\" d,e".toList) = some [["a", "b \"c\" d", "e"]] := by decide +kernel

/-- `test_parse_other_3` -/
example : shown (parseString 131072 (dialectOf (some ',') none none)
    "a,\rb,c".toList) = some [["a", ""], ["b", "c"]] := by decide +kernel

/-- `test_parse_other_4` -/
example : shown (parseString 131072 (dialectOf (some ',') none none)
    "a,b\r\n\r\nc,d\r\n".toList) = some [["a", "b"], [], ["c", "d"]] := by decide +kernel

/-- `test_parse_other_5` -/
example : shown (parseString 131072 (dialectOf (some ',') none none)
    "\r\na,b\rc,d\n\re,f\r\n".toList) = some [[], ["a", "b"], ["c", "d"], [], ["e", "f"]] := by decide +kernel

/-- `test_parse_other_6` -/
example : shown (parseString 131072 (dialectOf (some ',') none none)
    "a,b\n\nc,d".toList) = some [["a", "b"], [], ["c", "d"]] := by decide +kernel

/-- `test_parse_escape_1` -/
example : shown (parseString 131072 (dialectOf (some ',') none (some '|'))
    "a,b,c||d".toList) = some [["a", "b", "c|d"]] := by decide +kernel

/-- `test_parse_escape_2` -/
example : shown (parseString 131072 (dialectOf (some ',') none (some '|'))
    "a,b,c||d,e|,d".toList) = some [["a", "b", "c|d", "e,d"]] := by decide +kernel

/-- `test_parse_quote_mismatch_1` -/
example : shown (parseString 131072 (dialectOf (some ',') (some '"') none)
    "a,b,c\"d,e\n".toList) = some [["a", "b", "c\"d,e\n"]] := by decide +kernel

/-- `test_parse_quote_mismatch_2` -/
example : shown (parseString 131072 (dialectOf (some ',') none none)
    "a,b,c\"d,e\n".toList) = some [["a", "b", "c\"d", "e"]] := by decide +kernel

/-- `test_parse_quote_mismatch_3` -/
example : shown (parseString 131072 (dialectOf (some ',') (some '"') none)
    "a,b,\"c,d".toList) = some [["a", "b", "c,d"]] := by decide +kernel

/-- `test_parse_quote_mismatch_4` -/
example : shown (parseString 131072 (dialectOf (some ',') (some '"') none)
    "a,b,\"c,d\n".toList) = some [["a", "b", "c,d\n"]] := by decide +kernel

/-- `test_parse_single_1` -/
example : shown (parseString 131072 (dialectOf none none none)
    "a\rb\rc\n".toList) = some [["a"], ["b"], ["c"]] := by decide +kernel

/-- `test_parse_differ_1` -/
example : shown (parseString 131072 (dialectOf (some ',') none none)
    "a,\"ab\"c,d".toList) = some [["a", "\"ab\"c", "d"]] := by decide +kernel

/-- `test_parse_differ_2` -/
example : shown (parseString 131072 (dialectOf (some ',') (some '"') none)
    "a,\"ab\"c,d".toList) = some [["a", "\"ab\"c", "d"]] := by decide +kernel

/-- `test_parse_return_quoted_1` -/
example : shownQuoted (parseStringQuoted 131072 (dialectOf (some ',') none none)
    "a,b,c".toList) = some [[("a", false), ("b", false), ("c", false)]] := by decide +kernel

/-- `test_parse_return_quoted_2` -/
example : shownQuoted (parseStringQuoted 131072 (dialectOf (some ',') (some '"') none)
    "a,\"b,c\",d".toList) = some [[("a", false), ("b,c", true), ("d", false)]] := by decide +kernel

/-- `test_parse_return_quoted_3` -/
example : shownQuoted (parseStringQuoted 131072 (dialectOf (some ',') (some '"') none)
    "a,b,\"c,d".toList) = some [[("a", false), ("b", false), ("c,d", true)]] := by decide +kernel

end Clever.Tests
