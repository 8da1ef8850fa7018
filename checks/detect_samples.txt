import Verif.Model.HasHeader
import Verif.Model.DictIO

/-!
# All samples of tests/test_unit/test_detect.py

The short ones are also in Verif/Tests/Detect.lean.  Run with `lake env lean ../checks/detect_samples.txt` in /verif/lean; it takes
some minutes and prints nothing if all agree.
-/

namespace Clever.Tests

open Clever

/-- The delimiter, the quote character and the escape character found. -/
def found (x : Detection) : Option (String × String × String) :=
  match x.result with
  | .ok (some d) => some (String.ofList (d.delimiter.getD []), String.ofList (d.quotechar.getD []),
      String.ofList (d.escapechar.getD []))
  | _ => none

/-- `test_detect` -/
example : found (detect asciiEnv .forward 131072 "Harry's, Arlington Heights, IL, 2/1/03, Kimi Hayes\nShark City, Glendale Heights, IL, 12/28/02, Prezence\nTommy's Place, Blue Island, IL, 12/28/02, Blue Sunday/White Crow\nStonecutters Seafood and Chop House, Lemont, IL, 12/19/02, Week Back\n".toList) =
    some (",", "", "") := by
  decide +kernel

/-- `test_detect` -/
example : found (detect asciiEnv .forward 131072 "'Harry''s':'Arlington Heights':'IL':'2/1/03':'Kimi Hayes'\n'Shark City':'Glendale Heights':'IL':'12/28/02':'Prezence'\n'Tommy''s Place':'Blue Island':'IL':'12/28/02':'Blue Sunday/White Crow'\n'Stonecutters ''Seafood'' and Chop House':'Lemont':'IL':'12/19/02':'Week Back'\n".toList) =
    some (":", "'", "") := by
  decide +kernel

/-- `test_delimiters` -/
example : found (detect asciiEnv .forward 131072 "2147483648;43.0e12;17;abc;def\n147483648;43.0e2;17;abc;def\n47483648;43.0;170;abc;def\n".toList) =
    some (";", "", "") := by
  decide +kernel

/-- `test_delimiters` -/
example : found (detect asciiEnv .forward 131072 "aaa\tbbb\r\nAAA\t\r\nBBB\t\r\n".toList) =
    some ("\t", "", "") := by
  decide +kernel

/-- `test_delimiters` -/
example : found (detect asciiEnv .forward 131072 "a|b|c\r\nd|e|f\r\n".toList) =
    some ("|", "", "") := by
  decide +kernel

/-- `test_delimiters` -/
example : found (detect asciiEnv .forward 131072 "'a'|'b'|'c'\r\n'd'|e|f\r\n".toList) =
    some ("|", "'", "") := by
  decide +kernel

/-- `test_delimiters` -/
example : found (detect asciiEnv .forward 131072 "Harry's+ Arlington Heights+ IL+ 2/1/03+ Kimi Hayes\nShark City+ Glendale Heights+ IL+ 12/28/02+ Prezence\nTommy's Place+ Blue Island+ IL+ 12/28/02+ Blue Sunday/White Crow\nStonecutters Seafood and Chop House+ Lemont+ IL+ 12/19/02+ Week Back\n".toList) =
    some ("+", "", "") := by
  decide +kernel

/-- `test_delimiters` -/
example : found (detect asciiEnv .forward 131072 "'Harry''s'+ 'Arlington Heights'+ 'IL'+ '2/1/03'+ 'Kimi Hayes'\n'Shark City'+ 'Glendale Heights'+' IL'+ '12/28/02'+ 'Prezence'\n'Tommy''s Place'+ 'Blue Island'+ 'IL'+ '12/28/02'+ 'Blue Sunday/White Crow'\n'Stonecutters ''Seafood'' and Chop House'+ 'Lemont'+ 'IL'+ '12/19/02'+ 'Week Back'\n".toList) =
    some ("+", "'", "") := by
  decide +kernel

/-- `test_delimiters` -/
example : found (detect asciiEnv .forward 131072 "bytearray(b'fake data'),20:53:06,2019-09-01T19:28:21\nbytearray(b'fake data'),19:33:15,2005-02-15T19:10:31\nbytearray(b'fake data'),10:43:05,1992-10-12T14:49:24\nbytearray(b'fake data'),10:36:49,1999-07-18T17:27:55\nbytearray(b'fake data'),03:33:35,1982-04-24T17:38:45\nbytearray(b'fake data'),14:49:47,1983-01-05T22:17:42\nbytearray(b'fake data'),10:35:30,2006-10-27T02:30:45\n".toList) =
    some (",", "", "") := by
  decide +kernel

/-- `test_delimiters` -/
example : found (detect asciiEnv .forward 131072 "\"{\"\"fake\"\": \"\"json\"\", \"\"fake2\"\":\"\"json2\"\"}\",13:31:38,06:00:04+01:00\n\"{\"\"fake\"\": \"\"json\"\", \"\"fake2\"\":\"\"json2\"\"}\",22:13:29,14:20:11+02:00\n\"{\"\"fake\"\": \"\"json\"\", \"\"fake2\"\":\"\"json2\"\"}\",04:37:27,22:04:28+03:00\n\"{\"\"fake\"\": \"\"json\"\", \"\"fake2\"\":\"\"json2\"\"}\",04:25:28,23:12:53+01:00\n\"{\"\"fake\"\": \"\"json\"\", \"\"fake2\"\":\"\"json2\"\"}\",21:04:15,08:23:58+02:00\n\"{\"\"fake\"\": \"\"json\"\", \"\"fake2\"\":\"\"json2\"\"}\",10:37:03,11:06:42+05:30\n\"{\"\"fake\"\": \"\"json\"\", \"\"fake2\"\":\"\"json2\"\"}\",10:17:24,23:38:47+06:00\n\"{\"\"fake\"\": \"\"json\"\", \"\"fake2\"\":\"\"json2\"\"}\",00:02:51,20:04:45-06:00\n".toList) =
    some (",", "\"", "") := by
  decide +kernel

/-- `test_delimiters` -/
example : found (detect asciiEnv .forward 131072 "05/05/03?05/05/03?05/05/03?05/05/03?05/05/03?05/05/03\n05/05/03?05/05/03?05/05/03?05/05/03?05/05/03?05/05/03\n05/05/03?05/05/03?05/05/03?05/05/03?05/05/03?05/05/03\n".toList) =
    some ("?", "", "") := by
  decide +kernel

/-- `test_delimiters` -/
example : found (detect asciiEnv .forward 131072 "05/05/03?05/05/03?05/05/03?05/05/03?05/05/03?05/05/03\n05/05/03?05/05/03?05/05/03?05/05/03?05/05/03?05/05/03\n05/05/03?05/05/03?05/05/03?05/05/03?05/05/03?05/05/03\n".toList (some [['?'], [',']])) =
    some ("?", "", "") := by
  decide +kernel

/-- `test_delimiters` -/
example : found (detect asciiEnv .forward 131072 "05/05/03?05/05/03?05/05/03?05/05/03?05/05/03?05/05/03\n05/05/03?05/05/03?05/05/03?05/05/03?05/05/03?05/05/03\n05/05/03?05/05/03?05/05/03?05/05/03?05/05/03?05/05/03\n".toList (some [['/'], [',']])) =
    some ("/", "", "") := by
  decide +kernel

/-- No cell of the samples is the text of a number. -/
def noCasts : Casts := ⟨fun _ => false, fun _ => false, fun _ => false⟩

/-- `test_has_header` -/
example : hasHeader noCasts asciiEnv .forward 131072 "Harry's, Arlington Heights, IL, 2/1/03, Kimi Hayes\nShark City, Glendale Heights, IL, 12/28/02, Prezence\nTommy's Place, Blue Island, IL, 12/28/02, Blue Sunday/White Crow\nStonecutters Seafood and Chop House, Lemont, IL, 12/19/02, Week Back\n".toList = .ok false := by
  decide +kernel

/-- `test_has_header` -/
example : hasHeader noCasts asciiEnv .forward 131072 "\"venue\",\"city\",\"state\",\"date\",\"performers\"\nHarry's, Arlington Heights, IL, 2/1/03, Kimi Hayes\nShark City, Glendale Heights, IL, 12/28/02, Prezence\nTommy's Place, Blue Island, IL, 12/28/02, Blue Sunday/White Crow\nStonecutters Seafood and Chop House, Lemont, IL, 12/19/02, Week Back\n".toList = .ok true := by
  decide +kernel

/-- `test_has_header_regex_special_delimiter` -/
example : hasHeader noCasts asciiEnv .forward 131072 "Harry's+ Arlington Heights+ IL+ 2/1/03+ Kimi Hayes\nShark City+ Glendale Heights+ IL+ 12/28/02+ Prezence\nTommy's Place+ Blue Island+ IL+ 12/28/02+ Blue Sunday/White Crow\nStonecutters Seafood and Chop House+ Lemont+ IL+ 12/19/02+ Week Back\n".toList = .ok false := by
  decide +kernel

/-- `test_has_header_regex_special_delimiter` -/
example : hasHeader noCasts asciiEnv .forward 131072 "\"venue\"+\"city\"+\"state\"+\"date\"+\"performers\"\nHarry's+ Arlington Heights+ IL+ 2/1/03+ Kimi Hayes\nShark City+ Glendale Heights+ IL+ 12/28/02+ Prezence\nTommy's Place+ Blue Island+ IL+ 12/28/02+ Blue Sunday/White Crow\nStonecutters Seafood and Chop House+ Lemont+ IL+ 12/19/02+ Week Back\n".toList = .ok true := by
  decide +kernel

end Clever.Tests
