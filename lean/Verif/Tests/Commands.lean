import Verif.Props.Code

/-!
# Tests: test_dict.py, test_wrappers.py, test_console.py and test_fuzzing.py in tests/test_unit

These are tests of the model, not proofs.  Files are in ASCII; the cases for other encodings, with pandas, with cells that
are not strings, and with `--add-runtime` are left out.
-/

namespace Clever.Tests

open Clever

/-! ## test_dict.py -/

/-- `DictWriter(fp, fieldnames, extrasaction=…)`, `writeheader()` and `writerows(dicts)`: what is written. -/
def dictWritten (names : List String) (rows : List (List (String × String))) (extras : String := "raise")
    (header : Bool := true) : Option String :=
  match mkDictWriter (names.map String.toList) [] extras.toList with
  | .error _ => none
  | .ok w =>
    let g := w.writeAll (rows.map (·.map fun p => (p.1.toList, p.2.toList)))
    if g.2.isSome then none else some (String.ofList ((if header then g.1 else g.1.drop 1).flatten))

/-- `test_writeheader_return_value` -/
example : (dictWritten ["f1", "f2", "f3"] []).map String.length = some 10 := by decide +kernel

/-- `test_write_simple_dict` -/
example : dictWritten ["f1", "f2", "f3"] [[("f1", "10"), ("f3", "abc")]] = some "f1,f2,f3\r\n10,,abc\r\n" := by
  decide +kernel

/-- `test_write_multiple_dict_rows` -/
example : dictWritten ["f1", "f2", "f3"] [[("f1", "1"), ("f2", "abc"), ("f3", "f")], [("f1", "2"), ("f2", "5"), ("f3", "xyz")]] =
    some "f1,f2,f3\r\n1,abc,f\r\n2,5,xyz\r\n" := by decide +kernel

/-- `test_write_fields_not_in_fieldnames` -/
example : dictWritten ["f1", "f2", "f3"] [[("f4", "10"), ("f2", "spam")]] = none := by decide +kernel

/-- `test_typo_in_extrasaction_raises_error` -/
example : dictWritten ["f1", "f2"] [] "raised" = none := by decide +kernel

/-- `test_write_field_not_in_field_names_raise` -/
example : dictWritten ["f1", "f2"] [[("f0", "0"), ("f1", "1"), ("f2", "2"), ("f3", "3")]] "raise" = none := by
  decide +kernel

/-- `test_write_field_not_in_field_names_ignore` -/
example : dictWritten ["f1", "f2"] [[("f0", "0"), ("f1", "1"), ("f2", "2"), ("f3", "3")]] "ignore" false =
    some "1,2\r\n" := by decide +kernel

/-- The items of a row dictionary; surplus cells are joined by `|`. -/
def showDict (d : List (Key × DVal)) : List (Option String × String) :=
  d.map fun p => (p.1.map String.ofList, match p.2 with
    | .cell s => String.ofList s
    | .rest l => "|".intercalate (l.map String.ofList)
    | .restval => "DEFAULT")

/-- `list(DictReader(lines, …))` -/
def dictRead (lines : List String) (names : Option (List String) := none) (restkey : Option String := none)
    (f : FmtParams := {}) : Option (List (List (Option String × String))) :=
  match mkDictReader (.seq (lines.map fun l => .str l.toList)) (.name "excel") (names.map (·.map fun n => some n.toList))
      (restkey.map String.toList) f with
  | .error _ => none
  | .ok r =>
    match (r.readAll 131072).toList with
    | .error _ => none
    | .ok l => some (l.map showDict)

/-- `test_read_dict_fields` -/
example : dictRead ["1,2,abc\r\n"] (some ["f1", "f2", "f3"]) =
    some [[(some "f1", "1"), (some "f2", "2"), (some "f3", "abc")]] := by decide +kernel

/-- `test_read_dict_no_fieldnames` -/
example : dictRead ["f1,f2,f3\r\n", "1,2,abc\r\n"] =
    some [[(some "f1", "1"), (some "f2", "2"), (some "f3", "abc")]] := by decide +kernel

/-- `test_read_long` -/
example : dictRead ["1,2,abc,4,5,6\r\n"] (some ["f1", "f2"]) =
    some [[(some "f1", "1"), (some "f2", "2"), (none, "abc|4|5|6")]] := by decide +kernel

/-- `test_read_long_with_rest` -/
example : dictRead ["1,2,abc,4,5,6\r\n"] (some ["f1", "f2"]) (some "_rest") =
    some [[(some "f1", "1"), (some "f2", "2"), (some "_rest", "abc|4|5|6")]] := by decide +kernel

/-- `test_read_long_with_rest_no_fieldnames` -/
example : dictRead ["f1,f2\r\n", "1,2,abc,4,5,6\r\n"] none (some "_rest") =
    some [[(some "f1", "1"), (some "f2", "2"), (some "_rest", "abc|4|5|6")]] := by decide +kernel

/-- `test_read_short` -/
example : dictRead ["1,2,abc,4,5,6\r\n", "1,2,abc\r\n"] (some ["1", "2", "3", "4", "5", "6"]) =
    some [[(some "1", "1"), (some "2", "2"), (some "3", "abc"), (some "4", "4"), (some "5", "5"), (some "6", "6")],
      [(some "1", "1"), (some "2", "2"), (some "3", "abc"), (some "4", "DEFAULT"), (some "5", "DEFAULT"),
        (some "6", "DEFAULT")]] := by decide +kernel

/-- `test_read_with_blanks` -/
example : dictRead ["1,2,abc,4,5,6\r\n", "\r\n", "1,2,abc,4,5,6\r\n"] (some ["1", "2", "3", "4", "5", "6"]) =
    some [[(some "1", "1"), (some "2", "2"), (some "3", "abc"), (some "4", "4"), (some "5", "5"), (some "6", "6")],
      [(some "1", "1"), (some "2", "2"), (some "3", "abc"), (some "4", "4"), (some "5", "5"), (some "6", "6")]] := by
  decide +kernel

/-- `test_read_semi_sep` -/
example : dictRead ["1;2;abc;4;5;6\r\n"] (some ["1", "2", "3", "4", "5", "6"]) none { delimiter := some (some [';']) } =
    some [[(some "1", "1"), (some "2", "2"), (some "3", "abc"), (some "4", "4"), (some "5", "5"), (some "6", "6")]] := by
  decide +kernel

/-- `test_read_empty_file_fieldnames_returns_none` and `test_read_empty_file_iteration_raises_stopiteration` -/
example : (match mkDictReader (.stream []) (.name "excel") with
    | .error _ => false
    | .ok r => decide ((r.getFieldnames 131072).2 = .ok none ∧ (r.next 131072).2 = .error .stopIteration)) = true := by
  decide +kernel

/-! ## test_wrappers.py -/

/-- The file written by `writer(fp, dialect).writerows(table)`. -/
def tableFile (table : List (List String)) (d : SimpleDialect) : String :=
  match mkWriter (.simple d) with
  | .error _ => ""
  | .ok w => String.ofList (w.writeGen (table.map (·.map String.toList))).1.flatten

/-- `read_table` of a file with the given content. -/
def tableRead (text : String) : Except PyExc (List (List String)) :=
  (readTable demoSys "f".toList none none none (demoWorld [("f", text)])).1.map (·.map (·.map String.ofList))

/-- `test_read_table` and `test_stream_table`, simple -/
example : tableRead (tableFile [["A", "B", "C"], ["1", "2", "3"], ["4", "5", "6"]] ⟨some [';'], some [], some [], false⟩) =
    .ok [["A", "B", "C"], ["1", "2", "3"], ["4", "5", "6"]] := by decide +kernel

/-- `test_read_table` and `test_stream_table`, escaped -/
example : tableRead (tableFile [["A,0", "B", "C"], ["1", "2", "3"], ["4", "5", "6"]] ⟨some [','], some [], some ['\\'], false⟩) =
    .ok [["A,0", "B", "C"], ["1", "2", "3"], ["4", "5", "6"]] := by decide +kernel

/-- `test_read_table` and `test_stream_table`, quoted -/
example : tableRead (tableFile [["A,0", "B", "C"], ["1", "2", "3"], ["4", "5", "6"]] ⟨some [','], some ['"'], some [], false⟩) =
    .ok [["A,0", "B", "C"], ["1", "2", "3"], ["4", "5", "6"]] := by decide +kernel

/-- `test_read_table` and `test_stream_table`, double -/
example : tableRead (tableFile [["a\"A,0\"b", "B", "C"], ["1", "2", "3"], ["4", "5", "6"]] ⟨some [','], some ['"'], some [], false⟩) =
    .ok [["a\"A,0\"b", "B", "C"], ["1", "2", "3"], ["4", "5", "6"]] := by decide +kernel

/-- `test_read_table` and `test_stream_table`, rowtest -/
example : tableRead "1,\"AA\"\n2,\"BB\"\n3,\"CC\"" = .ok [["1", "AA"], ["2", "BB"], ["3", "CC"]] := by decide +kernel

/-- `test_read_table` and `test_stream_table`, raises2 -/
example : tableRead "1, \"AA\"\n2, \"BB\"\n3, \"CC\"" = .error .noDetectionResult := by decide +kernel

/-- The content of a file after `write_table`. -/
def tableWritten (table : List (List String)) (arg : DialectArg := .name "excel") (transpose : Bool := false) :
    Except PyExc (Option String) :=
  let r := writeTable demoSys ⟨table.map (·.map String.toList), true⟩ "f".toList arg transpose none (demoWorld [])
  r.1.map fun _ => (r.2.files "f".toList).map fun b => String.ofList (b.map fun x => Char.ofNat x.toNat)

/-- `test_write_table` -/
example : tableWritten [["A", "B,C", "D"], ["1", "2", "3"], ["4", "5", "6"]] =
      .ok (some "A,\"B,C\",D\r\n1,2,3\r\n4,5,6\r\n") ∧
    tableWritten [["A", "B,C", "D"], ["1", "2", "3"], ["4", "5", "6"]] (.simple ⟨some [';'], some [], some [], false⟩) =
      .ok (some "A;B,C;D\n1;2;3\n4;5;6\n") ∧
    tableWritten [["A", "B,C", "D"], ["1", "2", "3"], ["4", "5", "6"]] (.simple ⟨some [';'], some [], some [], false⟩) true =
      .ok (some "A;1;4\nB,C;2;5\nD;3;6\n") ∧
    tableWritten [["A", "B,C", "D"], ["1", "2", "3"], ["4", "5", "6", "8"]] =
      .error (.valueError "Table doesn't have constant row length.") := by
  decide +kernel

/-! ## test_console.py -/

/-- The exit code and the standard output of a command on the file `f`. -/
def output (cmd : Act Nat) (text : String) : Except PyExc Nat × String :=
  let r := cmd (demoWorld [("f", text)])
  (r.1, String.ofList r.2.stdout)

/-- `test_detect_base`, simple; `test_detect_opts_1`, `test_detect_opts_2` and `test_detect_opts_3` -/
example : let text := "A;B;C\n1;2;3\n4;5;6\n"
    output (detectCmd demoSys Props.demoPrinter "f".toList none none false false .default) text =
      (.ok 0, "Detected: SimpleDialect(';', '', '')\n") ∧
    output (detectCmd demoSys Props.demoPrinter "f".toList (some "windows-1252".toList) none false false .default) text =
      (.ok 0, "Detected: SimpleDialect(';', '', '')\n") ∧
    output (detectCmd demoSys Props.demoPrinter "f".toList none (some 5) false false .default) text =
      (.ok 0, "Detected: SimpleDialect(';', '', '')\n") ∧
    output (detectCmd demoSys Props.demoPrinter "f".toList none none false false .plain) text =
      (.ok 0, "delimiter = ;\nquotechar =\nescapechar =\n") := by
  decide +kernel

/-- `test_detect_base`, escaped, quoted and double -/
example : output (detectCmd demoSys Props.demoPrinter "f".toList none none false false .default) "A\\,0,B,C\n1,2,3\n4,5,6\n" =
      (.ok 0, "Detected: SimpleDialect(',', '', '\\\\')\n") ∧
    output (detectCmd demoSys Props.demoPrinter "f".toList none none false false .default) "\"A,0\",B,C\n1,2,3\n4,5,6\n" =
      (.ok 0, "Detected: SimpleDialect(',', '\"', '')\n") ∧
    output (detectCmd demoSys Props.demoPrinter "f".toList none none false false .default) "\"a\"\"A,0\"\"b\",B,C\n1,2,3\n4,5,6\n" =
      (.ok 0, "Detected: SimpleDialect(',', '\"', '')\n") := by
  decide +kernel

/-- `test_code_1`, `test_code_2` and `test_code_5` -/
example : output (codeCmd demoSys Props.demoPrinter "f".toList none none false) "A;B;C\n1;2;3\n4;5;6\n" =
      (.ok 0, "\n# Code generated with CleverCSV version 0.8.3\n\nimport clevercsv\n\nwith open(\"f\", \"r\", newline=\"\", encoding=\"ascii\") as fp:\n    reader = clevercsv.reader(fp, delimiter=\";\", quotechar=\"\", escapechar=\"\")\n    rows = list(reader)\n\n") ∧
    output (codeCmd demoSys Props.demoPrinter "f".toList none none true) "A;B;C\n1;2;3\n4;5;6\n" =
      (.ok 0, "\n# Code generated with CleverCSV version 0.8.3\n\nimport clevercsv\n\ndf = clevercsv.read_dataframe(\"f\", delimiter=\";\", quotechar=\"\", escapechar=\"\")\n\n") ∧
    output (codeCmd demoSys Props.demoPrinter "f".toList none none false) "A\tB\tC\n1\t2\t3\n4\t5\t6\n" =
      (.ok 0, "\n# Code generated with CleverCSV version 0.8.3\n\nimport clevercsv\n\nwith open(\"f\", \"r\", newline=\"\", encoding=\"ascii\") as fp:\n    reader = clevercsv.reader(fp, delimiter=\"\\t\", quotechar=\"\", escapechar=\"\")\n    rows = list(reader)\n\n") := by
  decide +kernel

/-- `test_code_4`, in ASCII -/
example : output (codeCmd demoSys Props.demoPrinter "f".toList none none false) "A,B\\,D,C\n1,2,3\n4,5,6\n" =
      (.ok 0, "\n# Code generated with CleverCSV version 0.8.3\n\nimport clevercsv\n\nwith open(\"f\", \"r\", newline=\"\", encoding=\"ascii\") as fp:\n    reader = clevercsv.reader(fp, delimiter=\",\", quotechar=\"\", escapechar=\"\\\\\")\n    rows = list(reader)\n\n") := by
  decide +kernel

/-- The arguments of the standardize command on the files `f` and `g`. -/
def stdArgs (paths outputs : List String) (inPlace transpose : Bool) : StdArgs :=
  { paths := paths.map String.toList, outputs := outputs.map String.toList, encodings := [], inPlace := inPlace,
    numChars := none, target := none, transpose := transpose }

/-- The exit code, the standard output and the contents of the files `f`, `g`, `h`. -/
def standardized (a : StdArgs) (files : List (String × String)) :
    Except PyExc Nat × String × List (Option String) :=
  let r := standardize demoSys a (demoWorld files)
  (r.1, String.ofList r.2.stdout, ["f", "g", "h"].map fun p => (r.2.files p.toList).map fun b =>
    String.ofList (b.map fun x => Char.ofNat x.toNat))

/-- `test_standardize_1`, `test_standardize_2` and `test_standardize_3` -/
example : standardized (stdArgs ["f"] [] false false) [("f", "A;B;C\n1;2;3\n4;5;6\n")] =
      (.ok 0, "A,B,C\r\n1,2,3\r\n4,5,6\r\n", [some "A;B;C\n1;2;3\n4;5;6\n", none, none]) ∧
    standardized (stdArgs ["f"] ["g"] false false) [("f", "A;B;C\n1;2;3\n4;5;6\n"), ("g", "")] =
      (.ok 0, "", [some "A;B;C\n1;2;3\n4;5;6\n", some "A,B,C\r\n1,2,3\r\n4,5,6\r\n", none]) ∧
    standardized (stdArgs ["f"] [] false true) [("f", "A;B;C\n1;2;3\n4;5;6\n")] =
      (.ok 0, "A,1,4\r\nB,2,5\r\nC,3,6\r\n", [some "A;B;C\n1;2;3\n4;5;6\n", none, none]) := by
  decide +kernel

/-- `test_standardize_in_place` and `test_standardize_in_place_noop` -/
example : standardized (stdArgs ["f"] [] true false) [("f", "A;B;C\n1;2;3\n4;5;6\n")] =
      (.ok 2, "", [some "A,B,C\r\n1,2,3\r\n4,5,6\r\n", none, none]) ∧
    standardized (stdArgs ["f"] [] true false) [("f", "A,B,C\r\n1,2,3\r\n4,5,6\r\n")] =
      (.ok 0, "", [some "A,B,C\r\n1,2,3\r\n4,5,6\r\n", none, none]) := by
  decide +kernel

/-- `test_standardize_multi`: the files of the dialects excel, unix and excel-tab -/
example : standardized (stdArgs ["a", "b", "c"] ["f", "g", "h"] false false)
      [("a", "A,B,C\r\n1,2,3\r\n4,5,6\r\n"), ("b", "\"A\",\"B\",\"C\"\n\"1\",\"2\",\"3\"\n\"4\",\"5\",\"6\"\n"),
        ("c", "A\tB\tC\r\n1\t2\t3\r\n4\t5\t6\r\n"), ("f", ""), ("g", ""), ("h", "")] =
    (.ok 0, "", [some "A,B,C\r\n1,2,3\r\n4,5,6\r\n", some "A,B,C\r\n1,2,3\r\n4,5,6\r\n",
      some "A,B,C\r\n1,2,3\r\n4,5,6\r\n"]) := by
  decide +kernel

/-- `test_standardize_multi_errors` -/
example : (standardized (stdArgs ["a", "b", "c"] ["f"] false false)
      [("a", "A,B,C\r\n1,2,3\r\n"), ("b", "A,B,C\r\n1,2,3\r\n"), ("c", "A,B,C\r\n1,2,3\r\n"), ("f", "")]).1 = .ok 1 := by
  decide +kernel

/-- `test_standardize_in_place_multi`, in ASCII -/
example : standardized (stdArgs ["f", "g", "h"] [] true false)
      [("f", "A,B,C\r\n1,2,3\r\n4,5,6\r\n"), ("g", "\"A\",\"B\",\"C\"\n\"1\",\"2\",\"3\"\n\"4\",\"5\",\"6\"\n"),
        ("h", "A\tB\tC\r\n1\t2\t3\r\n4\t5\t6\r\n")] =
    (.ok 2, "", [some "A,B,C\r\n1,2,3\r\n4,5,6\r\n", some "A,B,C\r\n1,2,3\r\n4,5,6\r\n",
      some "A,B,C\r\n1,2,3\r\n4,5,6\r\n"]) := by
  decide +kernel

/-! ## test_fuzzing.py -/

/-- `test_sniffer_fuzzing`: a dialect is found or `clevercsv.Error` raised. -/
example : ∀ s ∈ ["\"\"\"", "```", "\"'", "'@'", "'\"", "'''", "O##P~`"],
    (match (sniff asciiEnv .forward 131072 s.toList).result with
    | .ok _ | .error (.parse _) => true
    | .error _ => false) = true := by
  decide +kernel

end Clever.Tests
