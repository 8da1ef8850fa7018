import Verif.Model.NormalForm

/-!
# Tests: tests/test_unit/test_normal_forms.py against the model

All cases of the test file.  These are tests of the model, not proofs.
-/

namespace Clever.Tests

open Clever

/-- `test_form_1` -/
example : isForm1 ["\"A\",\"B\",\"C\"".toList] ",".toList "\"".toList = true := by decide +kernel

/-- `test_form_1` -/
example : isForm1 ["\"A\",\"B\"".toList, "\"C\",\"D\"".toList] ",".toList "\"".toList = true := by decide +kernel

/-- `test_form_1` -/
example : isForm1 ["\"A\",\"\",\"C\"".toList] ",".toList "\"".toList = true := by decide +kernel

/-- `test_form_1` -/
example : isForm1 ["\"A\",\"B\"".toList, "\"A\"".toList] ",".toList "\"".toList = false := by decide +kernel

/-- `test_form_1` -/
example : isForm1 ["\"A\"".toList, "\"B\"".toList] ",".toList "\"".toList = false := by decide +kernel

/-- `test_form_1` -/
example : isForm1 ["\"A\"".toList, "\"A\",\"B\"".toList] ",".toList "\"".toList = false := by decide +kernel

/-- `test_form_1` -/
example : isForm1 ["\"A\",,\"C\"".toList] ",".toList "\"".toList = false := by decide +kernel

/-- `test_form_1` -/
example : isForm1 ["\"A\",C".toList] ",".toList "\"".toList = false := by decide +kernel

/-- `test_form_1` -/
example : isForm1 ["\"A\"".toList, "\"b\"\"A\"\"c\",\"B\"".toList] ",".toList "\"".toList = false := by decide +kernel

/-- `test_form_2` -/
example : isForm2 ["1,2,3".toList] ",".toList "".toList = true := by decide +kernel

/-- `test_form_2` -/
example : isForm2 ["1,2,3".toList, "a,b,c".toList] ",".toList "".toList = true := by decide +kernel

/-- `test_form_2` -/
example : isForm2 ["a@b.com,3".toList] ",".toList "".toList = true := by decide +kernel

/-- `test_form_2` -/
example : isForm2 ["a,,3".toList, "1,2,3".toList] ",".toList "".toList = true := by decide +kernel

/-- `test_form_2` -/
example : isForm2 ["1,2,3".toList, "1,2".toList, "4,5,6".toList] ",".toList "".toList = false := by decide +kernel

/-- `test_form_2` -/
example : isForm2 ["1".toList] ",".toList "".toList = false := by decide +kernel

/-- `test_form_2` -/
example : isForm2 ["1,\"a\"".toList] ",".toList "".toList = false := by decide +kernel

/-- `test_form_2` -/
example : isForm2 ["a;b,3".toList] ",".toList "".toList = false := by decide +kernel

/-- `test_form_2` -/
example : isForm2 ["\"a,3,3".toList, "1,2,3".toList] ",".toList "".toList = false := by decide +kernel

/-- `test_form_2` -/
example : isForm2 ["a,\"\",3".toList, "1,2,3".toList] ",".toList "".toList = false := by decide +kernel

/-- `test_form_3` -/
example : isForm3 ["A,B".toList, "C,\"D\"".toList] ",".toList "\"".toList = true := by decide +kernel

/-- `test_form_3` -/
example : isForm3 ["A,B".toList, "C,\"d,e\"".toList] ",".toList "\"".toList = true := by decide +kernel

/-- `test_form_3` -/
example : isForm3 ["A,".toList, "C,\"d,e\"".toList] ",".toList "\"".toList = false := by decide +kernel

/-- `test_form_3` -/
example : isForm3 ["3;4,B".toList, "C,D".toList] ",".toList "\"".toList = false := by decide +kernel

/-- `test_form_3` -/
example : isForm3 ["A,B".toList, "\"C\",D".toList] ",".toList "'".toList = false := by decide +kernel

/-- `test_form_3` -/
example : isForm3 ["A,B".toList, "\"C\",D".toList] ",".toList "\"".toList = true := by decide +kernel

/-- `test_form_4` -/
example : isForm4 ["A".toList, "B".toList, "C".toList] "".toList = true := by decide +kernel

/-- `test_form_4` -/
example : isForm4 ["1".toList, "2".toList, "3".toList] "".toList = true := by decide +kernel

/-- `test_form_4` -/
example : isForm4 ["A_B".toList, "1".toList, "2".toList] "".toList = true := by decide +kernel

/-- `test_form_4` -/
example : isForm4 ["A&B".toList, "1".toList, "2".toList] "".toList = true := by decide +kernel

/-- `test_form_4` -/
example : isForm4 ["A&B".toList, "-1".toList, "2".toList] "".toList = true := by decide +kernel

/-- `test_form_4` -/
example : isForm4 ["\"A\"".toList, "\"B\"".toList, "\"C\"".toList] "\"".toList = true := by decide +kernel

/-- `test_form_4` -/
example : isForm4 ["\"A\", \"B\"".toList, "\"B\"".toList, "\"C\"".toList] "\"".toList = false := by decide +kernel

/-- `test_form_4` -/
example : isForm4 ["\"A\",\"B\"".toList, "\"B\"".toList, "\"C\"".toList] "\"".toList = false := by decide +kernel

/-- `test_form_4` -/
example : isForm4 ["\"A@b\"".toList, "\"B\"".toList, "\"C\"".toList] "\"".toList = false := by decide +kernel

/-- `test_form_4` -/
example : isForm4 ["A".toList, "\"-1\"".toList, "2".toList] "".toList = false := by decide +kernel

/-- `test_form_4` -/
example : isForm4 ["A B".toList, "-1 3".toList, "2 4".toList] "".toList = false := by decide +kernel

/-- `test_form_5` -/
example : isForm5 ["\"A,B\"".toList, "\"1,2\"".toList, "\"3,4\"".toList] ",".toList "\"".toList = true := by decide +kernel

/-- `test_form_5` -/
example : isForm5 ["\"A,B\"".toList, "\"1,\"".toList, "\"2,3\"".toList] ",".toList "\"".toList = true := by decide +kernel

/-- `test_form_5` -/
example : isForm5 ["A,B".toList, "1,2".toList, "3,4".toList] ",".toList "\"".toList = false := by decide +kernel

/-- `test_form_5` -/
example : isForm5 ["A,B".toList, "1,".toList, "2,3".toList] ",".toList "\"".toList = false := by decide +kernel

/-- `test_form_5` -/
example : isForm5 ["\"A,\"\"B\"\"\"".toList, "\"1,\"".toList, "\"2,3\"".toList] ",".toList "\"".toList = false := by decide +kernel

end Clever.Tests
