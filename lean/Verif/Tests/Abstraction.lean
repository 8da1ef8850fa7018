import Verif.Model.PatternScore

/-!
# Tests: tests/test_unit/test_detect_pattern.py against the model

These are tests of the model, not proofs.
-/

namespace Clever.Tests

open Clever

/-- test_abstraction_1 -/
example : makeAbstraction "A,B,C".toList (dialectOf (some ',') none none) =
    .ok "CDCDC".toList := by decide

/-- test_abstraction_2 -/
example : makeAbstraction "A,\rA,A,A\r".toList (dialectOf (some ',') none none) =
    .ok "CDCRCDCDC".toList := by decide

/-- test_abstraction_3 -/
example : makeAbstraction "a,a,\n,a,a\ra,a,a\r\n".toList (dialectOf (some ',') none none) =
    .ok "CDCDCRCDCDCRCDCDC".toList := by decide

/-- test_abstraction_4 -/
example : makeAbstraction "a,\"bc\"\"d\"\"e\"\"f\"\"a\",\r\n".toList (dialectOf (some ',') (some '"') none) =
    .ok "CDCDC".toList := by decide

/-- test_abstraction_5 -/
example : makeAbstraction "a,\"bc\"\"d\"\",|\"f|\"\"".toList (dialectOf (some ',') (some '"') (some '|')) =
    .ok "CDC".toList := by decide

/-- test_abstraction_6 -/
example : makeAbstraction ",,,".toList (dialectOf (some ',') none none) =
    .ok "CDCDCDC".toList := by decide

/-- test_abstraction_7 -/
example : makeAbstraction ",\"\",,".toList (dialectOf (some ',') (some '"') none) =
    .ok "CDCDCDC".toList := by decide

/-- test_abstraction_8 -/
example : makeAbstraction ",\"\",,\r\n".toList (dialectOf (some ',') (some '"') none) =
    .ok "CDCDCDC".toList := by decide

/-- test_abstraction_9 -/
example : makeAbstraction "A,B|,C".toList (dialectOf (some ',') none (some '|')) =
    .ok "CDC".toList := by decide

/-- test_abstraction_10 -/
example : makeAbstraction "A,\"B,C|\"D\"".toList (dialectOf (some ',') (some '"') (some '|')) =
    .ok "CDC".toList := by decide

/-- test_abstraction_11 -/
example : makeAbstraction "a,|b,c".toList (dialectOf (some ',') none (some '|')) =
    .ok "CDCDC".toList := by decide

/-- test_abstraction_12 -/
example : makeAbstraction "a,b|,c".toList (dialectOf (some ',') none (some '|')) =
    .ok "CDC".toList := by decide

/-- test_abstraction_13 -/
example : makeAbstraction "a,\"b,c|\"\"".toList (dialectOf (some ',') (some '"') (some '|')) =
    .ok "CDC".toList := by decide

/-- test_abstraction_14 -/
example : makeAbstraction "a,b||c".toList (dialectOf (some ',') none (some '|')) =
    .ok "CDC".toList := by decide

/-- test_abstraction_15 -/
example : makeAbstraction "a,\"b|\"c||d|\"e\"".toList (dialectOf (some ',') (some '"') (some '|')) =
    .ok "CDC".toList := by decide

/-- test_abstraction_16 -/
example : makeAbstraction "a,\"b|\"c||d\",\"e\"".toList (dialectOf (some ',') (some '"') (some '|')) =
    .ok "CDCDC".toList := by decide

/-- test_fill_empties_1 -/
example : fillEmpties "DDD".toList = "CDCDCDC".toList := by decide

/-- The data of the paper. -/
def paperData : Str :=
  ("7,5; Mon, Jan 12;6,40\n100; Fri, Mar 21;8,23\n8,2; Thu, Sep 17;2,71\n538,0;;7,26\n" ++
    "\"NA\"; Wed, Oct 4;6,93").toList

/-- test_pattern_score_1 -/
example : patternScore paperData (dialectOf (some ',') none none) = .ok (7 / 4) := by decide +kernel

/-- test_pattern_score_2: the double is 3.333333333333333, not the one nearest to 10 / 3. -/
example : patternScore paperData (dialectOf (some ';') none none) = .ok (3752999689475413 / 1125899906842624) := by
  decide +kernel

/-- test_pattern_score_3 -/
example : patternScore paperData (dialectOf (some ';') (some '"') none) =
    .ok (3752999689475413 / 1125899906842624) := by decide +kernel

end Clever.Tests
