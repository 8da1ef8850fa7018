import Verif.Proofs.PyLiteral
import Verif.Proofs.SelfLiteral
import Verif.Proofs.StandardizeCmd
import Verif.Props.Standardize
import Verif.Props.Candidates

/-!
# The code and detect commands: C57 and C68 to C72
-/

namespace Clever.Props

/-! ## C68 A NUL character is always reported -/

theorem textRun_nul {α : Type} {cfg : Cfg} {mk : Str → Bool → α} :
    ∀ (t : Str) (o : PObj α), (textRun cfg mk o t).2 = none → NUL ∉ t
  | [], _, _ => by simp
  | c :: rest, o, h => by
    rw [textRun] at h
    split at h
    · simp at h
    rename_i hc
    rw [List.mem_cons, not_or]
    refine ⟨Ne.symm hc, ?_⟩
    split at h
    · split at h
      · simp at h
      · split at h
        · simp at h
        · rename_i o₂ _
          unfold emit at h
          split at h
          · exact textRun_nul rest _ h
          · exact textRun_nul rest _ h
    · split at h
      · simp at h
      · exact textRun_nul rest _ h

/-- **C68**: a text that is parsed without an exception has no NUL character. -/
theorem C68_parse (limit : Int) (d : SimpleDialect) (t : Str) (h : (parseString limit d t).2 = none) : NUL ∉ t := by
  unfold parseString parseData at h
  cases hc : d.cfg limit with
  | error e => rw [hc] at h; simp at h
  | ok cfg =>
    rw [hc] at h
    simp only [Option.map_eq_none_iff] at h
    rw [← parseText, parseText_eq_textRun] at h
    exact textRun_nul t _ h

/-- ... and the consistency measure detects no dialect for a text with one: it raises an exception. -/
theorem C68_detect (env : PyEnv) (ord : SetOrder) (limit : Int) (sample : Str) (delimiters : Option (List Str))
    (skip : Bool) (hn : NUL ∈ sample) (d : SimpleDialect) :
    (detect env ord limit sample delimiters .consistency skip).result ≠ .ok (some d) := by
  intro h
  rcases detect_cases env ord limit sample delimiters .consistency skip with ⟨h1, -⟩ | ⟨-, cap, he⟩
  · exact h1 rfl
  · rw [he] at h
    obtain ⟨-, Q, ⟨P, T, -, hT, -⟩, -⟩ := C34_detected_is_best _ _ _ _ _ _ _ _ h
    unfold typeScore typeScoreWith at hT
    simp only at hT
    split at hT
    · simp at hT
    · split at hT
      · simp at hT
      · rename_i hp
        rw [parseStringQuoted_error] at hp
        exact C68_parse _ _ _ hp hn

example : (parseString 100 ⟨some ",".toList, some [], some [], false⟩ ['a', ',', NUL]).2 = some (.parse .nullByte) := by
  decide

/-! ## The dialects that detection can return -/

/-- The components of a detected dialect. -/
theorem detect_parts {env : PyEnv} {ord : SetOrder} {limit : Int} {sample : Str} {method : DetectionMethod} {skip : Bool}
    {d : SimpleDialect} (h : (detect env ord limit sample none method skip).result = .ok (some d)) :
    ∃ D Q E, d = ⟨some D, some Q, some E, false⟩ ∧
      (D = [] ∨ ∃ c, D = [c] ∧ c ≠ '"' ∧ c ≠ '\n' ∧ c ≠ '\r' ∧ c ≠ NUL) ∧
      (Q = [] ∨ Q = ['\''] ∨ Q = ['"'] ∨ Q = ['~'] ∨ Q = ['`']) ∧
      (E = [] ∨ ∃ c, E = [c] ∧ c ≠ '\'' ∧ c ≠ '"') := by
  rcases detect_cases env ord limit sample none method skip with ⟨-, x, hn, he⟩ | ⟨-, cap, he⟩
  · rw [he] at h
    simp only [Except.ok.injEq, Option.some.injEq] at h
    subst h
    obtain ⟨D, Q, rfl, hd, hq⟩ := normal_mem hn
    refine ⟨D, Q, [], rfl, ?_, ?_, .inl rfl⟩
    · rcases hd with hd | hd
      · exact .inl hd
      · simp only [Option.getD_none, nfDelims, List.mem_cons, List.not_mem_nil, or_false] at hd
        rcases hd with rfl | rfl | rfl | rfl <;> exact .inr ⟨_, rfl, by decide⟩
    · rcases hq with hq | hq | hq
      · exact .inl hq
      · exact .inr (.inl hq)
      · exact .inr (.inr (.inl hq))
  · rw [he] at h
    obtain ⟨hm, Q, ⟨P, T, -, hT, -⟩, -⟩ := C34_detected_is_best _ _ _ _ _ _ _ _ h
    have hnul : NUL ∉ sample := by
      unfold typeScore typeScoreWith at hT
      simp only at hT
      split at hT
      · simp at hT
      · split at hT
        · simp at hT
        · rename_i hp
          rw [parseStringQuoted_error] at hp
          exact C68_parse _ _ _ hp
    obtain ⟨d', q, e, rfl, hd, hq, he, -⟩ := mem_getDialects.mp hm
    refine ⟨d', q, e, rfl, ?_, ?_, ?_⟩
    · rcases mem_getDelimiters.mp hd with rfl | ⟨c, hc, hc', rfl⟩
      · exact .inl rfl
      · have hcn : c ≠ NUL := by
          rintro rfl
          rcases mem_filterUrls hc with h | h
          · revert h; decide
          · exact hnul h
        rw [isDelimiter_iff] at hc'
        refine .inr ⟨c, rfl, ?_⟩
        rcases hc' with rfl | ⟨-, -, h1, -, h2, h3, -⟩
        · decide
        · exact ⟨h1, h2, h3, hcn⟩
    · rcases mem_getQuotechars.mp hq with rfl | ⟨c, -, hc, rfl⟩
      · exact .inl rfl
      · simp only [defaultQuoteChars, List.mem_cons, List.not_mem_nil, or_false] at hc
        rcases hc with rfl | rfl | rfl | rfl <;> simp
    · rcases mem_escapeInsertions.mp he with rfl | ⟨u, c, n, v, -, rfl, hc, -⟩
      · exact .inl rfl
      · rw [isPotentialEscapechar_iff] at hc
        refine .inr ⟨c, rfl, ?_, ?_⟩ <;>
        · rintro rfl
          exact hc.2 (by decide)

/-! ## C57 Generated code reproduces the dialect -/

theorem args_literals (pr : Printer) {D Q E : Str}
    (hD : D = ['\t'] ∨ ∀ c ∈ D, c ≠ '"' ∧ c ≠ '\\' ∧ c ≠ '\n' ∧ c ≠ '\r' ∧ c ≠ NUL)
    (hQ : ∀ c ∈ Q, c ≠ '\\' ∧ c ≠ '\n' ∧ c ≠ '\r' ∧ c ≠ NUL) (hE : ∀ c ∈ E, c ≠ '\'' ∧ c ≠ '"') (s : Bool) :
    Spec.dialectArgs (codeArgs pr ⟨some D, some Q, some E, s⟩ Q) = some (D, Q, E) := by
  have h1 : ∀ rest : Str, rest.head? ≠ some '"' →
      Spec.literal (codeDelimiter ⟨some D, some Q, some E, s⟩ ++ rest) = some (D, rest) := by
    intro rest hr
    unfold codeDelimiter
    simp only [Option.some.injEq]
    split
    · next h =>
      subst h
      change Spec.literal ('"' :: '\\' :: 't' :: '"' :: rest) = _
      simp [Spec.literal, Spec.litBody, Spec.simpleEscape, NUL]
    · next h =>
      rcases hD with hD | hD
      · exact absurd hD h
      rw [List.cons_append, List.append_assoc]
      exact literal_raw D rest hD hr
  have h2 : ∀ rest : Str, rest.head? ≠ some '"' → Spec.literal (codeQuotechar Q ++ rest) = some (Q, rest) := by
    intro rest hr
    unfold codeQuotechar
    rw [List.cons_append, List.append_assoc]
    exact literal_quoted Q rest hQ hr
  have h3 : ∀ rest : Str, rest.head? ≠ some '"' →
      Spec.literal (codeEscapechar pr ⟨some D, some Q, some E, s⟩ ++ rest) = some (E, rest) := by
    intro rest hr
    rw [codeEscapechar_eq pr _ rfl hE, List.cons_append, List.append_assoc]
    exact literal_repr pr (.inl rfl) E rest hr
  unfold Spec.dialectArgs codeArgs
  rw [List.append_assoc, List.append_assoc, List.append_assoc, List.append_assoc, List.append_assoc]
  rw [after_append "delimiter="]
  simp only [bind, Option.bind]
  rw [h1 _ (by simp)]
  simp only []
  rw [after_append ", quotechar="]
  simp only []
  rw [h2 _ (by simp)]
  simp only []
  rw [after_append ", escapechar="]
  simp only []
  rw [h3 _ (by simp)]
  simp

theorem dialectArgs_first {s D Q E : Str} (h : Spec.dialectArgs s = some (D, Q, E)) :
    ∃ r s', Spec.after "delimiter=" s = some r ∧ Spec.literal r = some (D, s') := by
  unfold Spec.dialectArgs at h
  simp only [Option.bind_eq_bind, Option.bind_eq_some_iff] at h
  obtain ⟨r, h1, ⟨D', s1⟩, h2, _, -, ⟨_, _⟩, -, _, -, ⟨_, _⟩, -, h⟩ := h
  split at h
  · simp only [Option.some.injEq, Prod.mk.injEq] at h
    exact ⟨r, s1, h1, by rw [h2, h.1]⟩
  · simp at h

/-- **C57**: for a dialect that was detected, the printed arguments evaluate to its components, if and only if the
delimiter is not the backslash. -/
theorem C57_iff (pr : Printer) (env : PyEnv) (ord : SetOrder) (limit : Int) (sample : Str) (method : DetectionMethod)
    (skip : Bool) (D Q E : Str) (s : Bool)
    (h : (detect env ord limit sample none method skip).result = .ok (some ⟨some D, some Q, some E, s⟩)) :
    Spec.dialectArgs (codeArgs pr ⟨some D, some Q, some E, s⟩ Q) = some (D, Q, E) ↔ D ≠ ['\\'] := by
  obtain ⟨D', Q', E', heq, hD, hQ, hE⟩ := detect_parts h
  simp only [SimpleDialect.mk.injEq, Option.some.injEq] at heq
  obtain ⟨rfl, rfl, rfl, rfl⟩ := heq
  constructor
  · rintro hc rfl
    have : codeArgs pr ⟨some ['\\'], some Q, some E, false⟩ Q =
        "delimiter=".toList ++ ('"' :: '\\' :: '"' :: (", quotechar=".toList ++ codeQuotechar Q ++
          ", escapechar=".toList ++ codeEscapechar pr ⟨some ['\\'], some Q, some E, false⟩ ++ ")".toList)) := by
      unfold codeArgs
      simp [codeDelimiter, fmtOpt]
    rw [this] at hc
    obtain ⟨r, s', h1, h2⟩ := dialectArgs_first hc
    rw [after_append "delimiter=", Option.some.injEq] at h1
    subst h1
    unfold Spec.literal at h2
    simp only [true_or, if_true] at h2
    rw [if_neg (by simp)] at h2
    rw [Spec.litBody, if_neg (by decide), if_neg (by decide), if_pos rfl, Spec.litBody,
      show Spec.simpleEscape '"' = some '"' by decide] at h2
    simp only [Option.map_eq_some_iff] at h2
    obtain ⟨x, -, hx⟩ := h2
    simp at hx
  · intro hne
    refine args_literals pr ?_ ?_ ?_ _
    · rcases hD with rfl | ⟨c, rfl, h1, h2, h3, h4⟩
      · exact .inr (by simp)
      · refine .inr fun x hx => ?_
        simp only [List.mem_singleton] at hx
        subst hx
        exact ⟨h1, fun h => hne (by rw [h]), h2, h3, h4⟩
    · rcases hQ with rfl | rfl | rfl | rfl | rfl <;> decide
    · rcases hE with rfl | ⟨c, rfl, h1, h2⟩
      · simp
      · intro x hx
        simp only [List.mem_singleton] at hx
        subst hx
        exact ⟨h1, h2⟩

/-- The generated code is well formed as far as lines go: for a detected dialect it consists of a header and either the
call of `read_dataframe` or the three lines with `open`, `reader` and `list`, with the arguments of `C57_iff`. -/
theorem C57_code (pr : Printer) (filename : Str) (D Q E : Str) (s : Bool) (encoding : Option Str) (pandas : Bool) :
    ∃ lines, generateCode pr filename ⟨some D, some Q, some E, s⟩ encoding pandas = .ok lines ∧
      (pandas = true → ∃ pre, lines = pre ++ ["df = clevercsv.read_dataframe(\"".toList ++ filename ++ "\", ".toList ++
        codeArgs pr ⟨some D, some Q, some E, s⟩ Q, []]) ∧
      (pandas = false → ∃ pre opn, lines = pre ++ [opn,
        "    reader = clevercsv.reader(fp, ".toList ++ codeArgs pr ⟨some D, some Q, some E, s⟩ Q,
        "    rows = list(reader)".toList, []]) := by
  cases pandas with
  | true => exact ⟨_, rfl, fun _ => ⟨codeBase pr ++ [[]], rfl⟩, by simp⟩
  | false => exact ⟨_, rfl, by simp, fun _ => ⟨codeBase pr ++ [[]], _, rfl⟩⟩

/-- The code command prints the code for the dialect that is detected in the file, or exits with 1 if there is none. -/
theorem C57_command (sys : Sys) (pr : Printer) (p : Path) (enc : Option Str) (n : Option Int) (pandas : Bool)
    (w w' : World) (c : Nat) (h : codeCmd sys pr p enc n pandas w = (.ok c, w')) :
    ∃ text, w.text sys p (w.stdEncoding sys p enc) = some text ∧ w'.files = w.files ∧ w'.limit = w.limit ∧
      ((c = 1 ∧ (detect sys.env sys.order w.limit (Spec.detectionPart text n)).result = .ok none ∧
        w'.stdout = w.stdout) ∨
       (c = 0 ∧ ∃ d lines, (detect sys.env sys.order w.limit (Spec.detectionPart text n)).result = .ok (some d) ∧
        generateCode pr p d (w.stdEncoding sys p enc) pandas = .ok lines ∧
        w'.stdout = w.stdout ++ joinLines lines ++ ['\n'])) := by
  unfold codeCmd at h
  obtain ⟨e, w1, h1, h⟩ := bind_inv h
  have h1' : stdChoose sys p enc w = (.ok e, w1) := h1
  obtain ⟨rfl, hf, hl, hs⟩ := stdChoose_inv h1'
  obtain ⟨r, w2, h2, h⟩ := bind_inv h
  obtain ⟨text, g1, g2, g3, g4, g5⟩ := detectDialect_inv h2
  have hse : ∀ x, w1.stdEncoding sys p x = w.stdEncoding sys p x := by
    intro x
    unfold World.stdEncoding World.guess
    rw [hf]
  rw [hse, stdEncoding_idem, text_files (w := w) (by rw [hf])] at g1
  rw [hl] at g2
  refine ⟨text, g1, ?_⟩
  cases r with
  | none =>
    simp only [act_pure, Prod.mk.injEq, Except.ok.injEq] at h
    obtain ⟨rfl, rfl⟩ := h
    exact ⟨g3.trans hf, g4.trans hl, .inl ⟨rfl, g2, g5.trans hs⟩⟩
  | some d =>
    obtain ⟨lines, w3, h3, h5⟩ := bind_inv h
    obtain ⟨h3', rfl⟩ := liftExcept_inv h3
    obtain ⟨_, w4, h4, h6⟩ := bind_inv h5
    cases h4
    cases h6
    refine ⟨g3.trans hf, g4.trans hl, .inr ⟨rfl, d, lines, g2, h3', ?_⟩⟩
    simp only [g5, hs, List.append_assoc]

/-- The printer of the examples. -/
def demoPrinter : Printer := ⟨"0.8.3".toList, fun _ => true⟩

/-- A case: a tab, quotes, and the backslash as escape character. -/
example :
    (detect asciiEnv .forward 100 "\"a\\\"b\"\t1\n\"c\\\"d\"\t2\n".toList none).result =
      .ok (some ⟨some ['\t'], some ['"'], some ['\\'], false⟩) ∧
    codeArgs demoPrinter ⟨some ['\t'], some ['"'], some ['\\'], false⟩ ['"'] =
      "delimiter=\"\\t\", quotechar=\"\\\"\", escapechar=\"\\\\\")".toList := by
  decide +kernel

/-- **C57 fails for the backslash as delimiter**: the quote after it does not end the literal, which goes on to the next
quote. -/
theorem C57_violated :
    let r := codeCmd demoSys demoPrinter "f".toList none none false (demoWorld [("f", "1\\2\n3\\4\n")])
    let args := "delimiter=\"\\\", quotechar=\"\", escapechar=\"\")".toList
    (detect asciiEnv .forward 131072 "1\\2\n3\\4\n".toList).result = .ok (some ⟨some ['\\'], some [], some [], false⟩) ∧
    r.1 = .ok 0 ∧ r.2.stdout = "\n# Code generated with CleverCSV version 0.8.3\n\nimport clevercsv\n\n".toList ++
      "with open(\"f\", \"r\", newline=\"\", encoding=\"ascii\") as fp:\n".toList ++
      "    reader = clevercsv.reader(fp, ".toList ++ args ++ "\n    rows = list(reader)\n\n".toList ∧
    Spec.dialectArgs args = none ∧
    (Spec.after "delimiter=" args).bind Spec.literal = some ("\", quotechar=".toList, "\", escapechar=\"\")".toList) := by
  decide +kernel

/-! ## C69 The generated code opens the file -/

/-- **C69** for names without quotes, backslashes and line breaks. -/
theorem C69_filename_partial (pr : Printer) (filename : Str) (d : SimpleDialect) (encoding : Option Str)
    (h : ∀ c ∈ filename, c ≠ '"' ∧ c ≠ '\\' ∧ c ≠ '\n' ∧ c ≠ '\r' ∧ c ≠ NUL) (lines : List Str)
    (hl : generateCode pr filename d encoding false = .ok lines) :
    ∃ line ∈ lines, ∃ rest, (Spec.after "with open(" line).bind Spec.literal = some (filename, rest) := by
  unfold generateCode at hl
  split at hl
  · simp at hl
  · rw [if_neg (by simp)] at hl
    simp only [Except.ok.injEq] at hl
    subst hl
    refine ⟨_, List.mem_append_right _ (List.mem_cons_of_mem _ List.mem_cons_self), ?_⟩
    rename_i q _
    refine ⟨", \"r\", newline=\"\", encoding=".toList ++ (match encoding with
        | none => "None".toList
        | some e => '"' :: (e ++ ['"'])) ++ ") as fp:".toList, ?_⟩
    rw [after_of (s := '"' :: (filename ++ '"' :: (", \"r\", newline=\"\", encoding=".toList ++ (match encoding with
        | none => "None".toList
        | some e => '"' :: (e ++ ['"'])) ++ ") as fp:".toList))) (by cases encoding <;> simp), Option.bind_some]
    exact literal_raw filename _ h (by simp)

/-- The line of the program that opens the file. -/
def opensFile (filename : Str) (encoding : Option Str) : Str :=
  "with open(".toList ++ '"' :: (filename ++ '"' :: (", \"r\", newline=\"\", encoding=".toList ++ (match encoding with
        | none => "None".toList
        | some e => '"' :: (e ++ ['"'])) ++ ") as fp:".toList))

/-- **C69 exactly**: the program has one line that opens a file, and the name in it evaluates to the name of the file if
and only if the name stands for itself between double quotes. -/
theorem C69_iff (pr : Printer) (filename : Str) (d : SimpleDialect) (encoding : Option Str) (lines : List Str)
    (hl : generateCode pr filename d encoding false = .ok lines) :
    opensFile filename encoding ∈ lines ∧
    (((Spec.after "with open(" (opensFile filename encoding)).bind Spec.literal).map (·.1) = some filename ↔
      Spec.SelfLiteral false filename) := by
  constructor
  · unfold generateCode at hl
    split at hl
    · simp at hl
    · rw [if_neg (by simp)] at hl
      simp only [Except.ok.injEq] at hl
      subst hl
      refine List.mem_append_right _ (List.mem_cons_of_mem _ (List.mem_cons.2 (.inl ?_)))
      unfold opensFile
      cases encoding <;> simp
  · unfold opensFile
    rw [after_append, Option.bind_some]
    exact (literal_self_iff filename _ (by simp)).1

/-- A name with a backslash that begins no escape, and three with one that does. -/
example : ¬Spec.SelfLiteral false "data\\1.csv".toList ∧ Spec.SelfLiteral false "my\\csv file.csv".toList ∧
    ¬Spec.SelfLiteral false "a\\new".toList ∧ ¬Spec.SelfLiteral false "a\\".toList ∧
    Spec.literal "\"my\\csv file.csv\", \"r\")".toList = some ("my\\csv file.csv".toList, ", \"r\")".toList) := by
  decide +kernel

/-- **C69 fails for a name with a backslash**: the literal is valid, but names another file.  (A name with a quote gives
an invalid program.) -/
theorem C69_violated :
    let r := codeCmd demoSys demoPrinter "a\\new".toList none none false (demoWorld [("a\\new", "1,2\n3,4\n")])
    let line := "with open(\"a\\new\", \"r\", newline=\"\", encoding=\"ascii\") as fp:".toList
    r.1 = .ok 0 ∧ r.2.stdout = "\n# Code generated with CleverCSV version 0.8.3\n\nimport clevercsv\n\n".toList ++ line ++
      "\n    reader = clevercsv.reader(fp, delimiter=\",\", quotechar=\"\", escapechar=\"\")".toList ++
      "\n    rows = list(reader)\n\n".toList ∧
    ((Spec.after "with open(" line).bind Spec.literal).map (·.1) = some "a\new".toList := by
  decide +kernel

/-! ## C70 The generated code reads the same rows -/

/-- **C70**: `reader(fp, delimiter=D, quotechar=Q, escapechar=E)` gives the rows of the file in the detected dialect. -/
theorem C70_same_rows (env : PyEnv) (ord : SetOrder) (limit limit' : Int) (sample : Str) (method : DetectionMethod)
    (skip : Bool) (D Q E : Str) (s : Bool)
    (h : (detect env ord limit sample none method skip).result = .ok (some ⟨some D, some Q, some E, s⟩)) (text : Str) :
    readText limit' (.name "excel") { delimiter := some (some D), quotechar := some (some Q), escapechar := some (some E) }
      text = (parseString limit' ⟨some D, some Q, some E, s⟩ text).toList := by
  obtain ⟨hv, D', Q', E', heq⟩ := C40_valid _ _ _ _ _ _ _ _ (by simp) h
  simp only [SimpleDialect.mk.injEq, Option.some.injEq] at heq
  obtain ⟨rfl, rfl, rfl, rfl⟩ := heq
  have hm : makeSimpleDialect (.name "excel")
      { delimiter := some (some D), quotechar := some (some Q), escapechar := some (some E) } =
      .ok ⟨some D, some Q, some E, false⟩ := by
    have hb : baseDialect (.name "excel") = .ok (dialectOf (some ',') (some '"') none) := by
      simp only [baseDialect, getDialect_excel, bind, Except.bind]
      rfl
    simp only [makeSimpleDialect, hb, bind, Except.bind]
    rw [show (dialectOf (some ',') (some '"') none).setParams
      { delimiter := some (some D), quotechar := some (some Q), escapechar := some (some E) } =
      ⟨some D, some Q, some E, false⟩ from rfl, hv]
    rfl
  simp only [readText, mkReader, hm, bind, Except.bind, pure, Except.pure, readAll_eq]
  rfl

example : readText 100 (.name "excel")
    { delimiter := some (some [';']), quotechar := some (some []), escapechar := some (some []) } "a,\";b\n".toList =
    .ok [["a,\"".toList, "b".toList]] := by decide +kernel

/-! ## C71 The detect command reports the dialect -/

/-- **C71 (default format)**: the text after `Detected: ` evaluates to the components, whatever they are. -/
theorem C71_repr (pr : Printer) (D Q E : Str) (s : Bool) :
    Spec.dialectRepr ((⟨some D, some Q, some E, s⟩ : SimpleDialect).repr pr) = some (D, Q, E) := by
  unfold Spec.dialectRepr SimpleDialect.repr reprOpt
  simp only [List.append_assoc]
  rw [after_append "SimpleDialect("]
  simp only [bind, Option.bind]
  rw [literal_pyRepr pr D _ (by simp) (by simp)]
  simp only []
  rw [after_append ", "]
  simp only []
  rw [literal_pyRepr pr Q _ (by simp) (by simp)]
  simp only []
  rw [after_append ", "]
  simp only []
  rw [literal_pyRepr pr E _ (by simp) (by simp)]
  simp

/-- A character that a terminal shows: a printable ASCII character, or one for which `str.isprintable` is true. -/
def Shown (pr : Printer) (c : Char) : Prop := 32 ≤ c.toNat ∧ c.toNat < 127 ∨ 127 < c.toNat ∧ pr.printable c = true

theorem hexDigits_shown (pr : Printer) : ∀ k n, ∀ x ∈ hexDigits k n, Shown pr x
  | 0, _ => by simp [hexDigits]
  | k + 1, n => by
    have h : ∀ v < 16, 32 ≤ (hexDigit v).toNat ∧ (hexDigit v).toNat < 127 := by decide
    intro x hx
    rw [hexDigits, List.mem_append, List.mem_singleton] at hx
    rcases hx with hx | rfl
    · exact hexDigits_shown pr k _ x hx
    · exact .inl (h _ (Nat.mod_lt _ (by decide)))

theorem pyRepr_shown (pr : Printer) (s : Str) : ∀ x ∈ pyRepr pr s, Shown pr x := by
  have ascii : ∀ x ∈ ['\\', 't', 'n', 'r', 'x', 'u', 'U', '"', '\''], Shown pr x := by
    have : ∀ x ∈ ['\\', 't', 'n', 'r', 'x', 'u', 'U', '"', '\''], 32 ≤ x.toNat ∧ x.toNat < 127 := by decide
    exact fun x hx => .inl (this x hx)
  have hc : ∀ q ∈ ['"', '\''], ∀ c, ∀ x ∈ reprChar pr q c, Shown pr x := by
    intro q hq c x hx
    have hq' : Shown pr q := ascii q (by simp at hq ⊢; tauto)
    unfold reprChar at hx
    split at hx
    · rename_i h
      simp only [List.mem_cons, List.not_mem_nil, or_false] at hx
      rcases hx with rfl | rfl
      · exact ascii _ (by simp)
      · rcases h with rfl | rfl
        · exact hq'
        · exact ascii _ (by simp)
    split at hx
    · exact ascii x (by simp at hx ⊢; tauto)
    split at hx
    · exact ascii x (by simp at hx ⊢; tauto)
    split at hx
    · exact ascii x (by simp at hx ⊢; tauto)
    split at hx
    · simp only [List.mem_cons] at hx
      rcases hx with rfl | rfl | hx
      · exact ascii _ (by simp)
      · exact ascii _ (by simp)
      · exact hexDigits_shown pr _ _ x hx
    rename_i h32
    split at hx
    · rename_i h
      simp only [List.mem_singleton] at hx
      subst hx
      exact .inl ⟨by omega, h⟩
    rename_i h127
    split at hx
    · rename_i h
      simp only [List.mem_singleton] at hx
      subst hx
      exact .inr ⟨by omega, h⟩
    split at hx
    · simp only [List.mem_cons] at hx
      rcases hx with rfl | rfl | hx
      · exact ascii _ (by simp)
      · exact ascii _ (by simp)
      · exact hexDigits_shown pr _ _ x hx
    split at hx
    · simp only [List.mem_cons] at hx
      rcases hx with rfl | rfl | hx
      · exact ascii _ (by simp)
      · exact ascii _ (by simp)
      · exact hexDigits_shown pr _ _ x hx
    · simp only [List.mem_cons] at hx
      rcases hx with rfl | rfl | hx
      · exact ascii _ (by simp)
      · exact ascii _ (by simp)
      · exact hexDigits_shown pr _ _ x hx
  intro x hx
  unfold pyRepr at hx
  have hq : (if s.contains '\'' && !s.contains '"' then '"' else '\'') ∈ ['"', '\''] := by split <;> simp
  revert hx hq
  generalize (if s.contains '\'' && !s.contains '"' then '"' else '\'') = q
  intro hx hq
  simp only [List.mem_cons, List.mem_append, List.mem_flatMap, List.not_mem_nil, or_false] at hx
  rcases hx with rfl | ⟨c, -, hx⟩ | rfl
  · exact ascii _ (by simp at hq ⊢; tauto)
  · exact hc q hq c x hx
  · exact ascii _ (by simp at hq ⊢; tauto)

/-- **C71 (default format)**: the report consists of printable characters, so it is a single line without control
characters, whatever the components are. -/
theorem C71_printable (pr : Printer) (d : SimpleDialect) : ∀ x ∈ d.repr pr, Shown pr x := by
  have lit : ∀ l : List Char, (∀ x ∈ l, 32 ≤ x.toNat ∧ x.toNat < 127) → ∀ x ∈ l, Shown pr x :=
    fun l h x hx => .inl (h x hx)
  have ho : ∀ o : Option Str, ∀ x ∈ reprOpt pr o, Shown pr x := by
    intro o
    cases o with
    | none => exact lit "None".toList (by decide)
    | some s => exact pyRepr_shown pr s
  intro x hx
  unfold SimpleDialect.repr at hx
  simp only [List.mem_append] at hx
  rcases hx with (((((hx | hx) | hx) | hx) | hx) | hx) | hx
  · exact lit _ (by decide) x hx
  · exact ho _ x hx
  · exact lit _ (by decide) x hx
  · exact ho _ x hx
  · exact lit _ (by decide) x hx
  · exact ho _ x hx
  · exact lit _ (by decide) x hx

/-- A case: a delimiter that is a control character. -/
example : (⟨some [Char.ofNat 127], some ['\''], some ['\n'], false⟩ : SimpleDialect).repr ⟨[], fun _ => false⟩ =
    "SimpleDialect('\\x7f', \"'\", '\\n')".toList := by decide +kernel

/-- **C71 (JSON)**: the line that is printed for a detected dialect can be read back with `deserialize`. -/
theorem C71_json (env : PyEnv) (ord : SetOrder) (limit : Int) (sample : Str) (method : DetectionMethod)
    (skip : Bool) (d : SimpleDialect) (pr : Printer) (hn : env.jsonDepth ≠ 0)
    (h : (detect env ord limit sample none method skip).result = .ok (some d)) :
    ∃ line, detectLines env pr d .json = .ok [line] ∧ deserialize env line = .ok d := by
  obtain ⟨hv, -⟩ := C40_valid _ _ _ _ _ _ _ _ (by simp) h
  rcases C19_serialize_round_trip env hn d with ⟨-, s, h1, h2⟩ | ⟨⟨m, h1⟩, -⟩
  · refine ⟨s, ?_, h2⟩
    unfold SimpleDialect.serialize at h1
    unfold detectLines
    cases hd : d.toDict with
    | error e => rw [hd] at h1; simp [bind, Except.bind] at h1
    | ok x =>
      rw [hd] at h1
      simp only [bind, Except.bind, pure, Except.pure, Except.ok.injEq] at h1 ⊢
      rw [h1]
  · rw [hv] at h1
    simp at h1

theorem detectDialect_method {sys : Sys} {p : Path} {n : Option Int} {e : Option Str} {m : Str} {skip : Bool}
    {method : DetectionMethod} (hm : DetectionMethod.ofString m = .ok method) {w w' : World}
    {r : Option SimpleDialect} (h : detectDialect sys p n e m skip w = (.ok r, w')) :
    ∃ text, w.text sys p (w.stdEncoding sys p e) = some text ∧
      (detect sys.env sys.order w.limit (Spec.detectionPart text n) none method skip).result = .ok r ∧
      w'.files = w.files ∧ w'.limit = w.limit ∧ w'.stdout = w.stdout := by
  unfold detectDialect at h
  have key : ∀ (e' : Option Str) (w1 : World), w1.files = w.files → w1.limit = w.limit → w1.stdout = w.stdout →
      (do let text ← openText sys p e'
          runDetector sys (readSome text n) m skip : Act (Option SimpleDialect)) w1 = (.ok r, w') →
      ∃ text, w.text sys p e' = some text ∧
        (detect sys.env sys.order w.limit (Spec.detectionPart text n) none method skip).result = .ok r ∧
        w'.files = w.files ∧ w'.limit = w.limit ∧ w'.stdout = w.stdout := by
    intro e' w1 hf hl hs h
    obtain ⟨text, w2, h2, h⟩ := bind_inv h
    obtain ⟨ht, rfl⟩ := openText_inv h2
    rw [text_files (w := w) (by rw [hf])] at ht
    refine ⟨text, ht, ?_⟩
    rw [readSome_eq] at h
    unfold runDetector detectStr at h
    rw [hm] at h
    simp only [Prod.mk.injEq, World.next_limit, hl] at h
    refine ⟨h.1, ?_⟩
    rw [← h.2]
    exact ⟨hf, C37_restored_partial _ _ _ _ _ _ _ _ h.1, hs⟩
  simp only [] at h
  unfold World.stdEncoding
  cases ht : truthy e with
  | some x =>
    rw [ht] at h
    obtain ⟨e', w1, h1, h⟩ := bind_inv h
    simp only [act_pure, Prod.mk.injEq, Except.ok.injEq] at h1
    obtain ⟨rfl, rfl⟩ := h1
    exact key _ _ rfl rfl rfl h
  | none =>
    rw [ht] at h
    obtain ⟨e', w1, h1, h⟩ := bind_inv h
    obtain ⟨h1', h2'⟩ := getEncoding_inv h1
    rw [h1'] at h
    exact key _ w1 (by rw [h2']; rfl) (by rw [h2']; rfl) (by rw [h2']; rfl) h

/-- The detect command prints the dialect that the requested method detects in the requested part of the file, or
exits with 1 if there is none, and changes nothing else. -/
theorem C71_command (sys : Sys) (pr : Printer) (p : Path) (enc : Option Str) (n : Option Int)
    (consistency noSkip : Bool) (format : DetectFormat) (w w' : World) (c : Nat)
    (h : detectCmd sys pr p enc n consistency noSkip format w = (.ok c, w')) :
    ∃ text r, w.text sys p (w.stdEncoding sys p enc) = some text ∧
      (detect sys.env sys.order w.limit (Spec.detectionPart text n) none
        (if consistency then .consistency else .auto) (!noSkip)).result = .ok r ∧
      w'.files = w.files ∧ w'.limit = w.limit ∧
      ((c = 1 ∧ r = none ∧ w'.stdout = w.stdout) ∨
       (c = 0 ∧ ∃ d lines, r = some d ∧ detectLines sys.env pr d format = .ok lines ∧
        w'.stdout = w.stdout ++ lines.flatMap fun l => l ++ ['\n'])) := by
  unfold detectCmd at h
  obtain ⟨r, w1, h1, h⟩ := bind_inv h
  have hm : DetectionMethod.ofString (if consistency then "consistency".toList else "auto".toList) =
      .ok (if consistency then .consistency else .auto) := by
    cases consistency <;> rfl
  obtain ⟨text, g1, g2, g3, g4, g5⟩ := detectDialect_method hm h1
  refine ⟨text, r, g1, g2, ?_⟩
  cases r with
  | none =>
    simp only [act_pure, Prod.mk.injEq, Except.ok.injEq] at h
    obtain ⟨rfl, rfl⟩ := h
    exact ⟨g3, g4, .inl ⟨rfl, rfl, g5⟩⟩
  | some d =>
    obtain ⟨lines, w3, h3, h5⟩ := bind_inv h
    obtain ⟨h3', rfl⟩ := liftExcept_inv h3
    obtain ⟨_, w4, h4, h6⟩ := bind_inv h5
    cases h4
    cases h6
    exact ⟨g3, g4, .inr ⟨rfl, d, lines, rfl, h3', by simp only [g5]⟩⟩

example :
    let w := demoWorld [("f", "a;b\nc;d\n")]
    (detectCmd demoSys demoPrinter "f".toList none none false false .default w).2.stdout =
      "Detected: SimpleDialect(';', '', '')\n".toList ∧
    (detectCmd demoSys demoPrinter "f".toList none none true true .json w).2.stdout =
      "{\"delimiter\": \";\", \"quotechar\": \"\", \"escapechar\": \"\", \"strict\": false}\n".toList := by
  decide +kernel

/-! ## C72 The plain output of the detect command determines the dialect -/

theorem strip_end {env : PyEnv} {s : Str} {x c : Char} (hx : env.space x = false) (hc : env.space c = false) :
    env.strip (x :: (s ++ [c])) = x :: (s ++ [c]) := by
  unfold PyEnv.strip
  rw [List.dropWhile_cons_of_neg (by simp [hx])]
  rw [show (x :: (s ++ [c])).reverse = c :: (s.reverse ++ [x]) by simp, List.dropWhile_cons_of_neg (by simp [hc])]
  simp

theorem plain_line {env : PyEnv} (ha : env.Ascii) {x : Char} {s : Str} (hx : env.space x = false) {D : Str}
    (hlen : D.length ≤ 1) (hD : ∀ c ∈ D, env.space c = false) :
    env.strip (x :: (s ++ ['=', ' ']) ++ D) = x :: (s ++ '=' :: (if D = [] then [] else ' ' :: D)) := by
  have h1 : env.space '=' = false := by rw [ha.space _ (by decide)]; decide
  have h2 : env.space ' ' = true := by rw [ha.space _ (by decide)]; decide
  match D, hlen with
  | [], _ =>
    unfold PyEnv.strip
    rw [List.append_nil, List.dropWhile_cons_of_neg (by simp [hx]),
      show (x :: (s ++ ['=', ' '])).reverse = ' ' :: '=' :: (s.reverse ++ [x]) by simp,
      List.dropWhile_cons_of_pos h2, List.dropWhile_cons_of_neg (by simp [h1])]
    simp
  | [c], _ =>
    have h3 := hD c (by simp)
    have := strip_end (s := s ++ ['=', ' ']) hx h3
    rw [List.cons_append, this]
    simp

/-- **C72** for dialects without whitespace: equal output means equal components. -/
theorem C72_injective_partial (env : PyEnv) (ha : env.Ascii) (pr : Printer) (D Q E D' Q' E' : Str) (s s' : Bool)
    (hlen : ∀ x ∈ [D, Q, E, D', Q', E'], x.length ≤ 1 ∧ ∀ c ∈ x, env.space c = false)
    (h : detectLines env pr ⟨some D, some Q, some E, s⟩ .plain = detectLines env pr ⟨some D', some Q', some E', s'⟩ .plain) :
    D = D' ∧ Q = Q' ∧ E = E' := by
  have key : ∀ (x : Char) (t : Str) (A B : Str), env.space x = false → A.length ≤ 1 ∧ (∀ c ∈ A, env.space c = false) →
      B.length ≤ 1 ∧ (∀ c ∈ B, env.space c = false) →
      env.strip (x :: (t ++ ['=', ' ']) ++ A) = env.strip (x :: (t ++ ['=', ' ']) ++ B) → A = B := by
    intro x t A B hx hA hB h
    rw [plain_line ha hx hA.1 hA.2, plain_line ha hx hB.1 hB.2] at h
    simp only [List.cons.injEq, true_and, List.append_cancel_left_eq] at h
    by_cases hA0 : A = [] <;> by_cases hB0 : B = []
    · rw [hA0, hB0]
    · simp [hA0, hB0] at h
    · simp [hA0, hB0] at h
    · simpa [hA0, hB0] using h
  simp only [detectLines, fmtOpt, Except.ok.injEq, List.cons.injEq, and_true] at h
  obtain ⟨h1, h2, h3⟩ := h
  have hsp : ∀ x : Char, x = 'd' ∨ x = 'q' ∨ x = 'e' → env.space x = false := by
    rintro x (rfl | rfl | rfl) <;> (rw [ha.space _ (by decide)]; decide)
  exact ⟨key 'd' "elimiter ".toList D D' (hsp _ (by simp)) (hlen _ (by simp)) (hlen _ (by simp)) h1,
    key 'q' "uotechar ".toList Q Q' (hsp _ (by simp)) (hlen _ (by simp)) (hlen _ (by simp)) h2,
    key 'e' "scapechar ".toList E E' (hsp _ (by simp)) (hlen _ (by simp)) (hlen _ (by simp)) h3⟩

/-- A component of at most one character, without whitespace. -/
def visible (env : PyEnv) (D : Str) : Str := D.filter fun c => !env.space c

theorem plain_line_any {env : PyEnv} (ha : env.Ascii) {x : Char} {s : Str} (hx : env.space x = false) {D : Str}
    (hlen : D.length ≤ 1) :
    env.strip (x :: (s ++ ['=', ' ']) ++ D) = env.strip (x :: (s ++ ['=', ' ']) ++ visible env D) := by
  match D, hlen with
  | [], _ => rfl
  | [c], _ =>
    unfold visible
    cases hc : env.space c with
    | false => rw [List.filter_cons_of_pos (by simp [hc])]; rfl
    | true =>
      have h2 : env.space ' ' = true := by rw [ha.space _ (by decide)]; decide
      rw [List.filter_cons_of_neg (by simp [hc]), List.filter_nil, List.append_nil]
      unfold PyEnv.strip
      rw [List.cons_append, List.dropWhile_cons_of_neg (by simp [hx]), List.dropWhile_cons_of_neg (by simp [hx]),
        show (x :: (s ++ ['=', ' '] ++ [c])).reverse = c :: ' ' :: '=' :: (s.reverse ++ [x]) by simp,
        show (x :: (s ++ ['=', ' '])).reverse = ' ' :: '=' :: (s.reverse ++ [x]) by simp,
        List.dropWhile_cons_of_pos hc]

/-- **C72 exactly**: for components of at most one character the plain output is the same if and only if the components
are the same up to whitespace; a whitespace component looks like an absent one. -/
theorem C72_iff (env : PyEnv) (ha : env.Ascii) (pr : Printer) (D Q E D' Q' E' : Str) (s s' : Bool)
    (hlen : ∀ x ∈ [D, Q, E, D', Q', E'], x.length ≤ 1) :
    detectLines env pr ⟨some D, some Q, some E, s⟩ .plain = detectLines env pr ⟨some D', some Q', some E', s'⟩ .plain ↔
    visible env D = visible env D' ∧ visible env Q = visible env Q' ∧ visible env E = visible env E' := by
  have hsp : ∀ x : Char, x = 'd' ∨ x = 'q' ∨ x = 'e' → env.space x = false := by
    rintro x (rfl | rfl | rfl) <;> (rw [ha.space _ (by decide)]; decide)
  have lines : ∀ (D Q E : Str) (s : Bool), D.length ≤ 1 → Q.length ≤ 1 → E.length ≤ 1 →
      detectLines env pr ⟨some D, some Q, some E, s⟩ .plain =
        detectLines env pr ⟨some (visible env D), some (visible env Q), some (visible env E), s⟩ .plain := by
    intro D Q E s h1 h2 h3
    have k1 := plain_line_any ha (x := 'd') (s := "elimiter ".toList) (hsp _ (by simp)) h1
    have k2 := plain_line_any ha (x := 'q') (s := "uotechar ".toList) (hsp _ (by simp)) h2
    have k3 := plain_line_any ha (x := 'e') (s := "scapechar ".toList) (hsp _ (by simp)) h3
    simp only [detectLines, fmtOpt]
    exact congrArg Except.ok (congr (congrArg List.cons k1) (congr (congrArg List.cons k2) (congrArg (· :: []) k3)))
  have hv : ∀ {x : Str}, x.length ≤ 1 → (visible env x).length ≤ 1 ∧ ∀ c ∈ visible env x, env.space c = false := by
    intro x hx
    refine ⟨Nat.le_trans (List.length_filter_le ..) hx, ?_⟩
    intro c hc
    have := (List.mem_filter.1 hc).2
    simpa using this
  rw [lines D Q E s (hlen _ (by simp)) (hlen _ (by simp)) (hlen _ (by simp)),
    lines D' Q' E' s' (hlen _ (by simp)) (hlen _ (by simp)) (hlen _ (by simp))]
  constructor
  · refine C72_injective_partial env ha pr _ _ _ _ _ _ s s' ?_
    intro x hx
    simp only [List.mem_cons, List.not_mem_nil, or_false] at hx
    rcases hx with rfl | rfl | rfl | rfl | rfl | rfl <;> exact hv (hlen _ (by simp))
  · rintro ⟨h1, h2, h3⟩
    rw [h1, h2, h3]
    rfl

/-- **C72 fails**: with a tab, a space or no delimiter at all the output is the same. -/
theorem C72_violated :
    let run := fun text : String =>
      (detectCmd demoSys demoPrinter "f".toList none none false false .plain (demoWorld [("f", text)])).2.stdout
    (detect asciiEnv .forward 131072 "1\t2\n3\t4\n".toList).result = .ok (some ⟨some ['\t'], some [], some [], false⟩) ∧
    (detect asciiEnv .forward 131072 "ab\ncd\n".toList).result = .ok (some ⟨some [], some [], some [], false⟩) ∧
    run "1\t2\n3\t4\n" = "delimiter =\nquotechar =\nescapechar =\n".toList ∧
    run "ab\ncd\n" = run "1\t2\n3\t4\n" := by
  decide +kernel

end Clever.Props
