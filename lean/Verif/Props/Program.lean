import Verif.Spec.Program
import Verif.Props.Code
import Verif.Props.PlainTables
import Verif.Props.QuotedTables

/-!
# Property C111: the generated program reads the file
-/

namespace Clever.Props

open Clever Spec

theorem progLines_line {l : Str} (hl : '\n' ∉ l) (t : Str) : progLines (l ++ '\n' :: t) = l :: progLines t := by
  induction l with
  | nil => simp [progLines]
  | cons c l ih =>
    rw [List.mem_cons, not_or] at hl
    rw [List.cons_append, progLines, if_neg (Ne.symm hl.1), ih hl.2]

theorem progLines_join : ∀ (ls : List Str), ls ≠ [] → (∀ l ∈ ls, '\n' ∉ l) →
    progLines (joinLines ls ++ ['\n']) = ls ++ [[]]
  | [], h, _ => absurd rfl h
  | [l], _, h => by
    rw [joinLines, progLines_line (h l (by simp))]
    rfl
  | l :: m :: ls, _, h => by
    rw [joinLines, List.append_assoc, List.cons_append, progLines_line (h l (by simp)),
      progLines_join (m :: ls) (by simp) (fun x hx => h x (List.mem_cons_of_mem _ hx))]
    rfl

/-- The line that opens the file. -/
def openLine (filename : Str) (encoding : Option Str) : Str :=
  "with open(\"".toList ++ filename ++ "\", \"r\", newline=\"\", encoding=".toList ++
    (match encoding with
      | none => "None".toList
      | some e => '"' :: (e ++ ['"'])) ++ ") as fp:".toList

theorem openArgs_code (filename : Str) (encoding : Option Str) (hf : SelfLiteral false filename)
    (he : ∀ e, encoding = some e → SelfLiteral false e) :
    openArgs (openLine filename encoding) = some (filename, encoding) := by
  unfold openArgs openLine
  have he' : ∀ e, encoding = some e → SelfLiteral false e := he
  clear he
  rw [after_of (s := '"' :: (filename ++ '"' :: (", \"r\", newline=\"\", encoding=".toList ++ ((match encoding with
      | none => "None".toList
      | some e => '"' :: (e ++ ['"'])) ++ ") as fp:".toList)))) (by cases encoding <;> simp)]
  simp only [bind, Option.bind]
  rw [(literal_self_iff filename _ (by simp)).2 hf]
  simp only
  rw [after_append]
  simp only
  cases encoding with
  | none =>
    rw [literalOrNone, after_append "None"]
    exact if_pos rfl
  | some e =>
    have h1 : after "None" ('"' :: (e ++ ['"']) ++ ") as fp:".toList) = none := by
      unfold after
      rw [if_neg]
      simp [List.isPrefixOf]
    simp only
    rw [literalOrNone, h1]
    simp only
    rw [show '"' :: (e ++ ['"']) ++ ") as fp:".toList = '"' :: (e ++ '"' :: ") as fp:".toList) by simp,
      (literal_self_iff e _ (by simp)).2 (he' e rfl)]
    exact if_pos rfl

theorem openArgs_prefix {l : Str} {x : Str × Option Str} (h : openArgs l = some x) : ∃ t, l = "with open(".toList ++ t := by
  unfold openArgs after at h
  simp only [bind, Option.bind] at h
  split at h
  · simp at h
  · next heq =>
    split at heq
    · next hp =>
      obtain ⟨t, ht⟩ := List.isPrefixOf_iff_prefix.mp hp
      exact ⟨t, ht.symm⟩
    · simp at heq

/-- The generated arguments have no line break. -/
theorem codeArgs_line (pr : Printer) {D Q E : Str} {s : Bool}
    (hD : D = [] ∨ ∃ c, D = [c] ∧ c ≠ '"' ∧ c ≠ '\n' ∧ c ≠ '\r' ∧ c ≠ NUL)
    (hQ : Q = [] ∨ Q = ['\''] ∨ Q = ['"'] ∨ Q = ['~'] ∨ Q = ['`']) :
    '\n' ∉ codeArgs pr ⟨some D, some Q, some E, s⟩ Q := by
  have h1 : '\n' ∉ codeDelimiter ⟨some D, some Q, some E, s⟩ := by
    unfold codeDelimiter
    split
    · decide
    · rcases hD with rfl | ⟨c, rfl, h1, h2, h3, h4⟩
      · simp [fmtOpt]
      · simp [fmtOpt, Ne.symm h2]
  have h2 : '\n' ∉ codeQuotechar Q := by
    rcases hQ with rfl | rfl | rfl | rfl | rfl <;> decide
  have h3 : '\n' ∉ codeEscapechar pr ⟨some D, some Q, some E, s⟩ := by
    unfold codeEscapechar replaceChar
    intro h
    rw [List.mem_flatMap] at h
    obtain ⟨c, hc, h⟩ := h
    split at h
    · simp at h
    · simp only [List.mem_singleton] at h
      subst h
      have := pyRepr_shown pr _ _ hc
      unfold Shown at this
      simp at this
  unfold codeArgs
  simp only [List.mem_append, not_or]
  exact ⟨⟨⟨⟨⟨⟨by decide, h1⟩, by decide⟩, h2⟩, by decide⟩, h3⟩, by decide⟩

/-- **C111 as far as it holds**: the program that `clevercsv code` prints for a file, run in the same directory, leaves in
`rows` the rows of the whole file in the detected dialect, if the name of the file and that of the encoding stand for
themselves between double quotes and the delimiter is not the backslash.  Missing for the full property: other names
(`C69_violated`) and the backslash (`C57_violated`). -/
theorem C111_program_partial (sys : Sys) (pr : Printer) (hpr : '\n' ∉ pr.version) (p : Path) (enc : Option Str)
    (n : Option Int) (w w' : World) (h : codeCmd sys pr p enc n false w = (.ok 0, w')) (hp : SelfLiteral false p)
    (he : ∀ e, w.stdEncoding sys p enc = some e → SelfLiteral false e) :
    ∃ text d out, w.text sys p (w.stdEncoding sys p enc) = some text ∧
      (detect sys.env sys.order w.limit (Spec.detectionPart text n)).result = .ok (some d) ∧
      w'.stdout = w.stdout ++ out ∧
      (d.delimiter ≠ some ['\\'] → ∀ w'', w''.files = w'.files → w''.limit = w'.limit →
        runProgram sys w'' out = some (parseString w.limit d text).toList) := by
  obtain ⟨text, h1, hf, hl, ⟨h2, -⟩ | ⟨-, d, lines, h3, h4, h5⟩⟩ := C57_command sys pr p enc n false w w' 0 h
  · simp at h2
  refine ⟨text, d, joinLines lines ++ ['\n'], h1, h3, by rw [h5, List.append_assoc], ?_⟩
  intro hb w'' hw1 hw2
  obtain ⟨D, Q, E, rfl, hD, hQ, hE⟩ := detect_parts h3
  have hargs := (C57_iff pr _ _ _ _ _ _ D Q E false h3).mpr (fun h => hb (by rw [h]))
  unfold generateCode at h4
  simp only [Bool.false_eq_true, if_false, Except.ok.injEq] at h4
  have hnl : '\n' ∉ p := selfLiteral_no_lf hp
  have hline : '\n' ∉ openLine p (w.stdEncoding sys p enc) := by
    unfold openLine
    simp only [List.mem_append, not_or]
    refine ⟨⟨⟨⟨by decide, hnl⟩, by decide⟩, ?_⟩, by decide⟩
    cases hx : w.stdEncoding sys p enc with
    | none => decide
    | some e =>
      have : '\n' ∉ e := selfLiteral_no_lf (he e hx)
      simp [this]
  have hopen := openArgs_code p (w.stdEncoding sys p enc) hp he
  have hcl := codeArgs_line pr (E := E) (s := false) hD hQ
  replace h4 : codeBase pr ++ [[], openLine p (w.stdEncoding sys p enc), "    reader = clevercsv.reader(fp, ".toList ++
      codeArgs pr ⟨some D, some Q, some E, false⟩ Q, "    rows = list(reader)".toList, []] = lines := h4
  generalize openLine p (w.stdEncoding sys p enc) = l2 at h4 hline hopen
  have hl2 : effective l2 = true := by
    obtain ⟨t, rfl⟩ := openArgs_prefix hopen
    rfl
  have hprog : (progLines (joinLines lines ++ ['\n'])).filter effective =
      ["import clevercsv".toList, l2, "    reader = clevercsv.reader(fp, ".toList ++
        codeArgs pr ⟨some D, some Q, some E, false⟩ Q, "    rows = list(reader)".toList] := by
    rw [progLines_join, ← h4]
    · have e1 : effective ("# Code generated with CleverCSV version ".toList ++ pr.version) = false := rfl
      have e2 : effective ("    reader = clevercsv.reader(fp, ".toList ++
        codeArgs pr ⟨some D, some Q, some E, false⟩ Q) = true := rfl
      have e3 : effective "import clevercsv".toList = true := rfl
      have e4 : effective "    rows = list(reader)".toList = true := rfl
      have e0 : effective [] = false := rfl
      simp only [codeBase, List.cons_append, List.nil_append, List.filter_cons, List.filter_nil, e0, e1, e2, e3, e4, hl2,
        Bool.false_eq_true, if_false, if_true]
    · rw [← h4]; simp [codeBase]
    · intro l hmem
      rw [← h4] at hmem
      simp only [codeBase, List.cons_append, List.nil_append, List.mem_cons, List.not_mem_nil, or_false] at hmem
      rcases hmem with rfl | rfl | rfl | rfl | rfl | rfl | rfl | rfl | rfl
      · simp
      · simp only [List.mem_append, not_or]; exact ⟨by decide, hpr⟩
      · simp
      · decide
      · simp
      · exact hline
      · simp only [List.mem_append, not_or]; exact ⟨by decide, hcl⟩
      · decide
      · simp
  have htext : w''.text sys p (w.stdEncoding sys p enc) = some text := by
    rw [← h1]
    exact text_files (by rw [hw1, hf])
  unfold runProgram
  rw [hprog]
  simp only [and_self, if_true, bind, Option.bind, hopen, after_append, hargs, htext]
  rw [hw2, hl, C70_same_rows _ _ _ _ _ _ _ D Q E false h3 text]

/-- Choosing the encoding and detecting the dialect of a file that can be decoded. -/
theorem choose_detect {sys : Sys} (hq : Quiet sys) {α : Type} (n : Option Int) {p : Path} {enc : Option Str} {w : World}
    {text : Str} {r : Option SimpleDialect} (ht : w.text sys p (w.stdEncoding sys p enc) = some text)
    (hd : (detect sys.env sys.order w.limit (Spec.detectionPart text n)).result = .ok r)
    (k : Option Str → Option SimpleDialect → Act α) :
    ∃ w1, w1.files = w.files ∧ w1.limit = w.limit ∧ w1.stdout = w.stdout ∧
      (stdChoose sys p enc >>= fun e => detectDialect sys p n e >>= fun r => k e r) w =
        k (w.stdEncoding sys p enc) r w1 := by
  obtain ⟨b, hb⟩ := text_some ht
  have henc : ∀ e' w, w.files p = some b → ∃ w0 : World, stdChoose sys p e' w = (.ok (w.stdEncoding sys p e'), w0) ∧
      w0.files = w.files ∧ w0.limit = w.limit ∧ w0.stdout = w.stdout := by
    intro e' w hb
    unfold stdChoose World.stdEncoding
    cases truthy e' with
    | some x => exact ⟨w, rfl, rfl, rfl, rfl⟩
    | none =>
      refine ⟨w.next, ?_, rfl, rfl, rfl⟩
      simp only
      unfold getEncoding
      rw [act_bind_ok (openRead_quiet hq hb)]
      simp [World.guess, hb]
  obtain ⟨w0, h0, hf0, hl0, hs0⟩ := henc enc w hb
  obtain ⟨w2, h2, hf2, hl2, hs2⟩ := henc (w.stdEncoding sys p enc) w0 (by rw [hf0, hb])
  have hguess : w0.stdEncoding sys p (w.stdEncoding sys p enc) = w.stdEncoding sys p enc := by
    have : w0.stdEncoding sys p (w.stdEncoding sys p enc) = w.stdEncoding sys p (w.stdEncoding sys p enc) := by
      unfold World.stdEncoding World.guess
      rw [hf0]
    rw [this, stdEncoding_idem]
  rw [hguess] at h2
  have ht2 : w2.text sys p (w.stdEncoding sys p enc) = some text := by
    rw [text_files (w := w) (by rw [hf2, hf0]), ht]
  have hdet : detectDialect sys p n (w.stdEncoding sys p enc) "auto".toList true w0 =
      runDetector sys (readSome text n) "auto".toList true w2.next := by
    have : detectDialect sys p n (w.stdEncoding sys p enc) "auto".toList true =
        (stdChoose sys p (w.stdEncoding sys p enc) >>= fun e => openText sys p e >>= fun text =>
          runDetector sys (readSome text n) "auto".toList true) := by
      unfold detectDialect stdChoose
      cases truthy (w.stdEncoding sys p enc) <;> rfl
    rw [this, act_bind_ok h2, act_bind_ok (openText_ok (hq _) ht2)]
  rw [readSome_eq, runDetector_apply, World.next_limit, hl2, hl0] at hdet
  rw [act_bind_ok h0]
  rw [hd] at hdet
  rw [act_bind_ok hdet]
  exact ⟨{ w2.next with limit := _ }, hf2.trans hf0, C37_restored_partial _ _ _ _ _ _ _ _ hd, hs2.trans hs0, rfl⟩

/-- **C111**, the command succeeds if a dialect is detected and no operation fails. -/
theorem C111_completes (sys : Sys) (hq : Quiet sys) (pr : Printer) (p : Path) (enc : Option Str) (n : Option Int) (w : World)
    (text : Str) (d : SimpleDialect) (ht : w.text sys p (w.stdEncoding sys p enc) = some text)
    (hd : (detect sys.env sys.order w.limit (Spec.detectionPart text n)).result = .ok (some d)) (pandas : Bool) :
    ∃ w', codeCmd sys pr p enc n pandas w = (.ok 0, w') ∧ w'.files = w.files ∧ w'.limit = w.limit := by
  have heq : codeCmd sys pr p enc n pandas = (stdChoose sys p enc >>= fun e => detectDialect sys p n e >>= fun r =>
      match r with
      | none => pure 1
      | some d => do
        let lines ← liftExcept (generateCode pr p d e pandas)
        printText (joinLines lines ++ ['\n'])
        return 0) := rfl
  obtain ⟨w1, hf, hl, -, h⟩ := choose_detect hq n ht hd (fun e r =>
      match r with
      | none => pure 1
      | some d => do
        let lines ← liftExcept (generateCode pr p d e pandas)
        printText (joinLines lines ++ ['\n'])
        return 0)
  obtain ⟨D, Q, E, rfl, -⟩ := detect_parts hd
  obtain ⟨lines, hg, -⟩ := C57_code pr p D Q E false (w.stdEncoding sys p enc) pandas
  rw [heq, h]
  simp only [hg]
  exact ⟨_, rfl, hf, hl⟩

/-- **C111 for plain tables**: the program gives the table. -/
theorem C111_plain (sys : Sys) (hq : Quiet sys) (ha : sys.env.Ascii) (pr : Printer) (hpr : '\n' ∉ pr.version) (w : World)
    (hl : InLong w.limit) (p : Path) (hp : SelfLiteral false p) (enc : Option Str)
    (he : ∀ e, w.stdEncoding sys p enc = some e → SelfLiteral false e) (T : List (List Str)) (h : PlainTable T)
    (hlen : ∀ r ∈ T, ∀ s ∈ r, (s.length : Int) ≤ w.limit) (d : Char) (hd : d ∈ [',', ';', '|', '\t']) (nl : Str)
    (hnl : IsLineEnd nl) (text : Str) (ht : w.text sys p (w.stdEncoding sys p enc) = some text)
    (htext : text = tableText d nl T ∨ text ++ nl = tableText d nl T) :
    ∃ w' out, codeCmd sys pr p enc none false w = (.ok 0, w') ∧ w'.stdout = w.stdout ++ out ∧
      runProgram sys w' out = some (.ok T) := by
  have hd' : PlainDelim d := by simpa [PlainDelim] using hd
  have hres : (detect sys.env sys.order w.limit (detectionPart text none)).result =
      .ok (some (dialectOf (some d) none none)) :=
    congrArg Detection.result (C73_detect_partial sys.env ha sys.order w.limit T h d hd nl hnl text htext true)
  obtain ⟨w', h1, -, -⟩ := C111_completes sys hq pr p enc none w text _ ht hres false
  obtain ⟨text', d', out, h2, h3, h4, h5⟩ := C111_program_partial sys pr hpr p enc none w w' h1 hp he
  rw [ht] at h2
  cases h2
  rw [hres] at h3
  cases h3
  refine ⟨w', out, h1, h4, ?_⟩
  rw [h5 ?_ w' rfl rfl, h.parse hl hlen hd' hnl htext]
  · rfl
  · simp only [List.mem_cons, List.not_mem_nil, or_false] at hd
    rcases hd with rfl | rfl | rfl | rfl <;> decide

/-- **C111 for tables with quoted cells**: the program gives the table. -/
theorem C111_quoted {T : List (List (Bool × Str))} (sys : Sys) (hs : Quiet sys) (pr : Printer) (hpr : '\n' ∉ pr.version)
    (w : World) (hl : InLong w.limit) (p : Path) (hp : SelfLiteral false p) (enc : Option Str)
    (he : ∀ e, w.stdEncoding sys p enc = some e → SelfLiteral false e) (q : Char)
    (hq : q ∈ ['"', '\'']) (h : QuotedTable q T) (hlen : ∀ r ∈ T, ∀ x ∈ r, (x.2.length : Int) + 2 ≤ w.limit)
    (d : Char) (hd : d ∈ [',', ';', '|', '\t']) (nl : Str) (hnl : IsLineEnd nl) (text : Str)
    (ht : w.text sys p (w.stdEncoding sys p enc) = some text)
    (htext : text = quotedText d q nl T ∨ text ++ nl = quotedText d q nl T) (hesc : NoEscapes sys.env text) :
    ∃ w' out, codeCmd sys pr p enc none false w = (.ok 0, w') ∧ w'.stdout = w.stdout ++ out ∧
      runProgram sys w' out = some (.ok (values T)) := by
  have hres : (detect sys.env sys.order w.limit (detectionPart text none)).result =
      .ok (some (dialectOf (some d) (some q) none)) :=
    congrArg Detection.result (C91_detect sys.env sys.order w.limit q hq h d hd nl hnl text htext hesc true)
  obtain ⟨w', h1, -, -⟩ := C111_completes sys hs pr p enc none w text _ ht hres false
  obtain ⟨text', d', out, h2, h3, h4, h5⟩ := C111_program_partial sys pr hpr p enc none w w' h1 hp he
  rw [ht] at h2
  cases h2
  rw [hres] at h3
  cases h3
  refine ⟨w', out, h1, h4, ?_⟩
  rw [h5 ?_ w' rfl rfl, (h.parse_flags hl hlen (by simpa [PlainDelim] using hd) (by simpa [PlainQuote] using hq) hnl htext).2]
  · rfl
  · simp only [List.mem_cons, List.not_mem_nil, or_false] at hd
    rcases hd with rfl | rfl | rfl | rfl <;> simp [dialectOf]

/-- **C111 fails** for a file with the backslash as delimiter, and for a file name with a backslash: the program cannot be
run, or opens a file that does not exist. -/
theorem C111_violated :
    let w := demoWorld [("f", "1\\2\n3\\4\n"), ("a\\new", "1,2\n3,4\n")]
    let r := codeCmd demoSys demoPrinter "f".toList none none false w
    let r' := codeCmd demoSys demoPrinter "a\\new".toList none none false w
    r.1 = .ok 0 ∧ runProgram demoSys r.2 r.2.stdout = none ∧ r'.1 = .ok 0 ∧ runProgram demoSys r'.2 r'.2.stdout = none := by
  decide +kernel

/-- A concrete case. -/
example :
    let r := codeCmd demoSys demoPrinter "f.csv".toList none none false (demoWorld [("f.csv", "a;\"b\nc\"\n1;2\n")])
    r.1 = .ok 0 ∧ runProgram demoSys r.2 r.2.stdout =
      some (.ok [["a".toList, "b\nc".toList], ["1".toList, "2".toList]]) := by
  decide +kernel

end Clever.Props
