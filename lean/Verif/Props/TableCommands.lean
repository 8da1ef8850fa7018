import Verif.Props.Program
import Verif.Props.View
import Verif.Props.QuotedTables

/-!
# C114: the detect and view commands on tables
-/

namespace Clever.Spec

open Clever

/-- The literal that is printed for a character of a dialect. -/
def shownAs : Option Char → String
  | none => "''"
  | some '\t' => "'\\t'"
  | some '\'' => "\"'\""
  | some c => "'" ++ String.ofList [c] ++ "'"

/-- What the detect command prints. -/
def report (d q : Option Char) : Str :=
  ("Detected: SimpleDialect(" ++ shownAs d ++ ", " ++ shownAs q ++ ", '')\n").toList

end Clever.Spec

namespace Clever.Props

open Clever Clever.Spec

/-- Detection on a file that can be decoded, with any setting of `skip`. -/
theorem detectDialect_quiet {sys : Sys} (hq : Quiet sys) (n : Option Int) {p : Path} {enc : Option Str} {w : World}
    {text : Str} {r : Option SimpleDialect} (skip : Bool) (ht : w.text sys p (w.stdEncoding sys p enc) = some text)
    (hd : (detect sys.env sys.order w.limit (Spec.detectionPart text n) none .auto skip).result = .ok r) :
    ∃ w1, w1.files = w.files ∧ w1.limit = w.limit ∧ w1.stdout = w.stdout ∧
      detectDialect sys p n enc "auto".toList skip w = (.ok r, w1) := by
  obtain ⟨b, hb⟩ := text_some ht
  have henc : ∃ w0 : World, stdChoose sys p enc w = (.ok (w.stdEncoding sys p enc), w0) ∧
      w0.files = w.files ∧ w0.limit = w.limit ∧ w0.stdout = w.stdout := by
    unfold stdChoose World.stdEncoding
    cases truthy enc with
    | some x => exact ⟨w, rfl, rfl, rfl, rfl⟩
    | none =>
      refine ⟨w.next, ?_, rfl, rfl, rfl⟩
      simp only
      unfold getEncoding
      rw [act_bind_ok (openRead_quiet hq hb)]
      simp [World.guess, hb]
  obtain ⟨w0, h0, hf0, hl0, hs0⟩ := henc
  have ht0 : w0.text sys p (w.stdEncoding sys p enc) = some text := by
    rw [text_files (w := w) (by rw [hf0]), ht]
  have hdet : detectDialect sys p n enc "auto".toList skip w =
      runDetector sys (readSome text n) "auto".toList skip w0.next := by
    have : detectDialect sys p n enc "auto".toList skip =
        (stdChoose sys p enc >>= fun e => openText sys p e >>= fun text =>
          runDetector sys (readSome text n) "auto".toList skip) := by
      unfold detectDialect stdChoose
      cases truthy enc <;> rfl
    rw [this, act_bind_ok h0, act_bind_ok (openText_ok (hq _) ht0)]
  have hrun : ∀ (data : Str) (w : World), runDetector sys data "auto".toList skip w =
      ((detect sys.env sys.order w.limit data none .auto skip).result,
        { w with limit := (detect sys.env sys.order w.limit data none .auto skip).limit }) := fun data w => rfl
  rw [readSome_eq, hrun, World.next_limit, hl0, hd] at hdet
  exact ⟨{ w0.next with limit := _ }, hf0, C37_restored_partial _ _ _ _ _ _ _ _ hd, hs0, hdet⟩

/-- The detect command, when a dialect is detected and no operation fails. -/
theorem detectCmd_quiet {sys : Sys} (hq : Quiet sys) (pr : Printer) (n : Option Int) {p : Path} {enc : Option Str}
    {w : World} {text : Str} {D Q : Option Char} (hD : D ∈ [none, some ',', some ';', some '|', some '\t'])
    (hQ : Q ∈ [none, some '"', some '\'']) (noSkip : Bool) (ht : w.text sys p (w.stdEncoding sys p enc) = some text)
    (hd : (detect sys.env sys.order w.limit (Spec.detectionPart text n) none .auto (!noSkip)).result =
      .ok (some (dialectOf D Q none))) :
    ∃ w', detectCmd sys pr p enc n false noSkip .default w = (.ok 0, w') ∧ w'.files = w.files ∧ w'.limit = w.limit ∧
      w'.stdout = w.stdout ++ report D Q := by
  obtain ⟨w1, h1, h2, h3, h4⟩ := detectDialect_quiet hq n (!noSkip) ht hd
  have hrep : ("Detected: ".toList ++ (dialectOf D Q none).repr pr) ++ ['\n'] = report D Q := by
    simp only [List.mem_cons, List.not_mem_nil, or_false] at hD hQ
    rcases hD with rfl | rfl | rfl | rfl | rfl <;> rcases hQ with rfl | rfl | rfl <;> rfl
  refine ⟨{ w1 with stdout := w1.stdout ++ report D Q }, ?_, h1, h2, by rw [h3]⟩
  unfold detectCmd
  simp only [Bool.false_eq_true, if_false]
  rw [act_bind_ok h4, ← hrep]
  simp [detectLines, liftExcept, printText, act_bind]

/-- **C114, detect**, for plain tables. -/
theorem C114_detect_plain (sys : Sys) (hq : Quiet sys) (ha : sys.env.Ascii) (pr : Printer) (w : World) (p : Path)
    (enc : Option Str) (T : List (List Str)) (h : PlainTable T) (d : Char) (hd : d ∈ [',', ';', '|', '\t']) (nl : Str)
    (hnl : IsLineEnd nl) (text : Str) (ht : w.text sys p (w.stdEncoding sys p enc) = some text)
    (htext : text = tableText d nl T ∨ text ++ nl = tableText d nl T) (noSkip : Bool) :
    ∃ w', detectCmd sys pr p enc none false noSkip .default w = (.ok 0, w') ∧ w'.files = w.files ∧ w'.limit = w.limit ∧
      w'.stdout = w.stdout ++ report (some d) none :=
  detectCmd_quiet hq pr none (by simpa using hd) (by simp) noSkip ht
    (congrArg Detection.result (C73_detect_partial sys.env ha sys.order w.limit T h d hd nl hnl text htext (!noSkip)))

/-- **C114, detect**, for tables with quoted cells. -/
theorem C114_detect_quoted {T : List (List (Bool × Str))} (sys : Sys) (hs : Quiet sys) (pr : Printer) (w : World) (p : Path)
    (enc : Option Str) (q : Char) (hq : q ∈ ['"', '\'']) (h : QuotedTable q T) (d : Char) (hd : d ∈ [',', ';', '|', '\t'])
    (nl : Str) (hnl : IsLineEnd nl) (text : Str) (ht : w.text sys p (w.stdEncoding sys p enc) = some text)
    (htext : text = quotedText d q nl T ∨ text ++ nl = quotedText d q nl T) (hesc : NoEscapes sys.env text) (noSkip : Bool) :
    ∃ w', detectCmd sys pr p enc none false noSkip .default w = (.ok 0, w') ∧ w'.files = w.files ∧ w'.limit = w.limit ∧
      w'.stdout = w.stdout ++ report (some d) (some q) :=
  detectCmd_quiet hs pr none (by simpa using hd) (by simpa using hq) noSkip ht
    (congrArg Detection.result (C91_detect sys.env sys.order w.limit q hq h d hd nl hnl text htext hesc (!noSkip)))

theorem isTranspose_of_padded {T : List (List Str)} (h : Rect T) {T' : List (List (Option Str))}
    (hp : IsPaddedTranspose T T') : IsTranspose (T.map (·.map some)) T' := by
  intro i j
  have he : entry (T.map (·.map some)) i j = (entry T i j).map some := by
    simp only [entry, List.getElem?_map]
    cases T[i]? <;> simp
  rw [hp i j, he]
  split
  · rename_i hc
    obtain ⟨hi, r, hr, hj⟩ := hc
    have hlen := h _ (List.getElem_mem hi) r hr
    simp [entry, hi, List.getElem?_eq_getElem (show j < T[i].length by omega)]
  · rename_i hc
    by_cases hi : i < T.length
    · have hj : ¬ j < T[i].length := fun hj => hc ⟨hi, T[i], List.getElem_mem hi, hj⟩
      simp [entry, hi, List.getElem?_eq_none (Nat.not_lt.1 hj)]
    · simp [entry, List.getElem?_eq_none (Nat.not_lt.1 hi)]

/-- **C114, view**, for plain tables: the table is shown, and its transpose with `--transpose`. -/
theorem C114_view_plain (sys : Sys) (hq : Quiet sys) (ha : sys.env.Ascii) (w : World) (hl : InLong w.limit) (p : Path)
    (enc : Option Str) (T : List (List Str)) (h : PlainTable T) (hlen : ∀ r ∈ T, ∀ s ∈ r, (s.length : Int) ≤ w.limit)
    (d : Char) (hd : d ∈ [',', ';', '|', '\t']) (nl : Str) (hnl : IsLineEnd nl) (text : Str)
    (ht : w.text sys p (w.encodingFor sys p enc) = some text)
    (htext : text = tableText d nl T ∨ text ++ nl = tableText d nl T) :
    (viewCmd sys p enc none false w).1 = .ok (0, some (T.map (·.map some))) ∧
      ∃ T', IsTranspose (T.map (·.map some)) T' ∧ (viewCmd sys p enc none true w).1 = .ok (0, some T') := by
  obtain ⟨w', h1, -⟩ := C74_read sys hq ha w hl p enc T h hlen d hd nl hnl text ht htext
  obtain ⟨h2, h3⟩ := C56_view sys p enc none w w' T h1
  obtain ⟨T', h4, h5⟩ := h3 h.rows
  refine ⟨by rw [h2], T', ?_, by rw [h5]⟩
  exact isTranspose_of_padded h.rect h4

/-- **C114, view**, for tables with quoted cells. -/
theorem C114_view_quoted {T : List (List (Bool × Str))} (sys : Sys) (hs : Quiet sys) (w : World) (hl : InLong w.limit)
    (p : Path) (enc : Option Str) (q : Char) (hq : q ∈ ['"', '\'']) (h : QuotedTable q T)
    (hlen : ∀ r ∈ T, ∀ x ∈ r, (x.2.length : Int) + 2 ≤ w.limit) (d : Char) (hd : d ∈ [',', ';', '|', '\t']) (nl : Str)
    (hnl : IsLineEnd nl) (text : Str) (ht : w.text sys p (w.encodingFor sys p enc) = some text)
    (htext : text = quotedText d q nl T ∨ text ++ nl = quotedText d q nl T) (hesc : NoEscapes sys.env text) :
    (viewCmd sys p enc none false w).1 = .ok (0, some ((values T).map (·.map some))) := by
  obtain ⟨w', h1, -⟩ := C92_read sys hs w hl p enc q hq h hlen d hd nl hnl text ht htext hesc
  rw [(C56_view sys p enc none w w' _ h1).1]

/-- Concrete cases. -/
example :
    let w := demoWorld [("f", "a\tb\n1\t2\n"), ("g", "'a,b'|x\ny|'it''s'\n")]
    (detectCmd demoSys demoPrinter "f".toList none none false false .default w).2.stdout =
      "Detected: SimpleDialect('\\t', '', '')\n".toList ∧
    (detectCmd demoSys demoPrinter "g".toList none none false false .default w).2.stdout =
      "Detected: SimpleDialect('|', \"'\", '')\n".toList ∧
    (viewCmd demoSys "f".toList none none true w).1 =
      .ok (0, some [[some "a".toList, some "1".toList], [some "b".toList, some "2".toList]]) := by
  decide +kernel

end Clever.Props
