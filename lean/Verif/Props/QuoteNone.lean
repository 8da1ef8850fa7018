import Verif.Proofs.QuoteNone
import Verif.Props.ExactFit

/-!
# Property C03, exactly: writing without a quote character
-/

namespace Clever

namespace Spec

/-- What is read for a cell that was written without quotes: the writer takes the double quote for a quote character and puts the
escape character, if there is one, in front of it; the reader takes it for a character like any other and keeps both. -/
def unquotedReading (d : Char) (e : Option Char) (s : Str) : Str :=
  match e with
  | none => s
  | some e => if d = '"' ∨ e = '"' then s else s.flatMap fun c => if c = '"' then [e, c] else [c]

end Spec

namespace Props

open Spec

/-- **C03, exactly.**  Whatever the writer without quotes accepts is read as `unquotedReading` of its cells, if these have no NUL
and fit the field size limit; and otherwise there is an exception. -/
theorem C03_exact (limit : Int) (hl : InLong limit) (d : Char) (e : Option Char)
    (hd : d ≠ NUL ∧ isNL d = false)
    (he : ∀ c, e = some c → c ≠ NUL ∧ isNL c = false ∧ c ≠ d)
    (wd : WDialect) (hwd : mkWriter (.simple (dialectOf (some d) none e)) = .ok wd)
    (rows : List (List Str)) (text : Str) (hw : wd.writeRows rows = (text, none)) :
    let rows' := rows.map (·.map (unquotedReading d e))
    (readText limit (.simple (dialectOf (some d) none e)) {} text = .ok rows' ↔ CanReadBackUnquoted limit rows') ∧
    (¬ CanReadBackUnquoted limit rows' →
      ∃ err, readText limit (.simple (dialectOf (some d) none e)) {} text = .error err) := by
  intro rows'
  have hid : (e = none ∨ d = '"' ∨ e = some '"') → rows' = rows := by
    intro h
    have : unquotedReading d e = id := by
      funext s
      rcases h with h | h | h
      · simp [unquotedReading, h]
      · cases e <;> simp [unquotedReading, h]
      · simp [unquotedReading, h]
    simp [rows', this]
  by_cases h : e = none ∨ d = '"' ∨ e = some '"'
  · rw [hid h]
    exact C03_exact_partial limit hl d e hd he wd hwd rows text hw (by tauto)
  · simp only [not_or] at h
    obtain ⟨h1, h2, h3⟩ := h
    cases e with
    | none => exact absurd rfl h1
    | some e =>
      have heq : e ≠ '"' := fun h => h3 (by rw [h])
      obtain ⟨e1, e2, e3⟩ := he e rfl
      rw [mkWriter_simple] at hwd
      simp only [Except.ok.injEq] at hwd
      subst hwd
      have hr : rows' = rows.map (·.map (escQuotes e)) := by
        have : unquotedReading d (some e) = escQuotes e := by
          funext s
          simp [unquotedReading, escQuotes, h2, heq]
        simp [rows', this]
      obtain ⟨text', hw', hdup⟩ := writeRows_dup h2 heq (Ne.symm e3) e2 rows text hw
      have hx := unquoted_exact (wd := bareWriter d e) (d := some d) (q := none) (e := some e) limit hl
        (by
          constructor <;> simp [bareWriter, simpleWriter, cfgOf, hd, e1, e2, e3])
        (.simple (dialectOf (some d) none (some e))) (makeSimpleDialect_dialectOf _ _ _ _) rfl rows' (by rw [hr, hw'])
        (fun _ _ _ _ _ _ _ hc => by simp [bareWriter] at hc)
      rw [hr, hw'] at hx
      have hsame : readText limit (.simple (dialectOf (some d) none (some e))) {} text =
          readText limit (.simple (dialectOf (some d) none (some e))) {} text' := by
        rw [readText_of limit hl _ {} (some d) none (some e) false (makeSimpleDialect_dialectOf _ _ _ _),
          readText_of limit hl _ {} (some d) none (some e) false (makeSimpleDialect_dialectOf _ _ _ _),
          parseText_eq_textRun, parseText_eq_textRun,
          textRun_dup (e := e) (by simp [cfgOf]) (by simp [cfgOf]) e1 e2 heq (by simpa [cfgOf] using h2) hdup PObj.init (.inl rfl)]
      rw [hsame, hr]
      exact hx

theorem unquotedReading_eq {d e : Char} (h1 : d ≠ '"') (h2 : e ≠ '"') (s : Str) :
    unquotedReading d (some e) s = s ↔ '"' ∉ s := by
  simp only [unquotedReading, h1, h2, or_self, if_false]
  have hle : ∀ s : Str, s.length ≤ (s.flatMap fun c => if c = '"' then [e, c] else [c]).length := by
    intro s
    induction s with
    | nil => simp
    | cons c s ih =>
      rw [List.flatMap_cons, List.length_append, List.length_cons]
      split <;> simp only [List.length_cons, List.length_nil] <;> omega
  induction s with
  | nil => simp
  | cons c s ih =>
    rw [List.flatMap_cons]
    by_cases hc : c = '"'
    · rw [if_pos hc]
      constructor
      · intro h
        have := congrArg List.length h
        have := hle s
        simp only [List.length_append, List.length_cons, List.length_nil] at *
        omega
      · intro h
        exact absurd (by simp [hc]) h
    · rw [if_neg hc, List.singleton_append, List.cons.injEq, List.mem_cons, not_or]
      exact ⟨fun h => ⟨Ne.symm hc, ih.1 h.2⟩, fun h => ⟨rfl, ih.2 h.2⟩⟩

/-- **C03, when.**  What the writer without quotes accepts is read back if and only if its cells have no NUL, fit the field size
limit, and have no double quote (if there is an escape character, and neither it nor the delimiter is the double quote). -/
theorem C03_iff (limit : Int) (hl : InLong limit) (d : Char) (e : Option Char)
    (hd : d ≠ NUL ∧ isNL d = false)
    (he : ∀ c, e = some c → c ≠ NUL ∧ isNL c = false ∧ c ≠ d)
    (wd : WDialect) (hwd : mkWriter (.simple (dialectOf (some d) none e)) = .ok wd)
    (rows : List (List Str)) (text : Str) (hw : wd.writeRows rows = (text, none)) :
    readText limit (.simple (dialectOf (some d) none e)) {} text = .ok rows ↔
      CanReadBackUnquoted limit rows ∧
        (e = none ∨ d = '"' ∨ e = some '"' ∨ ∀ row ∈ rows, ∀ s ∈ row, '"' ∉ s) := by
  by_cases hq : e = none ∨ d = '"' ∨ e = some '"' ∨ ∀ row ∈ rows, ∀ s ∈ row, '"' ∉ s
  · rw [(C03_exact_partial limit hl d e hd he wd hwd rows text hw hq).1]
    simp [hq]
  · refine ⟨fun h => absurd ?_ hq, fun h => absurd h.2 hq⟩
    obtain ⟨h1, h2⟩ := C03_exact limit hl d e hd he wd hwd rows text hw
    have h3 : CanReadBackUnquoted limit (rows.map (·.map (unquotedReading d e))) := by
      by_contra hx
      obtain ⟨err, hx⟩ := h2 hx
      rw [h] at hx
      cases hx
    have h4 := h1.2 h3
    rw [h] at h4
    have h5 : rows = rows.map (·.map (unquotedReading d e)) := Except.ok.inj h4
    simp only [not_or] at hq
    obtain ⟨q1, q2, q3, -⟩ := hq
    cases e with
    | none => exact absurd rfl q1
    | some e =>
      refine .inr (.inr (.inr fun row hr s hs => ?_))
      have h6 : row.map (unquotedReading d (some e)) = row := by
        have : ∀ rows : List (List Str), rows = rows.map (·.map (unquotedReading d (some e))) → ∀ row ∈ rows,
            row.map (unquotedReading d (some e)) = row := by
          intro rows
          induction rows with
          | nil => simp
          | cons r rs ih =>
            intro h row hr
            rw [List.map_cons, List.cons.injEq] at h
            rcases List.mem_cons.1 hr with rfl | hr
            · exact h.1.symm
            · exact ih h.2 row hr
        exact this rows h5 row hr
      have h7 : unquotedReading d (some e) s = s := by
        have := List.map_inj_left.1 (h6.trans (List.map_id row).symm) s hs
        exact this
      exact (unquotedReading_eq q2 (fun h => q3 (by rw [h])) s).1 h7

/-- A case with escaped quotes, delimiters, escape characters and line breaks. -/
example :
    (simpleWriter ',' none (some '\\')).writeRows [["a\"b".toList, "c,d".toList], ["\\".toList, "x\ny".toList]] =
      ("a\\\"b,c\\,d\n\\\\,x\\\ny\n".toList, none) ∧
    readText 4 (.simple (dialectOf (some ',') none (some '\\'))) {} "a\\\"b,c\\,d\n\\\\,x\\\ny\n".toList =
      .ok [["a\\\"b".toList, "c,d".toList], ["\\".toList, "x\ny".toList]] ∧
    readText 3 (.simple (dialectOf (some ',') none (some '\\'))) {} "a\\\"b,c\\,d\n\\\\,x\\\ny\n".toList =
      .error (.parse (.fieldLimit 3)) := by
  decide +kernel

end Props

end Clever
