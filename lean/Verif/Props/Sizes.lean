import Verif.Proofs.Sizes
import Verif.Proofs.ParseApi
import Verif.Proofs.AbstractionSize

/-!
# C101: the parser delivers no more than it reads
-/

namespace Clever.Props

open Clever Clever.Spec

theorem delimiterCount_eq {d : SimpleDialect} {limit : Int} {cfg : Cfg} (h : d.cfg limit = .ok cfg) (t : Str) :
    delimiterCount d.delimiter t = delims cfg.delimiter t := by
  obtain ⟨dl, q, e, s⟩ := d
  simp only [SimpleDialect.cfg, mkCfg, bind, Except.bind] at h
  split at h
  · cases h
  · rename_i c hc
    have : cfg.delimiter = c := by
      repeat' split at h
      all_goals simp only [reduceCtorEq, pure, Except.pure, Except.ok.injEq] at h
      rw [← h]
    rw [this]
    unfold setChar at hc
    split at hc
    · simp only [Except.ok.injEq] at hc; simp [delimiterCount, delims, ← hc]
    · simp only [Except.ok.injEq] at hc; simp [delimiterCount, delims, ← hc]
    · simp only [Except.ok.injEq] at hc; simp [delimiterCount, delims, ← hc]
    · cases hc

theorem parseData_sizes {α : Type} {sz : α → Nat} {mk : Str → Bool → α} (hm : SizeMk sz mk) (limit : Int)
    (d : SimpleDialect) (t : Str) :
    let rows := (parseData limit d mk (strItems (linesUniv t))).1
    charCount sz rows.flatten ≤ t.length ∧ rows.length ≤ (textLines t).length ∧
      rows.flatten.length ≤ rows.length + delimiterCount d.delimiter t := by
  simp only
  unfold parseData
  split
  · simp [charCount]
  · rename_i cfg hcfg
    have h := parseRows_sizes (cfg := cfg) hm (strItems (linesUniv t))
    rw [itemChars_str, itemDelims_str, linesUniv_flatten] at h
    rw [delimiterCount_eq hcfg]
    refine ⟨h.1, ?_, h.2.2⟩
    rw [← linesUniv_length]
    simpa [strItems] using h.2.1

/-- C101, `parse_string`: with any dialect and any limit, and also if an error ends the parse, the cells together have
no more characters than the text, there are no more rows than lines, and in all there are at most as many cells as rows
and delimiters. -/
theorem C101_parse_string (limit : Int) (d : SimpleDialect) (t : Str) :
    let rows := (parseString limit d t).1
    (rows.flatten.map List.length).sum ≤ t.length ∧ rows.length ≤ (textLines t).length ∧
      rows.flatten.length ≤ rows.length + delimiterCount d.delimiter t :=
  parseData_sizes (sz := List.length) (fun _ _ => rfl) limit d t

/-- C101 with the quoted flags. -/
theorem C101_parse_string_quoted (limit : Int) (d : SimpleDialect) (t : Str) :
    let rows := (parseStringQuoted limit d t).1
    (rows.flatten.map fun x => x.1.length).sum ≤ t.length ∧ rows.length ≤ (textLines t).length ∧
      rows.flatten.length ≤ rows.length + delimiterCount d.delimiter t :=
  parseData_sizes (sz := fun x : Str × Bool => x.1.length) (fun _ _ => rfl) limit d t

/-- C101 for a parser object that reads any strings, whether they are lines or not: as many strings as rows are read,
and what a call of `next` delivers it has read. -/
theorem C101_next_row (cfg : Cfg) (items rest : List Item) (r : List Str) (h : nextRow cfg mkPlain items = (.row r, rest)) :
    (r.map List.length).sum + itemChars rest ≤ itemChars items ∧
      r.length + itemDelims cfg.delimiter rest ≤ itemDelims cfg.delimiter items + 1 := by
  have h1 := held_nextRowFrom (sz := List.length) (fun _ _ => rfl) (o := PObj.init) (by simp [PObj.init]) h
  have h2 := dinv_nextRowFrom (dinv_init cfg) (by simp [PObj.init]) h
  simp only [held, PObj.init, charCount, List.map_nil, List.sum_nil, List.length_nil, pending] at h1
  exact ⟨by omega, by omega⟩

/-- C101, `make_abstraction`: the delimiters and row ends of an abstraction come from different characters of the text,
and the letters that are filled in make it at most twice as long. -/
theorem C101_abstraction (data : Str) (d : SimpleDialect) (A : Str) (h : makeAbstraction data d = .ok A) :
    A.count 'R' + A.count 'D' ≤ data.length ∧ A.length ≤ 2 * data.length + 1 := makeAbstraction_size h

example : makeAbstraction ",,".toList (dialectOf (some ',') none none) = .ok "CDCDC".toList := by decide +kernel

/-- All bounds are attained, and escapes and quotes make the cells smaller. -/
example :
    (parseString 100 (dialectOf (some ',') (some '"') (some '\\')) "a,b\nc,d".toList).1 =
      ["a".toList :: ["b".toList], "c".toList :: ["d".toList]] ∧
    (parseString 100 (dialectOf (some ',') (some '"') (some '\\')) "\\x".toList).1 = [["\\x".toList]] ∧
    (parseString 100 (dialectOf (some ',') (some '"') (some '\\')) "\"a,b\"\n".toList).1 = [["a,b".toList]] ∧
    delimiterCount (some ",".toList) "a,b\nc,d".toList = 2 ∧ (textLines "a,b\nc,d".toList).length = 2 := by
  decide +kernel

end Clever.Props
