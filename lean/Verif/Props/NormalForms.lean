import Verif.Proofs.NormalForm
import Verif.Proofs.FormLengths
import Verif.Props.Parsing

/-!
# Normal forms and the parser: C42
-/

namespace Clever.Props

open Clever

/-- The test that chose the dialect. -/
theorem normal_cases {env : PyEnv} {data : Str} {dia : SimpleDialect}
    (h : detectDialectNormal env data none = some dia) :
    (∃ d ∈ [',', ';', '|', '\t'], dia = dialectOf (some d) none none ∧ isForm2 (splitFile data) [d] [] = true) ∨
    (∃ d ∈ [',', ';', '|', '\t'], ∃ q ∈ ['\'', '"'], dia = dialectOf (some d) (some q) none ∧
      (isForm1 (splitFile data) [d] [q] = true ∨ isForm3 (splitFile data) [d] [q] = true ∨
        isForm5 (splitFile data) [d] [q] = true)) ∨
    (∃ q ∈ ['\'', '"'], dia = dialectOf none (some q) none ∧ isForm4 (splitFile data) [q] = true) ∨
    (dia = dialectOf none none none ∧ isForm4 (splitFile data) [] = true) := by
  unfold detectDialectNormal at h
  simp only at h
  split at h
  · simp at h
  simp only [Option.map_eq_some_iff] at h
  obtain ⟨t, ht, rfl⟩ := h
  have hm := List.mem_of_find?_eq_some ht
  have hh : t.holds (splitFile data) = true := by
    have := List.find?_some ht
    simpa using this
  simp only [formTests, List.mem_append, List.mem_map, List.mem_flatMap, List.mem_singleton,
    Option.getD_none] at hm
  have hdel : ∀ d, d ∈ nfDelims → ∃ c ∈ [',', ';', '|', '\t'], d = [c] := by
    intro d hd
    simpa [nfDelims] using hd
  have hquo : ∀ q, q ∈ nfQuotechars → ∃ c ∈ ['\'', '"'], q = [c] := by
    intro d hd
    simpa [nfQuotechars] using hd
  rcases hm with ((⟨d, hd, rfl⟩ | ⟨d, hd, q, hq, ht⟩) | ⟨q, hq, rfl⟩) | rfl
  · obtain ⟨c, hc, rfl⟩ := hdel d hd
    exact .inl ⟨c, hc, rfl, hh⟩
  · obtain ⟨c, hc, rfl⟩ := hdel d hd
    obtain ⟨e, he, rfl⟩ := hquo q hq
    simp only [List.mem_cons, List.not_mem_nil, or_false] at ht
    refine .inr (.inl ⟨c, hc, e, he, ?_⟩)
    rcases ht with rfl | rfl | rfl
    · exact ⟨rfl, .inl hh⟩
    · exact ⟨rfl, .inr (.inl hh)⟩
    · exact ⟨rfl, .inr (.inr hh)⟩
  · obtain ⟨e, he, rfl⟩ := hquo q hq
    exact .inr (.inr (.inl ⟨e, he, rfl, hh⟩))
  · exact .inr (.inr (.inr ⟨rfl, hh⟩))

/-- All rows have the same number of cells, blank rows aside. -/
def Rectangular (rows : List (List Str)) : Prop := ∃ k, ∀ r ∈ rows, r = [] ∨ r.length = k

/-- The full claim of C42. -/
def NormalAgrees : Prop :=
  ∀ (env : PyEnv) (limit : Int) (data : Str) (dia : SimpleDialect), InLong limit → NUL ∉ data →
    (data.length : Int) ≤ limit → detectDialectNormal env data none = some dia →
    Rectangular (parseString limit dia data).1

theorem delim_ne_quote {d q : Char} (hd : d ∈ [',', ';', '|', '\t']) (hq : q ∈ ['\'', '"']) :
    d ≠ q ∧ isNL d = false ∧ isNL q = false ∧ (q = '"' ∨ q = '\'') :=
  (by decide : ∀ d ∈ [',', ';', '|', '\t'], ∀ q ∈ ['\'', '"'],
    d ≠ q ∧ isNL d = false ∧ isNL q = false ∧ (q = '"' ∨ q = '\'')) d hd q hq

/-- **C42** (part: dialects without a quotechar).  Normal-form detection that finds no quotechar agrees
with the parser. -/
theorem C42_unquoted_partial {env : PyEnv} {limit : Int} (hl : InLong limit) {data : Str}
    (hnul : NUL ∉ data) (hlim : (data.length : Int) ≤ limit) {dia : SimpleDialect}
    (h : detectDialectNormal env data none = some dia) (hq : dia.quotechar = some []) :
    Rectangular (parseString limit dia data).1 := by
  rcases normal_cases h with ⟨d, hd, rfl, hf⟩ | ⟨d, hd, q, hq', rfl, hf⟩ | ⟨q, hq', rfl, hf⟩ | ⟨rfl, hf⟩
  · exact form2_lengths hl hnul hlim (delim_ne_quote hd (q := '"') (by simp)).2.1 hf
  · simp [dialectOf] at hq
  · simp [dialectOf] at hq
  · exact ⟨1, form4_lengths_unquoted hl hnul hlim hf⟩

example : detectDialectNormal asciiEnv "a,b\nc,d".toList none = some (dialectOf (some ',') none none) := by
  decide +kernel

/-- **C42** (part: single columns).  If no delimiter is found then each row has one cell. -/
theorem C42_single_column_partial {env : PyEnv} {limit : Int} (hl : InLong limit) {data : Str}
    (hnul : NUL ∉ data) (hlim : (data.length : Int) ≤ limit) {dia : SimpleDialect}
    (h : detectDialectNormal env data none = some dia) (hd : dia.delimiter = some []) :
    ∀ r ∈ (parseString limit dia data).1, r = [] ∨ r.length = 1 := by
  rcases normal_cases h with ⟨d, hd', rfl, hf⟩ | ⟨d, hd', q, hq, rfl, hf⟩ | ⟨q, hq, rfl, hf⟩ | ⟨rfl, hf⟩
  · simp [dialectOf] at hd
  · simp [dialectOf] at hd
  · exact form4_lengths_quoted hl hnul hlim (delim_ne_quote (d := ',') (by simp) hq).2.2.2 hf
  · exact form4_lengths_unquoted hl hnul hlim hf

example : detectDialectNormal asciiEnv "\"a b\"\n\"c\"".toList none = some (dialectOf none (some '"') none) := by
  decide +kernel

/-- **C42** (part: quoted cells).  Normal-form detection agrees with the parser if no row ends with the
delimiter, and no quotechar occurs inside a quoted cell.  What is missing, those two conditions, is missing
from the code: see `C42_violated` and `C42_nested_violated`. -/
theorem C42_same_length_partial {env : PyEnv} {limit : Int} (hl : InLong limit) {data : Str}
    (hnul : NUL ∉ data) (hlim : (data.length : Int) ≤ limit) {dia : SimpleDialect}
    (h : detectDialectNormal env data none = some dia)
    (hlast : ∀ d q, dia = dialectOf (some d) (some q) none →
      ∀ row ∈ splitFile data, row.getLast? ≠ some d)
    (hnest : ∀ d q, dia = dialectOf (some d) (some q) none →
      ∀ row ∈ splitFile data, ∀ cell ∈ splitRow row [d] [q], q ∉ inner cell) :
    (parseString limit dia data).2 = none ∧ Rectangular (parseString limit dia data).1 := by
  constructor
  · rcases normal_cases h with ⟨d, hd, rfl, hf⟩ | ⟨d, hd, q, hq, rfl, hf⟩ | ⟨q, hq, rfl, hf⟩ | ⟨rfl, hf⟩ <;>
    · rw [parseString_eq _ _ _ _ hl, parseText_spec _ _ _ rfl rfl hnul hlim]
      rfl
  rcases normal_cases h with ⟨d, hd, rfl, hf⟩ | ⟨d, hd, q, hq, rfl, hf⟩ | ⟨q, hq, rfl, hf⟩ | ⟨rfl, hf⟩
  · exact C42_unquoted_partial hl hnul hlim h rfl
  · obtain ⟨h1, h2, h3, h4⟩ := delim_ne_quote hd hq
    rcases hf with hf | hf | hf
    · exact form1_lengths hl hnul hlim h1 h2 h3 hf (hlast d q rfl)
    · exact form3_lengths hl hnul hlim h1 h2 h4 hf (hlast d q rfl) (hnest d q rfl)
    · exact ⟨1, form5_lengths hl hnul hlim h1 h4 hf⟩
  · exact ⟨1, C42_single_column_partial hl hnul hlim h rfl⟩
  · exact ⟨1, C42_single_column_partial hl hnul hlim h rfl⟩

example : detectDialectNormal asciiEnv "\"a\",\"b,c\"\r\n\"d\",\"\"\r\n".toList none =
      some (dialectOf (some ',') (some '"') none) ∧
    parseString 100 (dialectOf (some ',') (some '"') none) "\"a\",\"b,c\"\r\n\"d\",\"\"\r\n".toList =
      ([["a".toList, "b,c".toList], ["d".toList, []]], none) := by
  decide +kernel

/-- **C42** (part: exactly when it holds).  If no quotechar occurs inside a quoted cell, the rows of the parser all have the
same number of cells exactly if all the lines, or none of them, end with the delimiter.  What is missing: quotechars inside
quoted cells. -/
theorem C42_iff_partial {env : PyEnv} {limit : Int} (hl : InLong limit) {data : Str}
    (hnul : NUL ∉ data) (hlim : (data.length : Int) ≤ limit) {dia : SimpleDialect}
    (h : detectDialectNormal env data none = some dia)
    (hnest : ∀ d q, dia = dialectOf (some d) (some q) none →
      ∀ row ∈ splitFile data, ∀ cell ∈ splitRow row [d] [q], q ∉ inner cell) :
    Rectangular (parseString limit dia data).1 ↔ ∀ d q, dia = dialectOf (some d) (some q) none →
      (∀ row ∈ splitFile data, row.getLast? = some d) ∨ (∀ row ∈ splitFile data, row.getLast? ≠ some d) := by
  rcases normal_cases h with ⟨d, hd, rfl, hf⟩ | ⟨d, hd, q, hq, rfl, hf⟩ | ⟨q, hq, rfl, hf⟩ | ⟨rfl, hf⟩
  · exact ⟨fun _ d' q' e => by simp [dialectOf] at e, fun _ => C42_unquoted_partial hl hnul hlim h rfl⟩
  · obtain ⟨h1, h2, h3, h4⟩ := delim_ne_quote hd hq
    have hsuff : (Rectangular (parseString limit (dialectOf (some d) (some q) none) data).1 ↔
        (∀ row ∈ splitFile data, row.getLast? = some d) ∨ (∀ row ∈ splitFile data, row.getLast? ≠ some d)) := by
      rcases hf with hf | hf | hf
      · simp only [isForm1, Bool.and_eq_true, List.all_eq_true] at hf
        refine quoted_rectangular hl hnul hlim h1 h2 hf.1 fun row hr cell hc => ?_
        obtain ⟨⟨-, g1⟩, g2⟩ := (hf.2 row hr).2 cell hc
        rw [quotedCell_shape g1]
        exact ⟨okRow_quoted (not_mem_of_isInfixOf (by simpa using g2)) h3, by simp⟩
      · simp only [isForm3, Bool.and_eq_true, List.all_eq_true] at hf
        refine quoted_rectangular hl hnul hlim h1 h2 hf.1.1 fun row hr cell hc => ?_
        obtain ⟨he, hcell⟩ := (hf.2 row hr).2 cell hc
        refine ⟨?_, ?_⟩
        · split at hcell
          · rw [quotedCell_shape hcell]
            exact okRow_quoted (hnest d q rfl row hr cell hc) h3
          · simp only [isElementary, Bool.and_eq_true, List.all_eq_true] at hcell
            refine okRow_plain ?_ fun c hcc => (elementary_plain (hcell.2 c hcc)).1
            intro hm
            have := elementary_plain (hcell.2 q hm)
            rcases h4 with rfl | rfl
            · exact this.2.1 rfl
            · exact this.2.2 rfl
        · rintro rfl
          exact absurd he (by decide)
      · refine ⟨fun _ => .inr fun row hr hlast => ?_, fun _ => ⟨1, form5_lengths hl hnul hlim h1 h4 hf⟩⟩
        simp only [isForm5, Bool.and_eq_true, List.all_eq_true] at hf
        have hsh := quotedCell_shape (hf.1.2 row hr).2
        rw [hsh] at hlast
        rw [List.getLast?_append] at hlast
        simp at hlast
        exact h1 hlast.symm
    rw [hsuff]
    constructor
    · intro hh d' q' e
      have e1 : d = d' := by simpa [dialectOf] using congrArg SimpleDialect.delimiter e
      subst e1
      exact hh
    · intro hh; exact hh d q rfl
  · exact ⟨fun _ d' q' e => by simp [dialectOf] at e, fun _ => ⟨1, C42_single_column_partial hl hnul hlim h rfl⟩⟩
  · exact ⟨fun _ d' q' e => by simp [dialectOf] at e, fun _ => ⟨1, C42_single_column_partial hl hnul hlim h rfl⟩⟩

example : detectDialectNormal asciiEnv "\"a\",\"b\",\n\"c\",\"d\",".toList none =
      some (dialectOf (some ',') (some '"') none) ∧
    parseString 100 (dialectOf (some ',') (some '"') none) "\"a\",\"b\",\n\"c\",\"d\",".toList =
      ([["a".toList, "b".toList, []], ["c".toList, "d".toList, []]], none) := by
  decide +kernel

/-- **C42** is false of the code: a row that ends with the delimiter.  Here `split_row` sees two cells in
both rows, and the parser sees three in the first. -/
theorem C42_violated : ¬ NormalAgrees := by
  intro h
  have h1 : detectDialectNormal asciiEnv "\"a\",\"b\",\n\"c\",\"d\"".toList none =
      some (dialectOf (some ',') (some '"') none) := by decide +kernel
  obtain ⟨k, hk⟩ := h asciiEnv 100 _ _ (by decide) (by decide) (by decide) h1
  have h2 : (parseString 100 (dialectOf (some ',') (some '"') none) "\"a\",\"b\",\n\"c\",\"d\"".toList).1 =
      [["a".toList, "b".toList, []], ["c".toList, "d".toList]] := by decide +kernel
  rw [h2] at hk
  have h3 := hk ["a".toList, "b".toList, []] (by simp)
  have h4 := hk ["c".toList, "d".toList] (by simp)
  simp at h3 h4
  omega

/-- **C42** is false of the code also for data where no row ends with the delimiter: form 3 accepts a
quotechar inside a quoted cell, after which the parser takes the end of the line as part of a cell. -/
theorem C42_nested_violated : ∃ data : Str, NUL ∉ data ∧ ∃ dia,
    detectDialectNormal asciiEnv data none = some dia ∧
    dia.delimiter = some [','] ∧ (∀ row ∈ splitFile data, row.getLast? ≠ some ',') ∧
    ¬ Rectangular (parseString 100 dia data).1 := by
  refine ⟨"x,\"a\"b\"\n\"c,c\",\"d\"\ny,\"e\"f\"\nu,v".toList, by decide, dialectOf (some ',') (some '"') none,
    by decide +kernel, rfl, by decide +kernel, ?_⟩
  rintro ⟨k, hk⟩
  have h2 : (parseString 100 (dialectOf (some ',') (some '"') none)
      "x,\"a\"b\"\n\"c,c\",\"d\"\ny,\"e\"f\"\nu,v".toList).1.map List.length = [3, 2] := by decide +kernel
  have h3 : ∀ n ∈ ((parseString 100 (dialectOf (some ',') (some '"') none)
      "x,\"a\"b\"\n\"c,c\",\"d\"\ny,\"e\"f\"\nu,v".toList).1.map List.length), n = 0 ∨ n = k := by
    intro n hn
    obtain ⟨r, hr, rfl⟩ := List.mem_map.mp hn
    rcases hk r hr with h | h
    · exact .inl (by simp [h])
    · exact .inr h
  rw [h2] at h3
  have h4 := h3 3 (by simp)
  have h5 := h3 2 (by simp)
  omega

end Clever.Props
