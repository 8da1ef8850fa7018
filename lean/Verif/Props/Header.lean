import Verif.Proofs.HasHeader
import Verif.Props.Parsing
import Verif.Props.Dialects
import Verif.Props.Detector

/-!
# Header detection: C44 and C45
-/

namespace Clever.Props

open Clever

/-- The rows that `has_header` reads: those of the sample cut after each line feed. -/
def headerRows (limit : Int) (d : SimpleDialect) (sample : Str) : Gen (List Str) :=
  parseData limit d mkPlain (strItems (linesLF sample))

/-- The casts of Python on a few strings, for the examples. -/
def digitCasts : Casts := ⟨fun s => s ≠ [] && s.all Char.isDigit, fun _ => false, fun _ => false⟩

/-- **C44** (what `has_header` computes).  With a valid dialect, `has_header` is the majority vote of
`Spec.hasHeader` over the rows of the sample. -/
theorem C44_vote_partial (casts : Casts) {limit : Int} (hl : InLong limit) {d : SimpleDialect}
    (hv : d.validate = .ok ()) (sample : Str) (maxRows : Int) :
    hasHeaderWith casts limit d sample maxRows =
      Spec.hasHeader casts maxRows (headerRows limit d sample).1 (headerRows limit d sample).2 := by
  obtain ⟨a, b, c, hd⟩ := (C19_valid_iff d).mp hv
  have hd' : d = dialectOf a b c d.strict := hd
  have hcfg : d.cfg limit = .ok (cfgOf a b c limit d.strict) := by
    rw [hd', dialectOf_cfg a b c _ hl]
    rfl
  rw [hasHeaderWith_eq casts hv hcfg, headerRows, parseData, hcfg]

example : hasHeaderWith digitCasts 99 (dialectOf (some ',') none none) "a,b\n1,xx\n2,yy".toList 20 = .ok true ∧
    hasHeaderWith digitCasts 99 (dialectOf (some ',') none none) "0,zz\n1,xx\n2,yy".toList 20 = .ok false ∧
    hasHeaderWith digitCasts 99 (dialectOf (some ',') none none) "a,zz\n1,xx\n2,yy".toList 20 = .ok false := by
  decide +kernel

/-- The full claim of C44: the first `max_rows_to_check + 2` rows determine the result (the first row, if
`max_rows_to_check` is negative). -/
def HeaderBounded : Prop :=
  ∀ (casts : Casts) (limit : Int) (d : SimpleDialect) (s t : Str) (maxRows : Int), InLong limit →
    d.validate = .ok () →
    (headerRows limit d s).1.take (1 + Spec.window maxRows) =
      (headerRows limit d t).1.take (1 + Spec.window maxRows) →
    1 + Spec.window maxRows ≤ (headerRows limit d s).1.length →
    1 + Spec.window maxRows ≤ (headerRows limit d t).1.length →
    hasHeaderWith casts limit d s maxRows = hasHeaderWith casts limit d t maxRows

/-- `max_rows_to_check + 2` rows. -/
example : 1 + Spec.window 20 = 22 := by decide

theorem spec_hasHeader_take {casts : Casts} {maxRows : Int} {rows rows' : List (List Str)}
    (h : rows.take (1 + Spec.window maxRows) = rows'.take (1 + Spec.window maxRows)) :
    Spec.hasHeader casts maxRows rows none = Spec.hasHeader casts maxRows rows' none := by
  cases rows with
  | nil =>
    cases rows' with
    | nil => rfl
    | cons a b => simp [Nat.add_comm 1] at h
  | cons a b =>
    cases rows' with
    | nil => simp [Nat.add_comm 1] at h
    | cons a' b' =>
      rw [Nat.add_comm, List.take_succ_cons, List.take_succ_cons] at h
      simp only [List.cons.injEq] at h
      simp only [Spec.hasHeader, h.1, h.2]

theorem spec_hasHeader_err {casts : Casts} {maxRows : Int} {rows : List (List Str)} {e : Option PyExc}
    (h : rows.length ≤ 1 + Spec.window maxRows → e = none) :
    Spec.hasHeader casts maxRows rows e = Spec.hasHeader casts maxRows rows none := by
  cases e with
  | none => rfl
  | some e =>
    cases rows with
    | nil => exact absurd (h (by simp)) (by simp)
    | cons a b =>
      simp only [Spec.hasHeader]
      rw [if_neg]
      intro hb
      exact absurd (h (by simp; omega)) (by simp)

/-- **C44** (part).  If two samples agree on their first `max_rows_to_check + 2` rows, then `has_header`
gives the same result for both, provided that no error turns up in those rows or in the next one.  What is
missing is this condition: see `C44_violated`. -/
theorem C44_bounded_partial (casts : Casts) {limit : Int} (hl : InLong limit) {d : SimpleDialect}
    (hv : d.validate = .ok ()) (s t : Str) (maxRows : Int)
    (h : (headerRows limit d s).1.take (1 + Spec.window maxRows) =
      (headerRows limit d t).1.take (1 + Spec.window maxRows))
    (hs : (headerRows limit d s).1.length ≤ 1 + Spec.window maxRows → (headerRows limit d s).2 = none)
    (ht : (headerRows limit d t).1.length ≤ 1 + Spec.window maxRows → (headerRows limit d t).2 = none) :
    hasHeaderWith casts limit d s maxRows = hasHeaderWith casts limit d t maxRows := by
  rw [C44_vote_partial casts hl hv, C44_vote_partial casts hl hv, spec_hasHeader_err hs,
    spec_hasHeader_err ht, spec_hasHeader_take h]

example : (headerRows 99 (dialectOf (some ',') none none) "a,b\n1,2\nx,y\nz".toList).1.take (1 + Spec.window 0) =
    (headerRows 99 (dialectOf (some ',') none none) "a,b\n1,2\n\n".toList).1.take (1 + Spec.window 0) := by
  decide +kernel

/-- **C44** (part).  Without any condition, `has_header` depends only on the first
`max_rows_to_check + 3` rows, and on the error if there are fewer. -/
theorem C44_next_row_partial (casts : Casts) {limit : Int} (hl : InLong limit) {d : SimpleDialect}
    (hv : d.validate = .ok ()) (s t : Str) (maxRows : Int)
    (h : (headerRows limit d s).1.take (2 + Spec.window maxRows) =
      (headerRows limit d t).1.take (2 + Spec.window maxRows))
    (he : (headerRows limit d s).1.length ≤ 1 + Spec.window maxRows →
      (headerRows limit d s).2 = (headerRows limit d t).2) :
    hasHeaderWith casts limit d s maxRows = hasHeaderWith casts limit d t maxRows := by
  rw [C44_vote_partial casts hl hv, C44_vote_partial casts hl hv]
  generalize headerRows limit d s = S at *
  generalize headerRows limit d t = T at *
  obtain ⟨R, e⟩ := S
  obtain ⟨R', e'⟩ := T
  simp only at h he ⊢
  have h1 : R.take (1 + Spec.window maxRows) = R'.take (1 + Spec.window maxRows) := by
    have := congrArg (List.take (1 + Spec.window maxRows)) h
    rw [List.take_take, List.take_take] at this
    rwa [show min (1 + Spec.window maxRows) (2 + Spec.window maxRows) = 1 + Spec.window maxRows by omega]
      at this
  have hlen := congrArg List.length h
  simp only [List.length_take] at hlen
  by_cases hR : R.length ≤ 1 + Spec.window maxRows
  · have hR' : R' = R := by
      have h2 : R'.length ≤ 1 + Spec.window maxRows := by omega
      rw [List.take_of_length_le hR, List.take_of_length_le h2] at h1
      exact h1.symm
    rw [hR', he hR]
  · rw [spec_hasHeader_err (rows := R) (fun hh => absurd hh hR),
      spec_hasHeader_err (rows := R') (e := e') (fun hh => absurd hh (by omega)), spec_hasHeader_take h1]

/-- **C44** is false of the code: the row after the last one that is checked is read as well, and an error
in it ends the call.  Here `max_rows_to_check` is 0, and the third row decides. -/
theorem C44_violated : ¬ HeaderBounded := by
  intro h
  have h1 := h digitCasts 2 (dialectOf (some ',') none none) "a\n1\nb".toList "a\n1\nbbb".toList 0 (by decide)
    (by decide) (by decide +kernel) (by decide +kernel) (by decide +kernel)
  have h2 : hasHeaderWith digitCasts 2 (dialectOf (some ',') none none) "a\n1\nb".toList 0 = .ok true := by
    decide +kernel
  have h3 : hasHeaderWith digitCasts 2 (dialectOf (some ',') none none) "a\n1\nbbb".toList 0 =
      .error (.parse (.fieldLimit 2)) := by decide +kernel
  rw [h2, h3] at h1
  simp at h1

/-! ## C45 -/

/-- The full claim of C45. -/
def HeaderAccepts : Prop :=
  ∀ (casts : Casts) (env : PyEnv) (ord : SetOrder) (limit : Int) (sample : Str) (maxRows : Int),
    sample ≠ [] →
    ((detect env ord limit sample).result = .ok none →
      hasHeader casts env ord limit sample maxRows = .error .noDetectionResult) ∧
    ∀ d, (detect env ord limit sample).result = .ok (some d) →
      (parseString limit d sample).2 = none → (parseString limit d sample).1 ≠ [] →
      ∃ b, hasHeader casts env ord limit sample maxRows = .ok b

/-- **C45** (part): if no dialect is found then `has_header` raises `NoDetectionResult`. -/
theorem C45_no_result_partial (casts : Casts) (env : PyEnv) (ord : SetOrder) (limit : Int) (sample : Str)
    (maxRows : Int) (h : (detect env ord limit sample).result = .ok none) :
    hasHeader casts env ord limit sample maxRows = .error .noDetectionResult := by
  unfold hasHeader sniff
  simp only [h]

example : (detect asciiEnv .forward 99 ",;".toList).result = .ok none := by decide +kernel

/-- **C45** (part).  If every carriage return of the sample is followed by a line feed, then `has_header`
votes on the rows that the parser gives for the sample. -/
theorem C45_rows_partial (casts : Casts) (env : PyEnv) (ord : SetOrder) {limit : Int} (hl : InLong limit)
    (sample : Str) (maxRows : Int) (hcr : NoLoneCR sample) {d : SimpleDialect}
    (h : (detect env ord limit sample).result = .ok (some d)) :
    hasHeader casts env ord limit sample maxRows =
      Spec.hasHeader casts maxRows (parseString limit d sample).1 (parseString limit d sample).2 := by
  have hv := (C40_valid env ord limit sample none .auto true d (by simp) h).1
  have hlim := C37_restored_partial env ord limit sample none .auto true _ h
  unfold hasHeader sniff
  simp only [h, hlim]
  rw [C44_vote_partial casts hl hv, headerRows, linesLF_eq hcr]
  rfl

/-- **C45** (part).  `has_header` accepts a sample that is not empty, has no NUL, no cells over the limit
and no carriage return without a line feed, if a dialect is found and the sample does not end with its
escapechar.  What is missing: samples with lone carriage returns, see `C45_violated` and
`C45_cr_violated`. -/
theorem C45_accepts_partial (casts : Casts) (env : PyEnv) (ord : SetOrder) {limit : Int} (hl : InLong limit)
    (sample : Str) (maxRows : Int) (hne : sample ≠ []) (hnul : NUL ∉ sample)
    (hlim : (sample.length : Int) ≤ limit) (hcr : NoLoneCR sample) {d : SimpleDialect}
    (h : (detect env ord limit sample).result = .ok (some d))
    (hesc : ∀ e, d.escapechar = some [e] → sample.getLast? ≠ some e) :
    ∃ b, hasHeader casts env ord limit sample maxRows = .ok b := by
  obtain ⟨hv, D, Q, E, hd⟩ := C40_valid env ord limit sample none .auto true d (by simp) h
  obtain ⟨a, b, c, hd'⟩ := (C19_valid_iff d).mp hv
  have hs : d.strict = false := by rw [hd]
  rw [hs] at hd'
  have hd2 : d = dialectOf a b c := hd'
  rw [C45_rows_partial casts env ord hl sample maxRows hcr h]
  have he : (parseString limit d sample).2 = none := by rw [hd2]; exact C06_success limit hl a b c sample hnul hlim
  have hr : (parseString limit d sample).1 ≠ [] := by
    rw [hd2, parseString_eq a b c false hl] at he ⊢
    rw [parseText, parseRows_eq] at he ⊢
    rcases hn : nextRow (cfgOf a b c limit false) mkPlain (strItems (linesUniv sample)) with ⟨out, rest⟩
    rw [hn] at he
    cases out with
    | row r => simp
    | error e => simp at he
    | stop =>
      exfalso
      have := C11_no_record_dropped_partial _ rfl _ rest ?_ hn
      · rw [strItems, List.map_eq_nil_iff, linesUniv_eq_nil] at this
        exact hne this
      · cases c with
        | none => exact .inl rfl
        | some e =>
          right
          intro l hlast
          have h1 := hesc e (by rw [hd2]; rfl)
          rw [← linesLF_eq hcr, strItems, List.getLast?_map] at hlast
          cases hll : (linesLF sample).getLast? with
          | none => rw [hll] at hlast; simp at hlast
          | some x =>
            rw [hll] at hlast
            simp only [Option.map_some, Option.some.injEq, Item.str.injEq] at hlast
            subst hlast
            rw [linesLF_getLast hll]
            exact h1
  rw [he]
  cases hR : (parseString limit d sample).1 with
  | nil => exact absurd hR hr
  | cons r rs => exact ⟨_, rfl⟩

example : (detect asciiEnv .forward 99 "a,b\r\n1,2\n".toList).result =
      .ok (some (dialectOf (some ',') none none)) ∧
    hasHeader digitCasts asciiEnv .forward 99 "a,b\r\n1,2\n".toList = .ok true := by
  decide +kernel

/-- **C45** is false of the code: a sample with carriage returns as line ends. -/
theorem C45_violated : ¬ HeaderAccepts := by
  intro h
  have h1 := (h digitCasts asciiEnv .forward 99 "a,b\r1,2".toList 20 (by decide)).2
    (dialectOf (some ',') none none) (by decide +kernel) (by decide +kernel) (by decide +kernel)
  have h2 : hasHeader digitCasts asciiEnv .forward 99 "a,b\r1,2".toList 20 =
    .error (.parse .newlineInUnquoted) := by decide +kernel
  rw [h2] at h1
  simp at h1

/-- **C45** is false for every such sample: with a dialect without quotechar and escapechar, a carriage
return in the first line of the sample that is not followed by a line end makes `has_header` fail, although
the parser accepts the sample. -/
theorem C45_cr_violated (casts : Casts) {limit : Int} (hl : InLong limit) (d : Option Char) (u v : Str)
    (c : Char) (maxRows : Int) (hc : isNL c = false) (hu : '\n' ∉ u) (hnul : NUL ∉ u ++ '\r' :: c :: v)
    (hlim : ((u ++ '\r' :: c :: v).length : Int) ≤ limit) :
    hasHeaderWith casts limit (dialectOf d none none) (u ++ '\r' :: c :: v) maxRows =
      .error (.parse .newlineInUnquoted) ∧
    (parseString limit (dialectOf d none none) (u ++ '\r' :: c :: v)).2 = none := by
  refine ⟨?_, C06_success limit hl d none none _ hnul hlim⟩
  rw [hasHeaderWith_eq casts (validate_dialectOf d none none false) (dialectOf_cfg d none none false hl)]
  have hcn : c ≠ '\n' := by rintro rfl; simp [isNL] at hc
  have hu' : '\n' ∉ u ++ ['\r', c] := by
    intro h
    simp only [List.mem_append, List.mem_cons, List.not_mem_nil, or_false] at h
    rcases h with h | h | h
    · exact hu h
    · exact absurd h (by decide)
    · exact hcn h.symm
  have hfirst : ∃ w ls, linesLF (u ++ '\r' :: c :: v) = (u ++ '\r' :: c :: w) :: ls ∧ NUL ∉ w := by
    cases v with
    | nil =>
      refine ⟨[], [], ?_, by simp⟩
      obtain ⟨w, ls, h1, h2⟩ := linesLF_head (u := u ++ ['\r']) [c]
        (fun h => hu' (by
          simp only [List.mem_append, List.mem_cons, List.not_mem_nil, or_false] at h ⊢
          rcases h with h | h
          · exact .inl h
          · exact .inr (.inl h))) (by simp)
      have h3 : linesLF [c] = [[c]] := by simp [linesLF]
      have h4 : ∀ u : Str, '\n' ∉ u → u ≠ [] → linesLF u = [u] := by
        intro u
        induction u with
        | nil => intro _ h; exact absurd rfl h
        | cons x u ih =>
          intro hx _
          simp only [List.mem_cons, not_or] at hx
          rw [linesLF, if_neg (Ne.symm hx.1)]
          cases u with
          | nil => simp [linesLF]
          | cons y u => rw [ih hx.2 (by simp)]
      exact h4 _ hu' (by simp)
    | cons y v =>
      obtain ⟨w, ls, h1, h2⟩ := linesLF_head (u := u ++ ['\r', c]) (y :: v) hu' (by simp)
      refine ⟨w, ls, by simpa using h1, ?_⟩
      have hsub : ∀ {t l : Str} {x : Char}, l ∈ linesLF t → x ∈ l → x ∈ t := by
        intro t
        induction t with
        | nil => intro l x h; simp [linesLF] at h
        | cons z t ih =>
          intro l x h hx
          rw [linesLF] at h
          split at h
          · rcases List.mem_cons.mp h with rfl | h
            · simp at hx; simp [hx]
            · exact List.mem_cons_of_mem _ (ih h hx)
          · cases hll : linesLF t with
            | nil =>
              rw [hll] at h
              simp only [List.mem_singleton] at h
              subst h
              simp at hx
              simp [hx]
            | cons a b =>
              rw [hll] at h
              rcases List.mem_cons.mp h with rfl | h
              · rcases List.mem_cons.mp hx with rfl | hx
                · simp
                · exact List.mem_cons_of_mem _ (ih (by rw [hll]; simp) hx)
              · exact List.mem_cons_of_mem _ (ih (by rw [hll]; exact List.mem_cons_of_mem _ h) hx)
      intro hw
      apply hnul
      have := hsub (List.mem_of_mem_head? h2) hw
      simp only [List.mem_append, List.mem_cons]
      exact .inr (.inr (.inr (by simpa using this)))
  obtain ⟨w, ls, h1, h2⟩ := hfirst
  have hnul' : NUL ∉ u ++ '\r' :: c :: w := by
    simp only [List.mem_append, List.mem_cons, not_or] at hnul ⊢
    exact ⟨hnul.1, hnul.2.1, hnul.2.2.1, h2⟩
  have hf := feedLine_lone_cr (cfg := cfgOf d none none limit false) rfl rfl mkPlain hc u PObj.init
    hnul' (.inl rfl) (by
      simp only [PObj.init, List.length_append, List.length_cons, cfgOf, List.length_nil] at hlim ⊢
      omega)
  have hnr : ∃ rest, nextRow (cfgOf d none none limit false) mkPlain
      (strItems (linesLF (u ++ '\r' :: c :: v))) = (.error .newlineInUnquoted, rest) := by
    rw [h1, strItems, List.map_cons, nextRow, nextRowFrom, hf]
    exact ⟨_, rfl⟩
  obtain ⟨rest, hnr⟩ := hnr
  rw [parseRows_eq, hnr]
  rfl

example : hasHeaderWith digitCasts 99 (dialectOf (some ';') none none) "x;y\rz;t\r".toList 20 =
    .error (.parse .newlineInUnquoted) :=
  (C45_cr_violated digitCasts (by decide) (some ';') "x;y".toList ";t\r".toList 'z' 20 (by decide) (by decide)
    (by decide) (by decide)).1

end Clever.Props
