import Verif.Proofs.AbstractionRows
import Verif.Proofs.Counter
import Verif.Props.Parsing

/-!
# Properties of abstractions and of the pattern score (C21 - C24)
-/

namespace Clever.Props

open Clever Spec

/-! ## C21 Abstractions are well formed -/

/-- Well-formedness of an abstraction: only the given letters; no two adjacent `C`s; every `D` has a
cell on both sides (no `D` next to a `D`, to an `R` or at an end); no `R` at the end. -/
def WellFormed (letters : List Char) (A : Str) : Prop :=
  (∀ c ∈ A, c ∈ letters) ∧
  (∀ s t, A ≠ s ++ 'C' :: 'C' :: t) ∧
  (∀ s t, A ≠ s ++ 'D' :: 'D' :: t) ∧
  (∀ s t, A ≠ s ++ 'D' :: 'R' :: t) ∧
  (∀ s t, A ≠ s ++ 'R' :: 'D' :: t) ∧
  (∀ t, A ≠ 'D' :: t) ∧
  (∀ s, A ≠ s ++ ['D']) ∧
  (∀ s, A ≠ s ++ ['R'])

/-- **C21 does not hold as stated**: the abstraction of three quotes (an unclosed quoted cell with a
doubled quote) contains a NUL. -/
theorem C21_letters_violated :
    makeAbstraction "\"\"\"".toList (dialectOf (some ',') (some '"') none) =
      .ok ['Q', 'Q', NUL] := by decide

/-- **C21 does not hold as stated**: without a quotechar a NUL in the data is taken for a quote. -/
theorem C21_no_quote_violated :
    makeAbstraction ['a', NUL] (dialectOf (some ',') none none) = .ok ['C', 'Q'] := by decide

/-- No pair of letters that `OkPair` excludes occurs. -/
theorem okPairs_not {A : Str} (h : OkPairs A) (x y : Char) (hxy : ¬ OkPair x y) (s t : Str) :
    A ≠ s ++ x :: y :: t := by
  rintro rfl
  induction s with
  | nil => exact hxy h.1
  | cons z zs ih => exact ih (by cases zs <;> exact h.2)

theorem wellFormed_abstraction (letters : List Char) (d q e : Char) (data : Str)
    (hl : ∀ c ∈ abstraction d q e data, c ∈ letters) :
    WellFormed letters (abstraction d q e data) := by
  have hok : OkPairs (abstraction d q e data) := by
    rw [abstraction_eq]
    obtain ⟨⟨k, hk⟩, _⟩ := stripTrailing_spec (fill 'R' (mergeLoop (baseAbstraction d q e data) none))
    have := (okPairs_fill 'R' (mergeLoop (baseAbstraction d q e data) none)).tail
    rw [hk] at this
    exact this.left
  refine ⟨hl, okPairs_not hok _ _ (by simp [OkPair]), okPairs_not hok _ _ (by simp [OkPair]),
    okPairs_not hok _ _ (by simp [OkPair]), okPairs_not hok _ _ (by simp [OkPair]), ?_, ?_, ?_⟩
  · intro t h
    rw [abstraction_eq] at h
    obtain ⟨⟨k, hk⟩, _⟩ := stripTrailing_spec (fill 'R' (mergeLoop (baseAbstraction d q e data) none))
    rw [h] at hk
    exact head_fill (mergeLoop (baseAbstraction d q e data) none) (by rw [hk]; simp)
  · intro s h
    rw [abstraction_eq] at h
    obtain ⟨⟨k, hk⟩, _⟩ := stripTrailing_spec (fill 'R' (mergeLoop (baseAbstraction d q e data) none))
    rw [h] at hk
    cases k with
    | zero =>
      refine getLast_fill 'R' (mergeLoop (baseAbstraction d q e data) none) ?_
      rw [hk]; simp [List.getLast?_cons]
    | succ k =>
      have hp := (okPairs_fill 'R' (mergeLoop (baseAbstraction d q e data) none)).tail
      rw [hk] at hp
      exact okPairs_not hp 'D' 'R' (by simp [OkPair]) s (List.replicate k 'R')
        (by simp [List.replicate_succ])
  · intro s h
    rw [abstraction_eq] at h
    obtain ⟨_, h2⟩ := stripTrailing_spec (fill 'R' (mergeLoop (baseAbstraction d q e data) none))
    rw [h] at h2
    simp at h2

theorem abstraction_letters (d q e : Char) (data : Str) (c : Char)
    (hc : c ∈ abstraction d q e data) :
    c = 'C' ∨ c ∈ baseAbstraction d q e data ∨ (c = NUL ∧ 'Q' ∈ baseAbstraction d q e data) := by
  rw [abstraction_eq] at hc
  rcases mem_fill _ _ _ (mem_stripTrailing _ _ hc) with h | h
  · exact Or.inl h
  · rcases mem_mergeLoop _ _ _ h with h | h | h | h
    · exact Or.inl h
    · exact Or.inr (Or.inl h)
    · simp at h
    · exact Or.inr (Or.inr h)

/-- **C21, the part that holds.**  Every abstraction is well formed over the letters `C`, `D`, `R`,
`Q` and NUL; if the data does not contain the quotechar (NUL, if the dialect has none), the letters
are `C`, `D` and `R` only.

Missing: a NUL can occur (`C21_letters_violated`); data with NULs can have a `Q` without a quotechar
(`C21_no_quote_violated`). -/
theorem C21_well_formed_partial (data : Str) (dl : SimpleDialect) (A : Str)
    (h : makeAbstraction data dl = .ok A) :
    WellFormed ['C', 'D', 'R', 'Q', NUL] A ∧
      (∀ q, setChar "quotechar" dl.quotechar = .ok q → q ∉ data → WellFormed ['C', 'D', 'R'] A) := by
  obtain ⟨d, q, e, hd, hq, he, rfl⟩ := makeAbstraction_ok data dl A h
  refine ⟨wellFormed_abstraction _ d q e data ?_, ?_⟩
  · intro c hc
    rcases abstraction_letters d q e data c hc with h | h | h
    · simp [h]
    · rcases mem_base d q e data c h with h | h | h | h <;> simp [h]
    · simp [h.1]
  · intro q' hq' hmem
    rw [hq] at hq'
    injection hq' with hq'
    subst hq'
    refine wellFormed_abstraction _ d q e data ?_
    intro c hc
    rcases abstraction_letters d q e data c hc with h | h | h
    · simp [h]
    · rcases mem_base d q e data c h with h | h | h | h
      · simp [h]
      · simp [h]
      · simp [h]
      · exact absurd h.2 hmem
    · rcases mem_base d q e data 'Q' h.2 with h | h | h | h
      · simp at h
      · simp at h
      · simp at h
      · exact absurd h.2 hmem

/-- **C21**, quoted data: if every quoted block is closed (the number of unescaped quotes is even),
nothing but `C`, `D` and `R` is left.  (The letters `Q` of `base_abstraction` are the unescaped
quotes of the data.) -/
theorem C21_closed_quotes_partial (d q e : Char) (data : Str)
    (heven : (baseAbstraction d q e data).count 'Q' % 2 = 0) :
    WellFormed ['C', 'D', 'R'] (abstraction d q e data) := by
  refine wellFormed_abstraction _ d q e data ?_
  intro c hc
  rw [abstraction_eq] at hc
  rcases mem_fill _ _ _ (mem_stripTrailing _ _ hc) with h | h
  · simp [h]
  · rcases mergeLoop_even _ _ (by simpa using heven) _ h with h | ⟨h, hq⟩
    · simp [h]
    · rcases mem_base d q e data c h with h | h | h | h
      · simp [h]
      · simp [h]
      · simp [h]
      · exact absurd h.1 hq

/-- A case of the two theorems: quotes, an escape, empty cells, several newlines. -/
example :
    makeAbstraction ",,\"a,b\"\n\n\\,c,\r".toList (dialectOf (some ',') (some '"') (some '\\')) =
        .ok "CDCDCRCDC".toList ∧
      (baseAbstraction ',' '"' '\\' ",,\"a,b\"\n\n\\,c,\r".toList).count 'Q' % 2 = 0 := by decide

/-! ## C22 Row patterns agree with the parser -/

/-- The row pattern of a row of `n` cells: `n` times `C`, separated by `D`. -/
def rowPattern (n : Nat) : Str := joinWith 'D' (List.replicate n ['C'])

theorem pat_eq (n : Nat) : pat n = rowPattern (n + 1) := by
  induction n with
  | zero => rfl
  | succ n ih =>
    have : rowPattern (n + 1 + 1) = 'C' :: 'D' :: rowPattern (n + 1) := by
      simp [rowPattern, List.replicate_succ, joinWith]
    rw [this, ← ih]; rfl

/-- The rows that the parser returns for data without quotes and escapes, if it returns without an
error. -/
theorem rows_of_parse (limit : Int) (hl : InLong limit) (delim : Option Char) (t : Str)
    (hnul : NUL ∉ t) (rows : List (List Str))
    (h : parseString limit (dialectOf delim none none) t = (rows, none)) :
    rows = (textLines t).map (fun l => if l = [] then [] else splitOn (delim.getD NUL) l) := by
  have hsame : parseString limit (dialectOf delim none none) t =
      parseString limit (dialectOf (some (delim.getD NUL)) none none) t := by
    cases delim <;> rfl
  rw [hsame] at h
  generalize delim.getD NUL = d at h
  have hfit : ∀ l ∈ textLines t, ∀ p ∈ splitOn d l, p.length ≤ limit.toNat := by
    intro l hl' p hp
    refine Decidable.byContradiction fun hlt => ?_
    have := C04_limit_error limit hl d t hnul ⟨l, hl', p, hp, by omega⟩
    rw [h] at this
    simp at this
  by_cases hneg : 0 ≤ limit
  · rw [C04_unquoted_is_split limit hl d false t hnul (by
      intro l hl' p hp
      have := hfit l hl' p hp
      omega)] at h
    exact (Prod.mk.inj h).1.symm
  · -- every piece is empty
    have h0 : limit.toNat = 0 := by omega
    rw [h0] at hfit
    have hz : InLong 0 := by simp [InLong]
    have h' := C04_unquoted_is_split 0 hz d false t hnul (by
      intro l hl' p hp
      have := hfit l hl' p hp
      omega)
    have hsame : (parseString limit (dialectOf (some d) none none) t).1 =
        (parseString 0 (dialectOf (some d) none none) t).1 := by
      rw [parseString_eq _ _ _ _ hl, parseString_eq _ _ _ _ hz,
        parseText_limited _ _ _ rfl rfl hnul, parseText_limited _ _ _ rfl rfl hnul]
      simp only [cfgOf, Option.getD_some, Option.getD_none]
      congr 1
      have : ∀ rs, (limitedRows limit d NUL rs).1 = (limitedRows 0 d NUL rs).1 := by
        intro rs
        induction rs with
        | nil => rfl
        | cons r rs ih =>
          have : fits limit d NUL r = fits 0 d NUL r := by simp [fits, h0]
          simp only [limitedRows, this]
          split
          · simp [ih]
          · rfl
      exact this _
    rw [h, h'] at hsame
    exact hsame

/-- **C22.**  For a dialect without quotechar and escapechar, the row patterns are, in order, those of
the non-blank rows that the parser returns for the same data. -/
theorem C22_patterns_agree (limit : Int) (hl : InLong limit) (delim : Option Char) (t : Str)
    (hnul : NUL ∉ t) (hne : t ≠ []) (hhd : ∀ c, t.head? = some c → isNL c = false)
    (rows : List (List Str))
    (hparse : parseString limit (dialectOf delim none none) t = (rows, none)) :
    ∃ A, makeAbstraction t (dialectOf delim none none) = .ok A ∧
      splitChar 'R' A = (rows.filter (· ≠ [])).map (fun r => rowPattern r.length) := by
  refine ⟨abstraction (delim.getD NUL) NUL NUL t, ?_, ?_⟩
  · apply makeAbstraction_of <;> cases delim <;> rfl
  · rw [rows_plain _ _ hnul hne hhd, rows_of_parse limit hl delim t hnul rows hparse]
    generalize delim.getD NUL = d
    simp only [nonblank]
    have hne' : ∀ l, splitOn d l ≠ [] := by
      intro l h
      have := length_splitOn_pos d l
      rw [h] at this; simp at this
    induction textLines t with
    | nil => rfl
    | cons l ls ih =>
      by_cases h : l = []
      · simp [h]; simpa using ih
      · have hp := length_splitOn_pos d l
        have : rowPattern (splitOn d l).length = pat ((splitOn d l).length - 1) := by
          rw [pat_eq]; congr 1; omega
        simp [h, hne', this]; simpa using ih

/-- **C22**, as `pattern_score` counts: the numbers of pieces between the `D`s are the numbers of
cells. -/
theorem C22_cell_counts (n : Nat) (hn : 0 < n) : patCells (rowPattern n) = n := by
  rw [patCells, splitChar_eq, rowPattern, splitOn_joinWith]
  · simp
  · cases n with
    | zero => simp at hn
    | succ n => simp [List.replicate_succ]
  · intro x hx
    rw [List.mem_replicate] at hx
    rw [hx.2]; decide

/-- A case of `C22_patterns_agree`. -/
example : parseString 10 (dialectOf (some ',') none none) "a,,b\r\n\rx\n,\n".toList =
      ([["a".toList, [], "b".toList], [], ["x".toList], [[], []]], none) ∧
    makeAbstraction "a,,b\r\n\rx\n,\n".toList (dialectOf (some ',') none none) =
      .ok "CDCDCRCRCDC".toList := by decide

/-! ## C23 Pattern score ignores the newline convention -/

/-- A text given by stretches, each followed by a run of newline characters. -/
def withRuns : List (Str × Str) → Str
  | [] => []
  | (l, n) :: rest => l ++ n ++ withRuns rest

/-- All stretches but the last are followed by a nonempty run of newline characters; the last one is
followed by an arbitrary run. -/
def Runs : List (Str × Str) → Prop
  | [] => True
  | [(_, n)] => ∀ c ∈ n, isNL c = true
  | (_, n) :: p :: rest => (n ≠ [] ∧ ∀ c ∈ n, isNL c = true) ∧ Runs (p :: rest)

theorem abstraction_withRuns (d q e : Char) (ps ps' : List (Str × Str)) (h : Runs ps)
    (h' : Runs ps') (hl : ps.map Prod.fst = ps'.map Prod.fst) (pre : Str) :
    abstraction d q e (pre ++ withRuns ps) = abstraction d q e (pre ++ withRuns ps') := by
  have : ∀ (ps ps' : List (Str × Str)), Runs ps → Runs ps' → ps.map Prod.fst = ps'.map Prod.fst →
      ∀ st, ∃ n n' : Str, (∀ c ∈ n, isNL c = true) ∧ (∀ c ∈ n', isNL c = true) ∧
        ∃ mid : Str,
        (withRuns ps).foldl (absStep d q e) st = (mid ++ n).foldl (absStep d q e) st ∧
        (withRuns ps').foldl (absStep d q e) st = (mid ++ n').foldl (absStep d q e) st := by
    intro ps
    induction ps with
    | nil =>
      intro ps' _ _ hl st
      have : ps' = [] := by simpa using hl.symm
      subst this
      exact ⟨[], [], by simp, by simp, [], rfl, rfl⟩
    | cons p rest ih =>
      intro ps' h h' hl st
      cases ps' with
      | nil => simp at hl
      | cons p' rest' =>
        obtain ⟨l, n⟩ := p
        obtain ⟨l', n'⟩ := p'
        simp only [List.map_cons, List.cons.injEq] at hl
        obtain ⟨hll, hrest⟩ := hl
        subst hll
        cases rest with
        | nil =>
          have : rest' = [] := by simpa using hrest.symm
          subst this
          exact ⟨n, n', h, h', l, by simp [withRuns], by simp [withRuns]⟩
        | cons p2 rest2 =>
          cases rest' with
          | nil => simp at hrest
          | cons p2' rest2' =>
            obtain ⟨⟨hne, hn⟩, hr⟩ := h
            obtain ⟨⟨hne', hn'⟩, hr'⟩ := h'
            obtain ⟨m, m', hm, hm', mid, e1, e2⟩ := ih (p2' :: rest2') hr hr' hrest
              (n.foldl (absStep d q e) (l.foldl (absStep d q e) st))
            refine ⟨m, m', hm, hm', l ++ n ++ mid, ?_, ?_⟩
            · rw [withRuns, List.foldl_append, List.foldl_append, e1]
              simp [List.foldl_append]
            · rw [withRuns, List.foldl_append, List.foldl_append,
                ← foldl_run_eq d q e n n' hn hne hn' hne', e2]
              simp [List.foldl_append]
  obtain ⟨n, n', hn, hn', mid, e1, e2⟩ := this ps ps' h h' hl (pre.foldl (absStep d q e) ([], false))
  have r1 : abstraction d q e (pre ++ withRuns ps) = abstraction d q e (pre ++ mid ++ n) := by
    rw [abstraction_eq, abstraction_eq]
    simp only [baseAbstraction]
    rw [List.foldl_append, e1, ← List.foldl_append, List.append_assoc]
  have r2 : abstraction d q e (pre ++ withRuns ps') = abstraction d q e (pre ++ mid ++ n') := by
    rw [abstraction_eq, abstraction_eq]
    simp only [baseAbstraction]
    rw [List.foldl_append, e2, ← List.foldl_append, List.append_assoc]
  rw [r1, r2, abstraction_trailing d q e _ n hn, abstraction_trailing d q e _ n' hn']

/-- **C23.**  Whatever the stretches of the text are: exchanging the nonempty runs of newline
characters between them for other nonempty runs (another convention, more or fewer blank lines), and
the run at the end for any other, empty or not, leaves the pattern score as it is. -/
theorem C23_newline_convention (ps ps' : List (Str × Str)) (h : Runs ps) (h' : Runs ps')
    (hl : ps.map Prod.fst = ps'.map Prod.fst) (dl : SimpleDialect) (eps : ℚ) :
    patternScore (withRuns ps) dl eps = patternScore (withRuns ps') dl eps := by
  have hsame : makeAbstraction (withRuns ps) dl = makeAbstraction (withRuns ps') dl := by
    simp only [makeAbstraction, baseAbstractionPy, bind, Except.bind, pure, Except.pure]
    cases setChar "delimiter" dl.delimiter with
    | error x => rfl
    | ok d =>
      cases setChar "quotechar" dl.quotechar with
      | error x => rfl
      | ok q =>
        cases setChar "escapechar" dl.escapechar with
        | error x => rfl
        | ok e =>
          have := abstraction_withRuns d q e ps ps' h h' hl []
          simp only [List.nil_append, abstraction] at this
          simp only [this]
  simp [patternScore, hsame]

/-- A case of `C23_newline_convention`: CRLF with a trailing newline against LF, blank lines and no
trailing newline; the two texts differ, and one newline is within quotes. -/
example : ∃ ps ps' : List (Str × Str), Runs ps ∧ Runs ps' ∧ ps.map Prod.fst = ps'.map Prod.fst ∧
    withRuns ps = "a,\"b\r\n\"\r\nc\r\n".toList ∧ withRuns ps' = "a,\"b\n\"\n\r\nc".toList :=
  ⟨[("a,\"b".toList, "\r\n".toList), ("\"".toList, "\r\n".toList), ("c".toList, "\r\n".toList)],
   [("a,\"b".toList, "\n".toList), ("\"".toList, "\n\r\n".toList), ("c".toList, [])],
   ⟨⟨by decide, by decide⟩, ⟨by decide, by decide⟩, (by decide : ∀ c ∈ "\r\n".toList, isNL c = true)⟩,
   ⟨⟨by decide, by decide⟩, ⟨by decide, by decide⟩, (by decide : ∀ c ∈ ([] : Str), isNL c = true)⟩, rfl, by decide, by decide⟩

/-- Leading newlines do count: there the score changes.  (Not covered by C23, which speaks of
terminators, of blank lines between rows and of trailing newlines.) -/
example : makeAbstraction "\na".toList (dialectOf none none none) ≠
    makeAbstraction "a".toList (dialectOf none none none) := by decide

/-! ## C24 Pattern score range -/

theorem exactSum_eq (eps : ℚ) (A : Str) : exactSum eps A = exactScore eps (splitOn 'R' A) := by
  simp only [exactSum, exactScore, splitChar_eq, patCells, rowWeight]

/-- **C24**, the formula: the pattern score is the sum over the rows of `max(eps, L - 1) / L`, where `L` is the number of
cells of the row pattern, divided by the number of distinct row patterns, up to one rounding to double precision for
each distinct row pattern and three more. -/
theorem C24_score_formula (data : Str) (dl : SimpleDialect) (eps : ℚ) (h0 : 0 ≤ eps) (A : Str)
    (h : makeAbstraction data dl = .ok A) :
    ∃ p, patternScore data dl eps = .ok p ∧
      Near ((splitOn 'R' A).dedup.length + 3) p (exactScore eps (splitOn 'R' A)) := by
  refine ⟨_, by rw [patternScore, h], ?_⟩
  have := score_near h0 A
  rwa [exactSum_eq, splitChar_eq] at this

/-- **C24**, as far as it holds.  The pattern score is strictly positive and at most the double nearest to the number of
row patterns divided by the number of distinct row patterns, if there are not more than `2 ^ 53` rows.  Missing: the
quotient itself as bound. -/
theorem C24_range_partial (data : Str) (dl : SimpleDialect) (eps : ℚ) (h0 : 0 < eps) (h1 : eps ≤ 1)
    (A : Str) (h : makeAbstraction data dl = .ok A) :
    ∃ p, patternScore data dl eps = .ok p ∧ 0 < p ∧
      ((splitOn 'R' A).length ≤ 2 ^ 53 →
        p ≤ fl (((splitOn 'R' A).length : ℚ) / ((splitOn 'R' A).dedup.length : ℚ))) ∧
      0 < (splitOn 'R' A).dedup.length := by
  obtain ⟨p, hp, hn⟩ := C24_score_formula data dl eps h0.le A h
  have hne : splitOn 'R' A ≠ [] := by
    intro hn; have := length_splitOn_pos 'R' A; rw [hn] at this; simp at this
  have hpos : 0 < (splitOn 'R' A).dedup.length := by
    rw [List.length_pos_iff]; intro hd; exact hne ((List.dedup_eq_nil _).1 hd)
  have hq : (0 : ℚ) < ((splitOn 'R' A).dedup.length : ℚ) := by exact_mod_cast hpos
  refine ⟨p, hp, ?_, ?_, hpos⟩
  · refine lt_of_lt_of_le ?_ hn.1
    apply mul_pos
    · exact div_pos (sum_pos_le (fun p => rowWeight eps (splitOn 'D' p).length) (splitOn 'R' A) hne
        (fun p _ => rowWeight_pos eps h0 _ (length_splitOn_pos 'D' p))
        (fun p _ => rowWeight_le eps h1 _ (length_splitOn_pos 'D' p))).1 hq
    · apply pow_pos
      norm_num
  · intro hl
    rw [patternScore, h] at hp
    simp only [Except.ok.injEq] at hp
    rw [← hp, scoreOfAbstraction_eq, splitChar_eq]
    apply fl_mono
    apply div_le_div_of_nonneg_right _ hq.le
    have := loop_le h1 (counter (splitOn 'R' A)) 0 0 (by simp) (by rw [counter_total, Nat.zero_add]; exact hl)
      (fun kv _ => by rw [patCells, splitChar_eq]; exact length_splitOn_pos 'D' kv.1)
    rwa [counter_total, Nat.zero_add] at this

/-- **C24** is false: with three different row patterns the sum depends on the order of the rows, because of rounding. -/
theorem C24_order_violated :
    let d := dialectOf (some ',') none none
    ((textLines "a\na,b\na,b,c\n".toList).filter (· ≠ [])).Perm
      ((textLines "a,b,c\na,b\na\n".toList).filter (· ≠ [])) ∧
    patternScore "a\na,b\na,b,c\n".toList d ≠ patternScore "a,b,c\na,b\na\n".toList d := by
  decide +kernel

/-- **C24** as far as it holds: up to rounding the order of the row patterns does not matter. -/
theorem C24_order_of_patterns_partial (eps : ℚ) (h0 : 0 ≤ eps) (A A' : Str)
    (h : (splitOn 'R' A).Perm (splitOn 'R' A')) :
    ∃ y, Near ((splitOn 'R' A).dedup.length + 3) (scoreOfAbstraction eps A) y ∧
      Near ((splitOn 'R' A).dedup.length + 3) (scoreOfAbstraction eps A') y := by
  refine ⟨exactScore eps (splitOn 'R' A), ?_, ?_⟩
  · have := score_near h0 A
    rwa [exactSum_eq, splitChar_eq] at this
  · have := score_near h0 A'
    rw [exactSum_eq, splitChar_eq] at this
    have e : exactScore eps (splitOn 'R' A') = exactScore eps (splitOn 'R' A) := by
      unfold exactScore
      rw [(h.map _).sum_eq, h.dedup.length_eq]
    rwa [e, ← h.dedup.length_eq] at this

/-- **C24** as far as it holds: the order of the row patterns does not matter if at most two are different, or if the
first occurrences keep their order. -/
theorem C24_order_of_patterns_exact_partial (eps : ℚ) (A A' : Str) (h : (splitOn 'R' A).Perm (splitOn 'R' A'))
    (h2 : (splitOn 'R' A).dedup.length ≤ 2 ∨ firsts (splitOn 'R' A) = firsts (splitOn 'R' A')) :
    scoreOfAbstraction eps A = scoreOfAbstraction eps A' := by
  rw [← splitChar_eq, ← splitChar_eq] at h h2
  rcases h2 with h2 | h2
  · exact score_two h h2
  · exact score_first h h2

theorem absStep_plain (d q e c : Char) (hq : c ≠ q) (he : c ≠ e) (h0 : c ≠ NUL) (st : List Char) :
    absStep d q e (st, false) c = absStep d NUL NUL (st, false) c := by
  simp [absStep, hq, he, h0]

theorem foldl_plain (d q e : Char) (t : Str) (hq : q ∉ t) (he : e ∉ t) (h0 : NUL ∉ t)
    (st : List Char) :
    t.foldl (absStep d q e) (st, false) = t.foldl (absStep d NUL NUL) (st, false) := by
  induction t generalizing st with
  | nil => rfl
  | cons c rest ih =>
    simp only [List.mem_cons, not_or] at hq he h0
    have hstep := absStep_plain d q e c (Ne.symm hq.1) (Ne.symm he.1) (Ne.symm h0.1) st
    have hfl : (absStep d NUL NUL (st, false) c).2 = false := by
      simp only [absStep]; (repeat' split) <;> simp_all
    rw [List.foldl_cons, List.foldl_cons, hstep]
    rcases hx : absStep d NUL NUL (st, false) c with ⟨st', b⟩
    rw [hx] at hfl
    simp only at hfl
    subst hfl
    exact ih hq.2 he.2 h0.2 st'

theorem pat_injective : Function.Injective pat := by
  have h : ∀ n, (pat n).length = 2 * n + 1 := by
    intro n
    have : ∀ n, (tailPat n).length = 2 * n := by
      intro n
      induction n with
      | zero => rfl
      | succ n ih => simp [tailPat, ih]; omega
    simp [pat, this]
  intro a b hab
  have := congrArg List.length hab
  rw [h, h] at this
  omega

theorem dedup_pred {β : Type} (f : β → Nat) (hf : ∀ x, 0 < f x) (l : List β) :
    (l.map fun x => f x - 1).dedup.length = (l.map f).dedup.length := by
  have e : l.map f = (l.map fun x => f x - 1).map (· + 1) := by
    rw [List.map_map]
    apply List.map_congr_left
    intro x _
    have := hf x
    simp; omega
  have hi : Function.Injective (fun n : Nat => n + 1) := fun a b h => by simpa using h
  rw [e, List.dedup_map_of_injective (f := fun n : Nat => n + 1) hi, List.length_map]

/-- The row patterns of a text without quotechar and escapechar. -/
theorem abstraction_lines (t : Str) (dl : SimpleDialect) (d q e : Char)
    (hd : setChar "delimiter" dl.delimiter = .ok d) (hq : setChar "quotechar" dl.quotechar = .ok q)
    (he : setChar "escapechar" dl.escapechar = .ok e) (hne : t ≠ []) (hplain : q ∉ t ∧ e ∉ t ∧ NUL ∉ t)
    (hhd : ∀ c, t.head? = some c → isNL c = false) :
    ∃ A, makeAbstraction t dl = .ok A ∧ splitOn 'R' A = (((textLines t).filter (· ≠ [])).map fun l => (splitOn d l).length - 1).map pat := by
  refine ⟨_, makeAbstraction_of t dl d q e hd hq he, ?_⟩
  have habs : abstraction d q e t = abstraction d NUL NUL t := by
    simp only [abstraction, baseAbstraction, foldl_plain d q e t hplain.1 hplain.2.1 hplain.2.2]
  rw [habs, ← splitChar_eq, rows_plain d t hplain.2.2 hne hhd, List.map_map]
  rfl

/-- **C24** as far as it holds, for the rows of the data: two texts that have the same lines up to order (blank lines
aside), and contain neither the quotechar nor the escapechar of the dialect, have the same pattern score up to rounding,
and exactly the same if at most two lines have different numbers of cells. -/
theorem C24_order_of_rows_partial (t t' : Str) (dl : SimpleDialect) (d q e : Char)
    (hd : setChar "delimiter" dl.delimiter = .ok d) (hq : setChar "quotechar" dl.quotechar = .ok q)
    (he : setChar "escapechar" dl.escapechar = .ok e) (hne : t ≠ []) (hne' : t' ≠ [])
    (hplain : q ∉ t ∧ e ∉ t ∧ NUL ∉ t) (hplain' : q ∉ t' ∧ e ∉ t' ∧ NUL ∉ t')
    (hhd : ∀ c, t.head? = some c → isNL c = false) (hhd' : ∀ c, t'.head? = some c → isNL c = false)
    (hperm : ((textLines t).filter (· ≠ [])).Perm ((textLines t').filter (· ≠ []))) (eps : ℚ) (h0 : 0 ≤ eps) :
    ∃ p p' y n, patternScore t dl eps = .ok p ∧ patternScore t' dl eps = .ok p' ∧ Near (n + 3) p y ∧
      Near (n + 3) p' y ∧ n = (((textLines t).filter (· ≠ [])).map fun l => (splitOn d l).length).dedup.length ∧
      (n ≤ 2 → p = p') := by
  obtain ⟨A, hA, rA⟩ := abstraction_lines t dl d q e hd hq he hne hplain hhd
  obtain ⟨A', hA', rA'⟩ := abstraction_lines t' dl d q e hd hq he hne' hplain' hhd'
  have hp : (splitOn 'R' A).Perm (splitOn 'R' A') := by
    rw [rA, rA']
    exact (hperm.map _).map _
  obtain ⟨y, n1, n2⟩ := C24_order_of_patterns_partial eps h0 A A' hp
  refine ⟨_, _, y, (splitOn 'R' A).dedup.length, by rw [patternScore, hA], by rw [patternScore, hA'], n1, n2,
    ?_, ?_⟩
  · rw [rA, List.dedup_map_of_injective pat_injective, List.length_map, dedup_pred (fun l => (splitOn d l).length)
      (fun l => length_splitOn_pos d l)]
  intro h2
  exact C24_order_of_patterns_exact_partial eps A A' hp (Or.inl h2)

/-- A case of the theorems on C24. -/
example : ((textLines "a,b\nc\n".toList).filter (· ≠ [])).Perm
      ((textLines "c\r\na,b".toList).filter (· ≠ [])) ∧
    makeAbstraction "a,b\nc\n".toList (dialectOf (some ',') none none) = .ok "CDCRC".toList ∧
    makeAbstraction "c\r\na,b".toList (dialectOf (some ',') none none) = .ok "CRCDC".toList := by
  decide

/-- The score of the first of these texts: `(1/2 + eps/1) / 2`, computed with doubles. -/
example : patternScore "a,b\nc\n".toList (dialectOf (some ',') none none) = .ok (fl (fl (1 / 2 + fl (1 / 1000)) / 2)) := by
  decide +kernel

end Clever.Props
