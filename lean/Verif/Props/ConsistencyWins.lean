import Verif.Proofs.WordTables
import Verif.Props.Detector

/-!
# C118: the consistency measure prefers consistent delimiters
-/

namespace Clever.Props

open Clever Spec

/-! ## C118 -/

/-- **C118.**  Let a text have `n ≥ 2` cells of known types on every nonempty line, for a delimiter `d` that is allowed.
Then a dialect that the consistency measure returns gives all rows of the text the same pattern, with at least `n`
cells.  This holds for all candidates, also those with quote and escape characters. -/
theorem C118_consistent (env : PyEnv) (ha : env.Ascii) (ord : SetOrder) (limit : Int) (t : Str)
    (allowed : Option (List Str)) (method : DetectionMethod) (skip : Bool) (d : Char) (n : Nat)
    (h : ConsistentText d n (fun s => isKnownType env s false = .ok true) t) (hn : 2 ≤ n) (hN : n ≤ 2 ^ 25)
    (hlen : t.length < 2 ^ 50) (hd : OutsideUrls d) (hdel : DelimChar env allowed d) (x : SimpleDialect)
    (hx : (detect env ord limit t allowed method skip).result = .ok (some x))
    (hm : (detect env ord limit t allowed method skip).method_ = some .consistency) :
    ∃ A p, makeAbstraction t x = .ok A ∧ (∀ r ∈ splitOn 'R' A, r = p) ∧ n ≤ (splitOn 'D' p).length := by
  rcases detect_cases env ord limit t allowed method skip with ⟨-, y, -, he⟩ | ⟨-, cap, he⟩
  · rw [he] at hm; cases hm
  · rw [he] at hx
    exact best_consistent h hn hN hlen (consistent_candidate ha h hn hd hdel) (C34_detected_is_best _ _ _ _ _ _ _ _ hx)

/-- A text as in the theorems: two cells per line with `,`; the space is a candidate too, but not on every line. -/
def spacedText : Str := "a,b c\nd,e\nf,3\n".toList

theorem spacedText_consistent : ConsistentText ',' 2 (fun s => isKnownType asciiEnv s false = .ok true) spacedText where
  start := ⟨'a', _, rfl, by decide, by decide⟩
  noNul := by decide
  width := by decide
  cells := by decide +kernel

example : (detect asciiEnv SetOrder.forward 131072 spacedText none .consistency true).result =
    .ok (some (dialectOf (some ',') none none)) := by decide +kernel
example : mkDialect [' '] [] [] ∈ getDialects asciiEnv SetOrder.forward spacedText none := by decide +kernel
example : ∃ A p, makeAbstraction spacedText (dialectOf (some ',') none none) = .ok A ∧ (∀ r ∈ splitOn 'R' A, r = p) ∧
    2 ≤ (splitOn 'D' p).length :=
  C118_consistent asciiEnv asciiEnv_ascii SetOrder.forward 131072 spacedText none .consistency true ',' 2
    spacedText_consistent (by decide) (by decide) (by decide) (by unfold OutsideUrls; decide)
    (.inr ⟨by decide, by decide, by decide, by decide, by decide, by decide, by decide⟩) _
    (by decide +kernel) (by decide +kernel)

/-- The types of the cells matter: with cells of unknown types a delimiter wins that gives rows of different lengths,
although `,` gives two cells on every line. -/
example : (detect asciiEnv SetOrder.forward 131072 "x {,{ y z\nx {,{ y\n".toList none .consistency true).result =
    .ok (some (dialectOf (some ' ') none none)) := by decide +kernel
example : (textLines "x {,{ y z\nx {,{ y\n".toList).map (fun l => ((splitOn ',' l).length, (splitOn ' ' l).length)) =
    [(2, 4), (2, 3)] := by decide

/-- **C118**, for the dialects without quote and escape character: with the delimiter that is returned all nonempty lines
have the same number of cells, and at least `n`. -/
theorem C118_delimiter (env : PyEnv) (ha : env.Ascii) (ord : SetOrder) (limit : Int) (t : Str)
    (allowed : Option (List Str)) (method : DetectionMethod) (skip : Bool) (d : Char) (n : Nat)
    (h : ConsistentText d n (fun s => isKnownType env s false = .ok true) t) (hn : 2 ≤ n) (hN : n ≤ 2 ^ 25)
    (hlen : t.length < 2 ^ 50) (hd : OutsideUrls d) (hdel : DelimChar env allowed d) (c : Char)
    (hx : (detect env ord limit t allowed method skip).result = .ok (some (dialectOf (some c) none none)))
    (hm : (detect env ord limit t allowed method skip).method_ = some .consistency) :
    ∃ k ≥ n, ∀ l ∈ textLines t, l ≠ [] → (splitOn c l).length = k := by
  obtain ⟨A, p, hA, hall, hp⟩ := C118_consistent env ha ord limit t allowed method skip d n h hn hN hlen hd hdel _ hx hm
  obtain ⟨h1, h2⟩ := h.head
  have hA' : makeAbstraction t (dialectOf (some c) none none) = .ok (abstraction c NUL NUL t) := by
    apply makeAbstraction_of <;> rfl
  rw [hA'] at hA
  simp only [Except.ok.injEq] at hA
  subst hA
  have hr := rows_plain c t h.noNul h1 h2
  rw [splitChar_eq] at hr
  refine ⟨_, hp, fun l hl hne => ?_⟩
  have hmem : pat ((splitOn c l).length - 1) ∈ splitOn 'R' (abstraction c NUL NUL t) := by
    rw [hr]
    exact List.mem_map.2 ⟨l, List.mem_filter.2 ⟨hl, by simpa using hne⟩, rfl⟩
  rw [← hall _ hmem, pat_eq]
  have hpos := length_splitOn_pos c l
  have := C22_cell_counts (splitOn c l).length hpos
  rw [patCells, splitChar_eq] at this
  rw [show (splitOn c l).length - 1 + 1 = (splitOn c l).length by omega, this]

/-- The empty delimiter is not returned. -/
theorem C118_not_empty (env : PyEnv) (ha : env.Ascii) (ord : SetOrder) (limit : Int) (t : Str)
    (allowed : Option (List Str)) (method : DetectionMethod) (skip : Bool) (d : Char) (n : Nat)
    (h : ConsistentText d n (fun s => isKnownType env s false = .ok true) t) (hn : 2 ≤ n) (hN : n ≤ 2 ^ 25)
    (hlen : t.length < 2 ^ 50) (hd : OutsideUrls d) (hdel : DelimChar env allowed d) (x : SimpleDialect)
    (hx : (detect env ord limit t allowed method skip).result = .ok (some x))
    (hm : (detect env ord limit t allowed method skip).method_ = some .consistency) :
    x.delimiter ≠ some [] := by
  intro hx0
  obtain ⟨A, p, hA, hall, hp⟩ := C118_consistent env ha ord limit t allowed method skip d n h hn hN hlen hd hdel _ hx hm
  obtain ⟨cd, cq, ce, hcd, -, -, rfl⟩ := makeAbstraction_ok t x A hA
  rw [hx0] at hcd
  have hnul : cd = NUL := by
    have : setChar "delimiter" (some []) = .ok NUL := rfl
    rw [this] at hcd
    simpa using hcd.symm
  subst hnul
  exact absurd hp (not_le.2 (lt_of_le_of_lt (one_cell h.noNul hall) (by omega)))

/-- **C118**, texts with one possible delimiter: if in addition `d` is the only character of the text that is allowed as a
delimiter, and there are no quote characters and no escape characters, then `d` is detected. -/
theorem C118_only_candidate (env : PyEnv) (ha : env.Ascii) (ord : SetOrder) (limit : Int) (t : Str)
    (allowed : Option (List Str)) (skip : Bool) (d : Char) (n : Nat)
    (h : ConsistentText d n (fun s => isKnownType env s false = .ok true) t) (hn : 2 ≤ n) (hN : n ≤ 2 ^ 25)
    (hlen : t.length < 2 ^ 50) (hd : OutsideUrls d) (hdel : DelimChar env allowed d)
    (hU : ∀ l, allowed = some l → ['U'] ∉ l) (hbrace : '{' ∉ t ∨ '}' ∉ t)
    (hother : ∀ c ∈ t, c ≠ d → ¬ DelimChar env allowed c) (hquote : ∀ c ∈ t, c ∉ ['\'', '"', '~', '`'])
    (hesc : ∀ c ∈ t, ¬ EscChar env c) :
    detect env ord limit t allowed .consistency skip =
      ⟨.ok (some (dialectOf (some d) none none)), some .consistency, limit⟩ := by
  have hlong : InLong (t.length + 1) := by simp only [InLong]; omega
  have hcand := consistent_candidate ha (ord := ord) h hn hd hdel
  obtain ⟨r, hr⟩ := C38_no_brace_partial env ord limit t allowed .consistency skip hlong h.noNul hbrace
  have hbest : ∀ x, IsBest env ord t allowed x → x = mkDialect [d] [] [] := by
    intro x hx
    obtain ⟨A, p, hA, hall, hp⟩ := best_consistent h hn hN hlen hcand hx
    obtain ⟨cd, q, e, rfl, hc⟩ := (C30_candidates_iff ..).1 hx.1
    obtain ⟨d', q', e', heq, hmem⟩ := C30_from_text_partial env ha ord t allowed hU _ hx.1
    obtain ⟨rfl, rfl, rfl⟩ := mkDialect_inj heq
    have hq0 : q = [] := by
      rcases hc.quote with h0 | ⟨c, -, rfl, hcq⟩
      · exact h0
      · refine absurd ?_ (hquote c (hmem c (by simp)))
        simpa using hcq
    have he0 : e = [] := by
      rcases hc.escape with h0 | ⟨u, c, m, v, hu, rfl, hce, -⟩
      · exact h0
      · exact absurd hce (hesc c (by rw [hu]; simp))
    subst hq0 he0
    rcases hc.delim with rfl | ⟨c, -, rfl, hcd⟩
    · exfalso
      have hA' : makeAbstraction t (mkDialect [] [] []) = .ok (abstraction NUL NUL NUL t) := by
        apply makeAbstraction_of <;> rfl
      have : A = abstraction NUL NUL NUL t := by
        have := hA.symm.trans hA'
        simpa using this
      subst this
      exact absurd hp (not_le.2 (lt_of_le_of_lt (one_cell h.noNul hall) (by omega)))
    · by_cases hcd' : c = d
      · rw [hcd']; rfl
      · exact absurd hcd (hother c (hmem c (by simp)) hcd')
  unfold detect at hr ⊢
  simp only [reduceCtorEq, or_self, if_false] at hr ⊢
  unfold consistencyDetect at hr ⊢
  simp only at hr ⊢
  cases hc : (computeConsistencyScores env (some 100000) skip [] (t.length + 1) t (getDialects env ord t allowed)).1 with
  | error e => rw [hc] at hr; simp at hr
  | ok s =>
    simp only
    obtain ⟨h1, h2, h3⟩ := C33_best _ _ _ _ _ _ _ hc
    have hone : getBestDialects s = [mkDialect [d] [] []] := by
      cases hb : getBestDialects s with
      | nil => exact absurd hb h1
      | cons y ys =>
        rw [hb] at h2 h3
        have hy := hbest y ((h3 y).1 (by simp))
        cases ys with
        | nil => rw [hy]
        | cons z zs =>
          exfalso
          have hz := hbest z ((h3 z).1 (by simp))
          have hlt := (List.pairwise_cons.1 h2).1 z (by simp)
          rw [hy, hz] at hlt
          rw [C18_strict_total_order.1 _ (getDialects_isStr hcand)] at hlt
          simp at hlt
    rw [hone]
    rfl

example : ¬ ∀ c ∈ spacedText, c ≠ ',' → ¬ DelimChar asciiEnv none c := by
  intro h
  exact h ' ' (by decide) (by decide) (.inr ⟨by decide, by decide, by decide, by decide, by decide, by decide, by decide⟩)

/-! ### Tables of words -/

/-- **C118** for tables of words: the consistency measure finds the delimiter of a table with at least two columns whose
cells consist of letters, digits, points and parentheses, or are empty, for any line end, with or without a final
one. -/
theorem C118_word_tables (env : PyEnv) (ha : env.Ascii) (ord : SetOrder) (limit : Int) (T : List (List Str))
    (h : WordTable T) (hwidth : ∀ r ∈ T, r.length ≤ 2 ^ 25) (d : Char) (hd : d ∈ [',', ';', '|', '\t']) (nl : Str)
    (hnl : IsLineEnd nl) (text : Str) (ht : text = tableText d nl T ∨ text ++ nl = tableText d nl T)
    (hlen : text.length < 2 ^ 50) (skip : Bool) :
    detect env ord limit text none .consistency skip =
      ⟨.ok (some (dialectOf (some d) none none)), some .consistency, limit⟩ := by
  have hp := h.plain
  have hd' : PlainDelim d := by simpa [PlainDelim] using hd
  obtain ⟨tail, h1, rfl⟩ := tableText_lines hp ht
  have hlines := textLines_lines (L := T.map (joinWith d)) (by simpa using h.rows) (fun l hl => hp.line_ne hl)
    (fun l hl c hc => hp.line_nl hd' hl hc) hnl h1
  have hsplit : ∀ r ∈ T, splitOn d (joinWith d r) = r := by
    intro r hr
    refine splitOn_joinWith d r ?_ ?_
    · intro h0
      have := h.columns r hr
      rw [h0] at this
      simp at this
    · intro s hs hds
      have := hp.elementary hr hs hds
      rw [plainDelim_elementary hd'] at this
      cases this
  -- the characters of the text
  have hchars : ∀ c ∈ joinStr nl (T.map (joinWith d)) ++ tail,
      c = d ∨ c = '\n' ∨ c = '\r' ∨ alnum c = true ∨ c ∈ ".()".toList := by
    intro c hc
    have hnlc : c ∈ nl → c = '\n' ∨ c = '\r' := by
      intro hm
      rcases hnl with rfl | rfl | rfl <;> simp at hm
      · exact .inl hm
      · rcases hm with hm | hm
        · exact .inr hm
        · exact .inl hm
      · exact .inr hm
    have hnl' : c ∈ nl → c = d ∨ c = '\n' ∨ c = '\r' ∨ alnum c = true ∨ c ∈ ".()".toList := fun hm => by
      rcases hnlc hm with hm | hm <;> simp [hm]
    rcases List.mem_append.1 hc with hm | hm
    · rcases mem_of_joinStr hm with hm | ⟨l, hl, hm⟩
      · exact hnl' hm
      · obtain ⟨r, hr, rfl⟩ := List.mem_map.1 hl
        rcases mem_joinWith hm with h' | ⟨s, hs, h'⟩
        · exact .inl h'
        · exact .inr (.inr (.inr (h.chars r hr s hs c h')))
    · rcases h1 with rfl | rfl
      · simp at hm
      · exact hnl' hm
  have hascii : ∀ c ∈ joinStr nl (T.map (joinWith d)) ++ tail, c.toNat < 128 := by
    intro c hc
    rcases hchars c hc with rfl | rfl | rfl | h2 | h2
    · rcases hd' with rfl | rfl | rfl | rfl <;> decide
    · decide
    · decide
    · simp only [alnum, low, Bool.or_eq_true, Bool.and_eq_true, decide_eq_true_eq] at h2
      omega
    · simp at h2
      rcases h2 with rfl | rfl | rfl <;> decide
  have hnot : ∀ x : Char, x ≠ d → x ≠ '\n' → x ≠ '\r' → alnum x = false → x ∉ ".()".toList →
      x ∉ joinStr nl (T.map (joinWith d)) ++ tail := by
    intro x i1 i2 i3 i4 i5 hx
    rcases hchars x hx with h' | h' | h' | h' | h'
    · exact i1 h'
    · exact i2 h'
    · exact i3 h'
    · rw [i4] at h'; cases h'
    · exact i5 h'
  obtain ⟨r0, T', rfl⟩ : ∃ r0 T', T = r0 :: T' := by
    cases T with
    | nil => exact absurd rfl h.rows
    | cons r0 T' => exact ⟨r0, T', rfl⟩
  have hcons : ConsistentText d r0.length (fun s => isKnownType env s false = .ok true)
      (joinStr nl ((r0 :: T').map (joinWith d)) ++ tail) := by
    refine ⟨?_, ?_, ?_, ?_⟩
    · have hne := hp.line_ne (d := d) (l := joinWith d r0) (by simp)
      have hnlh := fun c hc => hp.line_nl hd' (l := joinWith d r0) (by simp) (c := c) hc
      cases hj : joinWith d r0 with
      | nil => exact absurd hj hne
      | cons c l =>
        rw [hj] at hnlh
        have hc := hnlh c (by simp)
        have : ∃ r, joinStr nl ((r0 :: T').map (joinWith d)) ++ tail = c :: r := by
          rw [List.map_cons, hj]
          cases T' with
          | nil => exact ⟨l ++ tail, rfl⟩
          | cons r1 T'' => exact ⟨_, rfl⟩
        obtain ⟨r, hr⟩ := this
        refine ⟨c, r, hr, ?_, ?_⟩
        · rintro rfl; exact absurd hc (by decide)
        · rintro rfl; exact absurd hc (by decide)
    · apply hnot NUL
      · rcases hd' with rfl | rfl | rfl | rfl <;> decide
      all_goals decide
    · intro l hl hne
      rw [hlines] at hl
      obtain ⟨r, hr, rfl⟩ := List.mem_map.1 hl
      rw [hsplit r hr]
      exact h.rect r hr r0 (by simp)
    · intro l hl hne s hs
      rw [hlines] at hl
      obtain ⟨r, hr, rfl⟩ := List.mem_map.1 hl
      rw [hsplit r hr] at hs
      exact word_known ha (h.chars r hr s hs)
  refine C118_only_candidate env ha ord limit _ none skip d r0.length hcons (h.columns r0 (by simp))
    (hwidth r0 (by simp)) hlen ?_ ?_ (by simp) (.inl ?_) ?_ ?_ ?_
  · unfold OutsideUrls
    rcases hd' with rfl | rfl | rfl | rfl <;> decide
  · rcases hd' with rfl | rfl | rfl | rfl
    · exact .inr ⟨by decide, by decide, by decide, by decide, by decide, by decide, by
        rw [ha.category _ (by decide)]; decide⟩
    · exact .inr ⟨by decide, by decide, by decide, by decide, by decide, by decide, by
        rw [ha.category _ (by decide)]; decide⟩
    · exact .inr ⟨by decide, by decide, by decide, by decide, by decide, by decide, by
        rw [ha.category _ (by decide)]; decide⟩
    · exact .inl rfl
  · apply hnot '{'
    · rcases hd' with rfl | rfl | rfl | rfl <;> decide
    all_goals decide
  · intro c hc hcd hdel
    have ht : c ≠ '\t' := by
      intro h0
      subst h0
      exact hnot '\t' hcd (by decide) (by decide) (by decide) (by decide) hc
    rcases hdel with h' | ⟨i1, i2, i3, i4, i5, i6, i7⟩
    · exact ht h'
    · rw [ha.category c (hascii c hc)] at i7
      rcases hchars c hc with h' | h' | h' | h' | h'
      · exact hcd h'
      · exact i5 h'
      · exact i6 h'
      · exact i7 (alnum_category h')
      · simp at h'
        rcases h' with rfl | rfl | rfl
        · exact i1 rfl
        · exact i7 (by decide)
        · exact i7 (by decide)
  · intro c hc hq
    refine hnot c ?_ ?_ ?_ ?_ ?_ hc <;>
      (simp only [List.mem_cons, List.not_mem_nil, or_false] at hq; rcases hq with rfl | rfl | rfl | rfl) <;>
      first
        | decide
        | (rcases hd' with rfl | rfl | rfl | rfl <;> decide)
  · intro c hc he
    have := ascii_escape ha (hascii c hc) ((isPotentialEscapechar_iff env c).2 he)
    refine hnot c ?_ ?_ ?_ ?_ ?_ hc <;> rcases this with rfl | rfl | rfl <;>
      first
        | decide
        | (rcases hd' with rfl | rfl | rfl | rfl <;> decide)

/-- A table as in the theorem, with an empty cell. -/
def wordTable : List (List Str) := [["id".toList, "f(x)".toList, []], ["7".toList, "2.50".toList, "Ann".toList]]

example : WordTable wordTable where
  rows := by decide
  columns := by decide
  rect := by unfold Rect; decide
  chars := by decide
example : (detect asciiEnv SetOrder.forward 131072 (tableText '|' ['\r', '\n'] wordTable) none .consistency false).result =
    .ok (some (dialectOf (some '|') none none)) := by decide +kernel

end Clever.Props
