import Verif.Proofs.QuotedConsistency
import Verif.Props.ConsistencyWins

/-!
# C118: the consistency measure and quotes
-/

namespace Clever.Props

open Clever Spec

/-- **C118**, with quotes: let a text have balanced quotes on every line and `n ≥ 2` cells of known types on every nonempty
line, for a delimiter `d` that is allowed and a quote character `q`.  Then a dialect that the consistency measure returns
gives all rows the same pattern, with at least `n` cells. -/
theorem C118_quoted (env : PyEnv) (ha : env.Ascii) (ord : SetOrder) (limit : Int) (t : Str)
    (allowed : Option (List Str)) (method : DetectionMethod) (skip : Bool) (d q : Char) (n : Nat)
    (h : ConsistentQuoted d q n (fun c => isKnownType env c.1 c.2 = .ok true) t) (hn : 2 ≤ n) (hN : n ≤ 2 ^ 25)
    (hlen : t.length < 2 ^ 50) (hd : OutsideUrls d) (hdel : DelimChar env allowed d) (hq : q = '"' ∨ q = '\'')
    (hqt : q ∈ t) (hdq : d ≠ q) (hdn : d ≠ '\n' ∧ d ≠ '\r') (x : SimpleDialect)
    (hx : (detect env ord limit t allowed method skip).result = .ok (some x))
    (hm : (detect env ord limit t allowed method skip).method_ = some .consistency) :
    ∃ A p, makeAbstraction t x = .ok A ∧ (∀ r ∈ splitOn 'R' A, r = p) ∧ n ≤ (splitOn 'D' p).length := by
  have hlong : InLong (t.length + 1) := by simp only [InLong]; omega
  have hqn : isNL q = false := by rcases hq with rfl | rfl <;> decide
  have hq0 : q ≠ NUL := by rcases hq with rfl | rfl <;> decide
  have hdn' : isNL d = false := by simp [isNL, hdn.1, hdn.2]
  obtain ⟨h1, h2⟩ := h.head
  rcases detect_cases env ord limit t allowed method skip with ⟨-, y, -, he⟩ | ⟨-, cap, he⟩
  · rw [he] at hm; cases hm
  · rw [he] at hx
    exact best_wins h.noNul h1 h2 hn hN hlen (quoted_candidate ha h hn hd hdel hq hqt)
      (quoted_pattern h hn hdn' hqn hdq hq0) (quoted_type h hqn hlong) (C34_detected_is_best _ _ _ _ _ _ _ _ hx)

/-- A text as in the theorem: the comma in the quotes is not a delimiter. -/
def quotedSpaced : Str := "a,\"b, c\"\nd,e\nf,3\n".toList

theorem quotedSpaced_consistent :
    ConsistentQuoted ',' '"' 2 (fun c => isKnownType asciiEnv c.1 c.2 = .ok true) quotedSpaced where
  start := ⟨'a', _, rfl, by decide, by decide⟩
  noNul := by decide
  even := by decide
  width := by decide
  cells := by decide +kernel

example : (detect asciiEnv SetOrder.forward 131072 quotedSpaced none .consistency true).result =
    .ok (some (dialectOf (some ',') (some '"') none)) := by decide +kernel
example : ∃ A p, makeAbstraction quotedSpaced (dialectOf (some ',') (some '"') none) = .ok A ∧
    (∀ r ∈ splitOn 'R' A, r = p) ∧ 2 ≤ (splitOn 'D' p).length :=
  C118_quoted asciiEnv asciiEnv_ascii SetOrder.forward 131072 quotedSpaced none .consistency true ',' '"' 2
    quotedSpaced_consistent (by decide) (by decide) (by decide) (by unfold OutsideUrls; decide)
    (.inr ⟨by decide, by decide, by decide, by decide, by decide, by decide, by decide⟩) (.inl rfl) (by decide)
    (by decide) (by decide) _ (by decide +kernel) (by decide +kernel)

/-! ### Tables of words -/

/-- **C118** for tables of words with quotes: the consistency measure finds the delimiter and the quote character of a
table with at least two columns whose cells consist of letters, digits, points and parentheses, or are empty, if at
least one cell is in quotes; for any line end, with or without a final one. -/
theorem C118_quoted_tables (env : PyEnv) (ha : env.Ascii) (ord : SetOrder) (limit : Int) (T : List (List (Bool × Str)))
    (h : QuotedWords T) (hwidth : ∀ r ∈ T, r.length ≤ 2 ^ 25) (d : Char) (hd : d ∈ [',', ';', '|', '\t']) (q : Char)
    (hq : q ∈ ['"', '\'']) (nl : Str) (hnl : IsLineEnd nl) (text : Str)
    (ht : text = quotedText d q nl T ∨ text ++ nl = quotedText d q nl T) (hlen : text.length < 2 ^ 50) (skip : Bool) :
    detect env ord limit text none .consistency skip =
      ⟨.ok (some (dialectOf (some d) (some q) none)), some .consistency, limit⟩ := by
  have hd' : PlainDelim d := by simpa [PlainDelim] using hd
  have hq' : PlainQuote q := by simpa [PlainQuote] using hq
  have hdq := delim_ne_quote hd' hq'
  have hqn := plainQuote_nl hq'
  have hq0 : q ≠ NUL := by rcases hq' with rfl | rfl <;> decide
  have hdn : isNL d = false := by rcases hd' with rfl | rfl | rfl | rfl <;> decide
  have hqa : alnum q = false := by rcases hq' with rfl | rfl <;> decide
  have hqs : q ∉ ".()".toList := by rcases hq' with rfl | rfl <;> decide
  have hda : alnum d = false := by rcases hd' with rfl | rfl | rfl | rfl <;> decide
  have hds : d ∉ ".()".toList := by rcases hd' with rfl | rfl | rfl | rfl <;> decide
  -- the cells
  have hwq : ∀ r ∈ T, ∀ x ∈ r, q ∉ x.2 := by
    intro r hr x hx hm
    rcases h.chars r hr x hx q hm with h' | h'
    · rw [hqa] at h'; cases h'
    · exact hqs h'
  have hwd : ∀ r ∈ T, ∀ x ∈ r, d ∉ x.2 := by
    intro r hr x hx hm
    rcases h.chars r hr x hx d hm with h' | h'
    · rw [hda] at h'; cases h'
    · exact hds h'
  have hwritten : ∀ r ∈ T, ∀ x ∈ r, written q x = if x.1 then q :: (x.2 ++ [q]) else x.2 := by
    intro r hr x hx
    rw [written, doubled_not_mem (hwq r hr x hx)]
  have hwchars : ∀ r ∈ T, ∀ x ∈ r, ∀ c ∈ written q x, c = q ∨ alnum c = true ∨ c ∈ ".()".toList := by
    intro r hr x hx c hc
    rw [hwritten r hr x hx] at hc
    split at hc
    · simp only [List.mem_cons, List.mem_append, List.not_mem_nil, or_false] at hc
      rcases hc with h' | h' | h'
      · exact .inl h'
      · exact .inr (h.chars r hr x hx c h')
      · exact .inl h'
    · exact .inr (h.chars r hr x hx c hc)
  have hwd' : ∀ r ∈ T, ∀ x ∈ r, d ∉ written q x := by
    intro r hr x hx hm
    rcases hwchars r hr x hx d hm with h' | h' | h'
    · exact hdq h'
    · rw [hda] at h'; cases h'
    · exact hds h'
  have hpass : ∀ r ∈ T, ∀ x ∈ r, Passes d q (written q x) := by
    intro r hr x hx
    rw [written]
    split
    · exact passes_quoted hdq _
    · exact passes_plain (hwd r hr x hx) (hwq r hr x hx)
  have hvalue : ∀ r ∈ T, ∀ x ∈ r, cellValue q (written q x) = (x.2, x.1) := by
    intro r hr x hx
    exact cellValue_word (hwq r hr x hx)
  -- the text
  have hrows : T.map (·.map (written q)) ≠ [] := by simpa using h.rows
  obtain ⟨tail, h1, rfl⟩ : ∃ tail, (tail = [] ∨ tail = nl) ∧
      text = joinStr nl ((T.map (·.map (written q))).map (joinWith d)) ++ tail := by
    unfold quotedText at ht
    rw [tableText_eq hrows] at ht
    rcases ht with rfl | h'
    · exact ⟨nl, .inr rfl, rfl⟩
    · exact ⟨[], .inl rfl, by simpa using h'⟩
  have hlchars : ∀ l ∈ (T.map (·.map (written q))).map (joinWith d), ∀ c ∈ l,
      c = d ∨ c = q ∨ alnum c = true ∨ c ∈ ".()".toList := by
    intro l hl c hc
    obtain ⟨r', hr', rfl⟩ := List.mem_map.1 hl
    obtain ⟨r, hr, rfl⟩ := List.mem_map.1 hr'
    rcases mem_joinWith hc with h' | ⟨s, hs, h'⟩
    · exact .inl h'
    · obtain ⟨x, hx, rfl⟩ := List.mem_map.1 hs
      exact .inr (hwchars r hr x hx c h')
  have hlne : ∀ l ∈ (T.map (·.map (written q))).map (joinWith d), l ≠ [] := by
    intro l hl h0
    obtain ⟨r', hr', rfl⟩ := List.mem_map.1 hl
    obtain ⟨r, hr, rfl⟩ := List.mem_map.1 hr'
    have h2 := h.columns r hr
    match r, h2 with
    | x :: y :: r, _ => simp [joinWith] at h0
  have hlnl : ∀ l ∈ (T.map (·.map (written q))).map (joinWith d), ∀ c ∈ l, isNL c = false := by
    intro l hl c hc
    rcases hlchars l hl c hc with rfl | rfl | h' | h'
    · exact hdn
    · exact hqn
    · by_contra h0
      have : c = '\n' ∨ c = '\r' := by
        by_cases hr : c = '\r'
        · exact .inr hr
        · exact .inl ((by simpa [isNL] using h0 : ¬ c = '\r' → c = '\n') hr)
      rcases this with rfl | rfl <;> exact absurd h' (by decide)
    · simp at h'
      rcases h' with rfl | rfl | rfl <;> decide
  have hlines := textLines_lines (L := (T.map (·.map (written q))).map (joinWith d)) (by simpa using h.rows) hlne hlnl
    hnl h1
  -- the characters of the text
  have hchars : ∀ c ∈ joinStr nl ((T.map (·.map (written q))).map (joinWith d)) ++ tail,
      c = d ∨ c = q ∨ c = '\n' ∨ c = '\r' ∨ alnum c = true ∨ c ∈ ".()".toList := by
    intro c hc
    have hnl' : c ∈ nl → c = '\n' ∨ c = '\r' := by
      intro hm
      rcases hnl with rfl | rfl | rfl <;> simp at hm
      · exact .inl hm
      · rcases hm with hm | hm
        · exact .inr hm
        · exact .inl hm
      · exact .inr hm
    rcases List.mem_append.1 hc with hm | hm
    · rcases mem_of_joinStr hm with hm | ⟨l, hl, hm⟩
      · rcases hnl' hm with hm | hm <;> simp [hm]
      · rcases hlchars l hl c hm with h' | h' | h' | h'
        · exact .inl h'
        · exact .inr (.inl h')
        · simp [h']
        · exact .inr (.inr (.inr (.inr (.inr h'))))
    · rcases h1 with rfl | rfl
      · simp at hm
      · rcases hnl' hm with hm | hm <;> simp [hm]
  have hascii : ∀ c, c = q ∨ alnum c = true ∨ c ∈ ".()".toList → c.toNat < 128 := by
    rintro c (rfl | h2 | h2)
    · rcases hq' with rfl | rfl <;> decide
    · simp only [alnum, low, Bool.or_eq_true, Bool.and_eq_true, decide_eq_true_eq] at h2
      omega
    · simp at h2
      rcases h2 with rfl | rfl | rfl <;> decide
  have hasciiText : ∀ c ∈ joinStr nl ((T.map (·.map (written q))).map (joinWith d)) ++ tail, c.toNat < 128 := by
    intro c hc
    rcases hchars c hc with rfl | h2 | rfl | rfl | h2
    · rcases hd' with rfl | rfl | rfl | rfl <;> decide
    · exact hascii c (.inl h2)
    · decide
    · decide
    · exact hascii c (.inr h2)
  have hnot : ∀ x : Char, x ≠ d → x ≠ q → x ≠ '\n' → x ≠ '\r' → alnum x = false → x ∉ ".()".toList →
      x ∉ joinStr nl ((T.map (·.map (written q))).map (joinWith d)) ++ tail := by
    intro x i1 i0 i2 i3 i4 i5 hx
    rcases hchars x hx with h' | h' | h' | h' | h' | h'
    · exact i1 h'
    · exact i0 h'
    · exact i2 h'
    · exact i3 h'
    · rw [i4] at h'; cases h'
    · exact i5 h'
  obtain ⟨r0, hr0⟩ := List.exists_mem_of_ne_nil _ h.rows
  have hstart : ∃ c r, joinStr nl ((T.map (·.map (written q))).map (joinWith d)) ++ tail = c :: r ∧ c ≠ '\n' ∧ c ≠ '\r' := by
    cases hL : (T.map (·.map (written q))).map (joinWith d) with
    | nil => simp at hL; exact absurd hL h.rows
    | cons l L =>
      have hl : l ∈ (T.map (·.map (written q))).map (joinWith d) := by rw [hL]; simp
      have hne := hlne l hl
      have hnlh := hlnl l hl
      cases l with
      | nil => exact absurd rfl hne
      | cons c l =>
        obtain ⟨r, hr⟩ := joinStr_head (nl := nl) (l := l) (L := L) (c := c) tail
        have hc := hnlh c (by simp)
        refine ⟨c, r, hr, ?_, ?_⟩
        · rintro rfl; exact absurd hc (by decide)
        · rintro rfl; exact absurd hc (by decide)
  have hnul : NUL ∉ joinStr nl ((T.map (·.map (written q))).map (joinWith d)) ++ tail := by
    apply hnot NUL
    · rcases hd' with rfl | rfl | rfl | rfl <;> decide
    · exact Ne.symm hq0
    all_goals decide
  have hne : ∀ r ∈ T, r.map (written q) ≠ [] := by
    intro r hr h0
    have := h.columns r hr
    simp only [List.map_eq_nil_iff] at h0
    subst h0
    simp at this
  have hcells : ∀ r ∈ T, rawCells d q false (joinWith d (r.map (written q))) = r.map (written q) := by
    intro r hr
    refine rawCells_joinWith hdq (hne r hr) fun w hw => ?_
    obtain ⟨x, hx, rfl⟩ := List.mem_map.1 hw
    exact hpass r hr x hx
  have hsplit : ∀ r ∈ T, splitOn d (joinWith d (r.map (written q))) = r.map (written q) := by
    intro r hr
    refine splitOn_joinWith d _ (hne r hr) fun w hw => ?_
    obtain ⟨x, hx, rfl⟩ := List.mem_map.1 hw
    exact hwd' r hr x hx
  have hcons : ConsistentQuoted d q r0.length (fun c => isKnownType env c.1 c.2 = .ok true)
      (joinStr nl ((T.map (·.map (written q))).map (joinWith d)) ++ tail) := by
    refine ⟨hstart, hnul, ?_, ?_, ?_⟩
    · intro l hl
      rw [hlines] at hl
      obtain ⟨r', hr', rfl⟩ := List.mem_map.1 hl
      obtain ⟨r, hr, rfl⟩ := List.mem_map.1 hr'
      refine count_joinWith_even hdq fun w hw => ?_
      obtain ⟨x, hx, rfl⟩ := List.mem_map.1 hw
      exact count_written_even (hwq r hr x hx)
    · intro l hl _
      rw [hlines] at hl
      obtain ⟨r', hr', rfl⟩ := List.mem_map.1 hl
      obtain ⟨r, hr, rfl⟩ := List.mem_map.1 hr'
      rw [hcells r hr, List.length_map]
      exact h.rect r hr r0 hr0
    · intro l hl _ c hc
      rw [hlines] at hl
      obtain ⟨r', hr', rfl⟩ := List.mem_map.1 hl
      obtain ⟨r, hr, rfl⟩ := List.mem_map.1 hr'
      rw [hcells r hr] at hc
      obtain ⟨x, hx, rfl⟩ := List.mem_map.1 hc
      rw [hvalue r hr x hx]
      exact word_known' ha _ (h.chars r hr x hx)
  have hplain : ConsistentText d r0.length (fun _ => True)
      (joinStr nl ((T.map (·.map (written q))).map (joinWith d)) ++ tail) := by
    refine ⟨hstart, hnul, ?_, fun _ _ _ _ _ => trivial⟩
    intro l hl _
    rw [hlines] at hl
    obtain ⟨r', hr', rfl⟩ := List.mem_map.1 hl
    obtain ⟨r, hr, rfl⟩ := List.mem_map.1 hr'
    rw [hsplit r hr, List.length_map]
    exact h.rect r hr r0 hr0
  -- the cell in quotes
  obtain ⟨rq, hrq, xq, hxq, hbq⟩ := h.inQuotes
  have hxw : written q xq = q :: (xq.2 ++ [q]) := by rw [hwritten rq hrq xq hxq, hbq]; rfl
  have hqt : q ∈ joinStr nl ((T.map (·.map (written q))).map (joinWith d)) ++ tail := by
    have hl : joinWith d (rq.map (written q)) ∈ (T.map (·.map (written q))).map (joinWith d) :=
      List.mem_map.2 ⟨_, List.mem_map.2 ⟨rq, hrq, rfl⟩, rfl⟩
    rw [← hlines] at hl
    have hrec := records_textLines NUL _ hnul
    refine mem_records NUL q _ false _ (by rw [hrec]; exact hl) ?_
    exact mem_joinWith_of (List.mem_map.2 ⟨xq, hxq, rfl⟩) (by rw [hxw]; simp)
  have hN : (T.map (·.map (written q))).flatten.length ≤ 2 ^ 51 := by
    have h2 := cells_le_text (d := d) hnl (T.map (·.map (written q)))
    rw [tableText_eq hrows] at h2
    have h3 : nl.length ≤ 2 := by rcases hnl with rfl | rfl | rfl <;> simp
    simp only [List.length_append] at h2 hlen
    omega
  refine quoted_words_detect ha hd' hq' hlines (fun l hl => hlne l hl) ?_ hchars hcons hplain (h.columns r0 hr0)
    (hwidth r0 hr0) hlen hqt hN ⟨_, List.mem_map.2 ⟨rq, hrq, rfl⟩, xq.2 ++ [q], ?_, ?_⟩
  · intro r' hr'
    obtain ⟨r, hr, rfl⟩ := List.mem_map.1 hr'
    exact hsplit r hr
  · rw [← hxw]
    exact List.mem_map.2 ⟨xq, hxq, rfl⟩
  · intro y hy
    refine hascii y (hwchars rq hrq xq hxq y ?_)
    rw [hxw]
    exact List.mem_cons_of_mem _ hy

/-- A table as in the theorem: one row has a cell in quotes, one has an empty cell. -/
def quotedWordTable : List (List (Bool × Str)) :=
  [[(false, "id".toList), (true, "f(x)".toList)], [(false, "7".toList), (false, [])]]

example : QuotedWords quotedWordTable where
  rows := by decide
  columns := by decide
  rect := by unfold Rect; decide
  chars := by decide
  inQuotes := by decide
example : (detect asciiEnv SetOrder.forward 131072 (quotedText '|' '\'' ['\r', '\n'] quotedWordTable) none .consistency
    false).result = .ok (some (dialectOf (some '|') (some '\'') none)) := by decide +kernel

/-- Spaces matter: a table with two columns and a cell in quotes in both rows, for which the space wins. -/
example : (detect asciiEnv SetOrder.forward 131072 "\"a\",b c d e\n\"f\",g h i j\n".toList none .consistency true).result =
    .ok (some (dialectOf (some ' ') none none)) := by decide +kernel

/-! ## Cells that begin with a quote character -/

/-- **C82**, cells that begin with a quote character, as those of a text that is read without the quote character: they have
no type. -/
theorem C82_quote_unknown (env : PyEnv) (h : env.Ascii) (q sw : Bool) (c : Char) (hc : c = '"' ∨ c = '\'') (w : Str)
    (hw : ∀ x ∈ w, x.toNat < 128) : detectType env (c :: w) q sw = .ok none := quote_type h hc q sw w hw

example : detectType asciiEnv "\"12\"".toList = .ok none ∧ detectType asciiEnv "12".toList = .ok (some "number") := by
  decide +kernel
/-- The quote character `~` is different. -/
example : detectType asciiEnv "~/12".toList = .ok (some "unix_path") := by decide +kernel

end Clever.Props
