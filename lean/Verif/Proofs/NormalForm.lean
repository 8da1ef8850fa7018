import Verif.Proofs.JsonBomb

/-! # Normal forms and the parser -/

namespace Clever

open Spec

theorem isInfixOf_of_mem {c : Char} {s : Str} (h : c ∈ s) : isInfixOf [c] s = true := by
  induction s with
  | nil => simp at h
  | cons x s ih =>
    rcases List.mem_cons.mp h with rfl | h
    · simp [isInfixOf, List.isPrefixOf]
    · simp [isInfixOf, ih h]

theorem pySplit_mem {sep : Str} {c : Char} (h0 : sep ≠ []) (hc : c ∉ sep) :
    ∀ (s : Str) (k : Nat), c ∈ s.drop k → ∃ r ∈ pySplit sep k s, c ∈ r := by
  intro s
  induction s with
  | nil => intro k h; simp at h
  | cons x s ih =>
    intro k h
    cases k with
    | succ k =>
      rw [pySplit]
      exact ih k (by simpa using h)
    | zero =>
      rw [pySplit]
      split
      · rename_i hp
        obtain ⟨t, ht⟩ := List.isPrefixOf_iff_prefix.mp hp
        have hs : c ∈ s.drop (sep.length - 1) := by
          cases sep with
          | nil => exact absurd rfl h0
          | cons y sep =>
            simp only [List.cons_append, List.cons.injEq] at ht
            obtain ⟨rfl, ht⟩ := ht
            simp only [List.drop_zero, ← ht] at h
            simp only [List.mem_cons, not_or] at hc
            simp only [List.length_cons, Nat.add_sub_cancel, ← ht, List.drop_left]
            simp only [List.mem_cons, List.mem_append] at h
            rcases h with h | h | h
            · exact absurd h hc.1
            · exact absurd h hc.2
            · exact h
        obtain ⟨r, hr, hm⟩ := ih _ hs
        exact ⟨r, List.mem_cons_of_mem _ hr, hm⟩
      · simp only [List.drop_zero, List.mem_cons] at h
        rcases h with rfl | h
        · split
          · exact ⟨[c], by simp, by simp⟩
          · exact ⟨_, List.mem_cons_self, by simp⟩
        · obtain ⟨r, hr, hm⟩ := ih 0 (by simpa using h)
          split
          · rename_i h0; rw [h0] at hr; simp at hr
          · rename_i y ys h0
            rw [h0] at hr
            rcases List.mem_cons.mp hr with rfl | hr
            · exact ⟨x :: r, List.mem_cons_self, List.mem_cons_of_mem _ hm⟩
            · exact ⟨r, List.mem_cons_of_mem _ hr, hm⟩

theorem mem_dropWhile_of {p : Char → Bool} {c : Char} (hc : p c = false) {s : Str} (h : c ∈ s) :
    c ∈ s.dropWhile p := by
  induction s with
  | nil => simp at h
  | cons x s ih =>
    rw [List.dropWhile_cons]
    split
    · rename_i hp
      rcases List.mem_cons.mp h with rfl | h
      · rw [hc] at hp; simp at hp
      · exact ih h
    · exact h

/-- Every character but the line ends is in a row of `split_file`. -/
theorem splitFile_mem {c : Char} (h1 : c ≠ '\n') (h2 : c ≠ '\r') {s : Str} (h : c ∈ s) :
    ∃ r ∈ splitFile s, c ∈ r := by
  have hs : c ∈ stripTrailingCrnl s := by
    unfold stripTrailingCrnl
    rw [List.mem_reverse]
    exact mem_dropWhile_of (by simpa using h2) (mem_dropWhile_of (by simpa using h1) (by simpa using h))
  unfold splitFile
  simp only
  split
  · exact pySplit_mem (by simp) (by simp [h1, h2]) _ 0 hs
  split
  · exact pySplit_mem (by simp) (by simp [h1]) _ 0 hs
  split
  · exact pySplit_mem (by simp) (by simp [h2]) _ 0 hs
  · exact ⟨_, List.mem_singleton.mpr rfl, hs⟩

/-- Escape characters are not among the characters of form 4. -/
theorem form4Char_category {env : PyEnv} (h : env.Ascii) {c : Char} (hp : isPotentialEscapechar env c = true) :
    form4Char c = false ∧ c ≠ ' ' ∧ c ≠ '\n' ∧ c ≠ '\r' ∧ c ≠ '"' ∧ c ≠ '\'' := by
  simp only [isPotentialEscapechar, Bool.and_eq_true, decide_eq_true_eq, Bool.not_eq_true',
    List.contains_eq_mem, decide_eq_false_iff_not] at hp
  obtain ⟨hcat, hb⟩ := hp
  have key : ∀ x : Char, x.toNat < 128 → asciiCategory x ≠ "Po" → c ≠ x := by
    rintro x hx hne rfl
    exact hne (by rw [← h.category _ hx, hcat])
  have blk : ∀ x : Char, x ∈ escBlockChars → c ≠ x := by
    rintro x hx rfl
    exact hb hx
  have rngs : ∀ lo hi : Char, hi.toNat < 128 → (∀ n : Nat, lo.toNat ≤ n → n ≤ hi.toNat →
      asciiCategory (Char.ofNat n) ≠ "Po") → ¬ (lo ≤ c ∧ c ≤ hi) := by
    rintro lo hi hhi hall ⟨h1, h2⟩
    have h1' : lo.toNat ≤ c.toNat := h1
    have h2' : c.toNat ≤ hi.toNat := h2
    have := hall c.toNat h1' h2'
    rw [Char.ofNat_toNat] at this
    exact this (by rw [← h.category c (by omega), hcat])
  refine ⟨?_, key ' ' (by decide) (by decide), key _ (by decide) (by decide), key _ (by decide) (by decide),
    blk _ (by decide), blk _ (by decide)⟩
  unfold form4Char isLow isUpp isDig
  have b1 := rngs 'a' 'z' (by decide) (by decide)
  have b2 := rngs 'A' 'Z' (by decide) (by decide)
  have b3 := rngs '0' '9' (by decide) (by decide)
  have b4 := blk '.' (by decide)
  have b5 := key '_' (by decide) (by decide)
  have b6 := blk '&' (by decide)
  have b7 := key '-' (by decide) (by decide)
  simp [b4, b5, b6, b7]
  grind

theorem normal_mem {env : PyEnv} {sample : Str} {ds : Option (List Str)} {x : SimpleDialect}
    (h : detectDialectNormal env sample ds = some x) :
    ∃ d q, x = mkDialect d q [] ∧ (d = [] ∨ d ∈ ds.getD nfDelims) ∧ (q = [] ∨ q = ['\''] ∨ q = ['"']) := by
  unfold detectDialectNormal at h
  simp only at h
  split at h
  · simp at h
  · simp only [Option.map_eq_some_iff] at h
    obtain ⟨t, ht, rfl⟩ := h
    have ht := List.mem_of_find?_eq_some ht
    simp only [formTests, nfQuotechars, List.mem_append, List.mem_map, List.mem_flatMap, List.mem_cons,
      List.not_mem_nil, or_false] at ht
    rcases ht with ((⟨d, h, rfl⟩ | ⟨d, h, q, hq, rfl | rfl | rfl⟩) | ⟨q, hq, rfl⟩) | rfl
    · exact ⟨d, [], rfl, .inr h, .inl rfl⟩
    · exact ⟨d, q, rfl, .inr h, .inr hq⟩
    · exact ⟨d, q, rfl, .inr h, .inr hq⟩
    · exact ⟨d, q, rfl, .inr h, .inr hq⟩
    · exact ⟨[], q, rfl, .inl rfl, .inr hq⟩
    · exact ⟨[], [], rfl, .inl rfl, .inl rfl⟩


/-! ## Rows that end where the line ends -/

/-- No newline where the number of quotes before it is even, and an even number of quotes in all. -/
def OkRow (q : Char) : Bool → Str → Prop
  | inQ, [] => inQ = false
  | inQ, c :: r => (inQ = true ∨ isNL c = false) ∧ OkRow q (inQ ^^ (c == q)) r

theorem OkRow.append {q : Char} : ∀ {a b : Str} {inQ : Bool}, OkRow q inQ a → OkRow q false b →
    OkRow q inQ (a ++ b)
  | [], b, inQ, ha, hb => by
    simp only [OkRow] at ha
    subst ha
    exact hb
  | c :: a, b, inQ, ha, hb => ⟨ha.1, OkRow.append ha.2 hb⟩

theorem okRow_plain {q : Char} {s : Str} (hq : q ∉ s) (hn : ∀ c ∈ s, isNL c = false) :
    OkRow q false s := by
  induction s with
  | nil => rfl
  | cons c s ih =>
    simp only [List.mem_cons, not_or] at hq
    refine ⟨.inr (hn c (by simp)), ?_⟩
    have : (c == q) = false := by simpa using Ne.symm hq.1
    rw [this]
    exact ih hq.2 fun x hx => hn x (List.mem_cons_of_mem _ hx)

theorem okRow_quoted {q : Char} {s : Str} (hq : q ∉ s) (hn : isNL q = false) :
    OkRow q false (q :: s ++ [q]) := by
  refine ⟨.inr hn, ?_⟩
  simp only [beq_self_eq_true, Bool.false_xor]
  induction s with
  | nil => exact ⟨.inl rfl, by simp [OkRow]⟩
  | cons c s ih =>
    simp only [List.mem_cons, not_or] at hq
    refine ⟨.inl rfl, ?_⟩
    have : (c == q) = false := by simpa using Ne.symm hq.1
    rw [this]
    exact ih hq.2

theorem okRow_join {d q : Char} (hdq : d ≠ q) (hd : isNL d = false) :
    ∀ {cells : List Str}, (∀ x ∈ cells, OkRow q false x) → OkRow q false (joinWith d cells)
  | [], _ => rfl
  | [x], h => h x (by simp)
  | x :: y :: t, h => by
    rw [joinWith]
    refine (h x (by simp)).append ⟨.inr hd, ?_⟩
    have : (d == q) = false := by simpa using hdq
    rw [this]
    exact okRow_join hdq hd fun z hz => h z (List.mem_cons_of_mem _ hz)

/-- The record of such a row, if a newline or nothing follows. -/
theorem recs1_okRow {q : Char} {t : Str} {rest : List Str}
    (ht : (t = [] ∧ rest = []) ∨ records q false t = [] :: rest) :
    ∀ {row : Str} {inQ : Bool}, OkRow q inQ row → recs1 q inQ (row ++ t) = (row, rest)
  | [], inQ, h => by
    simp only [OkRow] at h
    subst h
    rw [List.nil_append, recs1]
    rcases ht with ⟨rfl, rfl⟩ | ht
    · rfl
    · rw [ht]
  | c :: row, inQ, h => by
    rw [List.cons_append, recs1_cons _ _ _ _ h.1, recs1_okRow ht h.2]

theorem records_okRow {q : Char} {row t : Str} (h : OkRow q false row)
    (ht : t = [] ∨ ∃ c r, t = c :: r ∧ isNL c = true) :
    ∀ r ∈ records q false (row ++ t), r = row ∨ r ∈ records q false t := by
  intro r hr
  by_cases h0 : row ++ t = []
  · rw [h0] at hr; simp [records] at hr
  · obtain ⟨rest, hrest⟩ : ∃ rest, (t = [] ∧ rest = []) ∨ records q false t = [] :: rest := by
      rcases ht with rfl | ⟨c, t, rfl, hc⟩
      · exact ⟨[], .inl ⟨rfl, rfl⟩⟩
      · obtain ⟨t', -, h'⟩ := nl_split c t hc
        exact ⟨_, .inr (h' q)⟩
    rw [recs1_spec q false _ h0, recs1_okRow hrest h] at hr
    rcases List.mem_cons.mp hr with h1 | h1
    · exact .inl h1
    · rcases hrest with ⟨-, rfl⟩ | hrest
      · simp at h1
      · exact .inr (by rw [hrest]; exact List.mem_cons_of_mem _ h1)

theorem records_nl {q c : Char} {t : Str} (hc : isNL c = true) :
    ∀ r ∈ records q false (c :: t), r = [] ∨ r ∈ records q false t := by
  intro r hr
  simp only [isNL, Bool.or_eq_true, decide_eq_true_eq] at hc
  rw [records] at hr
  split at hr
  · exact .inr hr
  · rw [if_pos (by rcases hc with h | h <;> simp [h])] at hr
    exact List.mem_cons.mp hr

theorem records_nls {q : Char} {s t : Str} (hs : ∀ c ∈ s, isNL c = true) :
    ∀ r ∈ records q false (s ++ t), r = [] ∨ r ∈ records q false t := by
  induction s with
  | nil => intro r hr; exact .inr hr
  | cons c s ih =>
    intro r hr
    rcases records_nl (hs c (by simp)) r hr with h | h
    · exact .inl h
    · exact ih (fun x hx => hs x (List.mem_cons_of_mem _ hx)) r h

/-! ## `split_file` -/

/-- `sep.join(rows)`. -/
def joinStr (sep : Str) : List Str → Str
  | [] => []
  | [x] => x
  | x :: y :: t => x ++ sep ++ joinStr sep (y :: t)

theorem joinStr_cons {sep c : Str} {L : List Str} (h : L ≠ []) : joinStr sep (c :: L) = c ++ sep ++ joinStr sep L := by
  cases L with
  | nil => exact absurd rfl h
  | cons a b => rfl

theorem pySplit_ne_nil (sep : Str) (s : Str) : ∀ k, pySplit sep k s ≠ [] := by
  induction s with
  | nil => intro k; cases k <;> simp [pySplit]
  | cons c s ih =>
    intro k
    cases k with
    | succ k => rw [pySplit]; exact ih k
    | zero =>
      rw [pySplit]
      split
      · simp
      · split <;> simp

theorem joinStr_pySplit {sep : Str} (h0 : sep ≠ []) (s : Str) :
    ∀ k, joinStr sep (pySplit sep k s) = s.drop k := by
  induction s with
  | nil => intro k; cases k <;> simp [pySplit, joinStr]
  | cons c s ih =>
    intro k
    cases k with
    | succ k => rw [pySplit, ih k, List.drop_succ_cons]
    | zero =>
      rw [pySplit]
      split
      · rename_i hp
        rw [joinStr_cons (pySplit_ne_nil _ _ _), ih]
        obtain ⟨t, ht⟩ := List.isPrefixOf_iff_prefix.mp hp
        cases sep with
        | nil => exact absurd rfl h0
        | cons y sep =>
          simp only [List.cons_append, List.cons.injEq] at ht
          obtain ⟨rfl, rfl⟩ := ht
          simp
      · split
        · rename_i h; exact absurd h (pySplit_ne_nil _ _ _)
        · rename_i x xs h
          have := ih 0
          rw [h] at this
          simp only [List.drop_zero] at this ⊢
          rw [← this]
          cases xs <;> simp [joinStr]

theorem dropWhile_tail (c : Char) (s : Str) :
    ∃ k, s = List.replicate k c ++ s.dropWhile (· = c) := by
  induction s with
  | nil => exact ⟨0, rfl⟩
  | cons x s ih =>
    rw [List.dropWhile_cons]
    split
    · rename_i h
      obtain ⟨k, hk⟩ := ih
      refine ⟨k + 1, ?_⟩
      rw [List.replicate_succ, List.cons_append, ← hk]
      simp at h
      rw [h]
    · exact ⟨0, rfl⟩

theorem stripTrailingCrnl_tail (s : Str) :
    ∃ tail : Str, s = stripTrailingCrnl s ++ tail ∧ ∀ c ∈ tail, isNL c = true := by
  obtain ⟨k, hk⟩ := dropWhile_tail '\n' s.reverse
  obtain ⟨m, hm⟩ := dropWhile_tail '\r' (s.reverse.dropWhile (· = '\n'))
  refine ⟨List.replicate m '\r' ++ List.replicate k '\n', ?_, ?_⟩
  · unfold stripTrailingCrnl
    have : s = s.reverse.reverse := by simp
    rw [this]
    conv_lhs => rw [hk, hm]
    simp
  · intro c hc
    simp only [List.mem_append, List.mem_replicate] at hc
    rcases hc with ⟨-, rfl⟩ | ⟨-, rfl⟩ <;> decide

/-- The text is made of the rows of `split_file`, a separator of newline characters, and newline
characters at the end. -/
theorem splitFile_join (s : Str) : ∃ sep tail : Str, s = joinStr sep (splitFile s) ++ tail ∧
    (∀ c ∈ tail, isNL c = true) ∧ (∀ c ∈ sep, isNL c = true) ∧ (sep ≠ [] ∨ ∃ r, splitFile s = [r]) := by
  obtain ⟨tail, h1, h2⟩ := stripTrailingCrnl_tail s
  have key : ∀ sep : Str, sep ≠ [] → joinStr sep (pySplit sep 0 (stripTrailingCrnl s)) = stripTrailingCrnl s :=
    fun sep h => by rw [joinStr_pySplit h]; rfl
  unfold splitFile
  simp only
  split
  · exact ⟨['\r', '\n'], tail, by rw [key _ (by simp)]; exact h1, h2, by decide, .inl (by simp)⟩
  split
  · exact ⟨['\n'], tail, by rw [key _ (by simp)]; exact h1, h2, by decide, .inl (by simp)⟩
  split
  · exact ⟨['\r'], tail, by rw [key _ (by simp)]; exact h1, h2, by decide, .inl (by simp)⟩
  · exact ⟨[], tail, by simpa [joinStr] using h1, h2, by simp, .inr ⟨_, rfl⟩⟩

/-- If no row ends inside quotes, the records of the parser are the rows of `split_file`, and blank
records. -/
theorem records_splitFile {q : Char} {s : Str} (h : ∀ row ∈ splitFile s, OkRow q false row) :
    ∀ r ∈ records q false s, r = [] ∨ r ∈ splitFile s := by
  obtain ⟨sep, tail, hs, ht, hsep, hne⟩ := splitFile_join s
  generalize splitFile s = rows at h hs hne
  have key : ∀ rows : List Str, (sep ≠ [] ∨ ∃ r, rows = [r]) → (∀ row ∈ rows, OkRow q false row) →
      ∀ r ∈ records q false (joinStr sep rows ++ tail), r = [] ∨ r ∈ rows := by
    intro rows
    have htail : ∀ r ∈ records q false tail, r = [] := by
      intro r hr
      have := records_nls (q := q) (t := []) ht r (by simpa using hr)
      rcases this with h | h
      · exact h
      · simp [records] at h
    have tailOk : tail = [] ∨ ∃ c r, tail = c :: r ∧ isNL c = true := by
      cases tail with
      | nil => exact .inl rfl
      | cons c r => exact .inr ⟨c, r, rfl, ht c (by simp)⟩
    induction rows with
    | nil =>
      intro _ _ r hr
      exact .inl (htail r (by simpa [joinStr] using hr))
    | cons x rows ih =>
      intro hne hok r hr
      cases rows with
      | nil =>
        rw [joinStr] at hr
        rcases records_okRow (hok x (by simp)) tailOk r hr with h | h
        · exact .inr (by simp [h])
        · exact .inl (htail r h)
      | cons y rows =>
        have hne' : sep ≠ [] := by
          rcases hne with h | ⟨_, h⟩
          · exact h
          · simp at h
        rw [joinStr, List.append_assoc, List.append_assoc] at hr
        have hsep' : sep ++ (joinStr sep (y :: rows) ++ tail) = [] ∨
            ∃ c r, sep ++ (joinStr sep (y :: rows) ++ tail) = c :: r ∧ isNL c = true := by
          cases sep with
          | nil => exact absurd rfl hne'
          | cons c sep => exact .inr ⟨c, _, rfl, hsep c (by simp)⟩
        rcases records_okRow (hok x (by simp)) hsep' r hr with h | h
        · exact .inr (by simp [h])
        · rcases records_nls hsep r h with h | h
          · exact .inl h
          · rcases ih (.inl hne') (fun z hz => hok z (List.mem_cons_of_mem _ hz)) r h with h | h
            · exact .inl h
            · exact .inr (List.mem_cons_of_mem _ h)
  intro r hr
  exact key rows hne h r (by rw [← hs]; exact hr)

/-! ## `split_row` -/

theorem pySplit_splitOn (d : Char) (s : Str) : pySplit [d] 0 s = splitOn d s := by
  induction s with
  | nil => rfl
  | cons c s ih =>
    rw [pySplit, splitOn]
    by_cases h : c = d
    · subst h
      simp [List.isPrefixOf, ih]
    · have : (d == c) = false := by simpa using Ne.symm h
      simp only [List.isPrefixOf, this, Bool.false_and, Bool.false_eq_true, if_false, if_neg h, ih]
      cases splitOn d s <;> rfl

/-- Put a text in front of the first piece. -/
def appHead (x : Str) : List Str → List Str
  | [] => [x]
  | r :: rs => (x ++ r) :: rs

/-- Drop the last piece if it is empty. -/
def dropEmptyLast (L : List Str) : List Str := if L.getLast? = some [] then L.dropLast else L

theorem dropEmptyLast_cons {x : Str} {L : List Str} (h : L ≠ []) :
    dropEmptyLast (x :: L) = x :: dropEmptyLast L := by
  cases L with
  | nil => exact absurd rfl h
  | cons a b =>
    unfold dropEmptyLast
    rw [List.getLast?_cons_cons]
    split <;> simp

theorem splitRowLoop_eq {d q : Char} (hdq : d ≠ q) (s : Str) : ∀ (cur : Str) (inq : Bool),
    splitRowLoop [d] [q] cur inq s = dropEmptyLast (appHead cur (rawCells d q inq s)) := by
  induction s with
  | nil =>
    intro cur inq
    rw [splitRowLoop, rawCells]
    cases cur <;> simp [appHead, dropEmptyLast]
  | cons c s ih =>
    intro cur inq
    rw [splitRowLoop, rawCells]
    by_cases h1 : c = d ∧ inq = false
    · obtain ⟨rfl, rfl⟩ := h1
      rw [if_pos ⟨rfl, rfl⟩, if_pos ⟨hdq, rfl, rfl⟩, ih]
      rw [appHead, dropEmptyLast_cons (rawCells_ne_nil _ _ _ _)]
      cases h : rawCells c q false s with
      | nil => exact absurd h (rawCells_ne_nil _ _ _ _)
      | cons a b => simp [appHead]
    · have hraw : (if c ≠ q ∧ inq = false ∧ c = d then [] :: rawCells d q false s
          else consHead c (rawCells d q (inq ^^ (c == q)) s)) =
          consHead c (rawCells d q (inq ^^ (c == q)) s) :=
        if_neg (by rintro ⟨-, h2, h3⟩; exact h1 ⟨h3, h2⟩)
      rw [hraw, if_neg (by simpa using h1)]
      have key : ∀ b, dropEmptyLast (appHead (cur ++ [c]) (rawCells d q b s)) =
          dropEmptyLast (appHead cur (consHead c (rawCells d q b s))) := by
        intro b
        cases h : rawCells d q b s with
        | nil => exact absurd h (rawCells_ne_nil _ _ _ _)
        | cons a b => simp [appHead, consHead]
      by_cases h2 : c = q
      · subst h2
        simp only [if_true, beq_self_eq_true, Bool.xor_true]
        rw [ih, key]
      · have hb : (c == q) = false := by simpa using h2
        rw [if_neg (by simpa using h2), ih, hb, Bool.xor_false, key]

/-- `split_row` cuts like the parser, but drops an empty cell at the end if the row has quotes. -/
theorem splitRow_eq {d q : Char} (hdq : d ≠ q) (row : Str) :
    splitRow row [d] [q] = rawCells d q false row ∨
      (q ∈ row ∧ splitRow row [d] [q] = dropEmptyLast (rawCells d q false row)) := by
  unfold splitRow
  by_cases h : q ∈ row
  · rw [if_neg (by simp [isInfixOf_of_mem h]), splitRowLoop_eq hdq]
    refine .inr ⟨h, ?_⟩
    cases hr : rawCells d q false row with
    | nil => exact absurd hr (rawCells_ne_nil _ _ _ _)
    | cons a b => simp [appHead]
  · rw [if_pos (by simp [isInfixOf_single h])]
    simp only [List.isEmpty_cons, Bool.false_eq_true, if_false]
    rw [pySplit_splitOn, rawCells_splitOn _ _ _ h]
    exact .inl rfl

/-! ## The lengths of the rows -/

theorem mem_joinStr {sep : Str} {rows : List Str} {row : Str} {c : Char} (hr : row ∈ rows) (hc : c ∈ row) :
    c ∈ joinStr sep rows := by
  induction rows with
  | nil => simp at hr
  | cons x rows ih =>
    cases rows with
    | nil =>
      simp only [List.mem_singleton] at hr
      subst hr
      exact hc
    | cons y rows =>
      rw [joinStr]
      rcases List.mem_cons.mp hr with rfl | hr
      · simp [hc]
      · simp [ih hr]

theorem mem_of_splitFile {s row : Str} {c : Char} (hr : row ∈ splitFile s) (hc : c ∈ row) : c ∈ s := by
  obtain ⟨sep, tail, hs, -⟩ := splitFile_join s
  rw [hs]
  exact List.mem_append_left _ (mem_joinStr hr hc)

theorem recordRow_length {d q : Char} {r : Str} (h : r ≠ []) :
    (recordRow d q r).length = (rawCells d q false r).length := by
  unfold recordRow
  rw [if_neg h]
  simp only
  split
  · cases hr : rawCells d q false r with
    | nil => exact absurd hr (rawCells_ne_nil _ _ _ _)
    | cons a b => rw [List.getLast?_eq_some_getLast (by simp)]; simp
  · simp

/-- If the rows of `split_file` end outside quotes and have `k` cells each, then so do the rows of the
parser. -/
theorem parse_lengths {limit : Int} (hl : InLong limit) {data : Str} (hnul : NUL ∉ data)
    (hlim : (data.length : Int) ≤ limit) {D Q : Option Char} {k : Nat}
    (hok : ∀ row ∈ splitFile data, OkRow (Q.getD NUL) false row)
    (hk : ∀ row ∈ splitFile data, row ≠ [] →
      (rawCells (D.getD NUL) (Q.getD NUL) false row).length = k) :
    ∀ r ∈ (parseString limit (dialectOf D Q none) data).1, r = [] ∨ r.length = k := by
  rw [parseString_eq _ _ _ _ hl, parseText_spec _ _ _ rfl rfl hnul hlim]
  intro r hr
  simp only [cfgOf, Spec.parse, List.map_map, List.mem_map, Function.comp_apply] at hr
  obtain ⟨rec, hrec, rfl⟩ := hr
  rcases records_splitFile hok rec hrec with rfl | h
  · exact .inl (by simp [recordRow])
  · by_cases h0 : rec = []
    · exact .inl (by simp [h0, recordRow])
    · exact .inr (by rw [List.length_map, recordRow_length h0]; exact hk rec h h0)

/-! ## Cells -/

theorem quotedCell_shape {cell : Str} {q : Char} (h : isQuotedCell cell [q] = true) :
    cell = q :: inner cell ++ [q] := by
  simp only [isQuotedCell, Bool.and_eq_true, decide_eq_true_eq] at h
  obtain ⟨⟨hl, hh⟩, hg⟩ := h
  match cell, hl with
  | a :: b :: r, _ =>
    simp only [List.head?_cons, Option.map_some, Option.some.injEq, List.cons.injEq, and_true] at hh
    subst hh
    rw [List.getLast?_cons_cons, List.getLast?_eq_some_getLast (by simp)] at hg
    simp only [Option.map_some, Option.some.injEq, List.cons.injEq, and_true] at hg
    simp only [inner, List.drop_succ_cons, List.drop_zero, List.cons_append]
    conv_lhs => rw [← List.dropLast_append_getLast (l := b :: r) (by simp), hg]

theorem not_mem_of_isInfixOf {c : Char} {s : Str} (h : isInfixOf [c] s = false) : c ∉ s := by
  intro hc
  rw [isInfixOf_of_mem hc] at h
  simp at h

theorem elementary_plain {c : Char} (h : elementaryChar c = true) :
    isNL c = false ∧ c ≠ '"' ∧ c ≠ '\'' := by
  have key : ∀ x : Char, elementaryChar x = false → c ≠ x := by
    rintro x hx rfl
    rw [h] at hx
    simp at hx
  exact ⟨by simp [isNL, key '\n' (by decide), key '\r' (by decide)], key _ (by decide), key _ (by decide)⟩

theorem form4_plain {c : Char} (h : (form4Char c || decide (c = ' ')) = true) :
    isNL c = false ∧ c ≠ '"' ∧ c ≠ '\'' := by
  have key : ∀ x : Char, (form4Char x || decide (x = ' ')) = false → c ≠ x := by
    rintro x hx rfl
    rw [h] at hx
    simp at hx
  exact ⟨by simp [isNL, key '\n' (by decide), key '\r' (by decide)], key _ (by decide), key _ (by decide)⟩

theorem rawCells_no_delim {d q : Char} : ∀ {r : Str} {inQ : Bool}, d ∉ r → rawCells d q inQ r = [r]
  | [], inQ, _ => rfl
  | c :: r, inQ, h => by
    simp only [List.mem_cons, not_or] at h
    rw [rawCells, if_neg (by rintro ⟨-, -, h2⟩; exact h.1 h2.symm), rawCells_no_delim h.2]
    rfl

theorem rawCells_quoted {d q : Char} {x : Str} (hq : q ∉ x) :
    rawCells d q false (q :: x ++ [q]) = [q :: x ++ [q]] := by
  have key : ∀ x : Str, q ∉ x → rawCells d q true (x ++ [q]) = [x ++ [q]] := by
    intro x
    induction x with
    | nil => intro _; simp [rawCells, consHead]
    | cons c x ih =>
      intro h
      simp only [List.mem_cons, not_or] at h
      have : (c == q) = false := by simpa using Ne.symm h.1
      rw [List.cons_append, rawCells, if_neg (by simp), this, Bool.xor_false, ih h.2]
      rfl
  rw [List.cons_append, rawCells, if_neg (by simp)]
  simp only [beq_self_eq_true, Bool.false_xor]
  rw [key x hq]
  rfl

theorem mem_joinWith {d c : Char} : ∀ {L : List Str}, c ∈ joinWith d L → c = d ∨ ∃ x ∈ L, c ∈ x
  | [], h => by simp [joinWith] at h
  | [x], h => .inr ⟨x, by simp, h⟩
  | x :: y :: t, h => by
    rw [joinWith] at h
    simp only [List.mem_append, List.mem_cons] at h
    rcases h with h | h | h
    · exact .inr ⟨x, by simp, h⟩
    · exact .inl h
    · rcases mem_joinWith h with h | ⟨z, hz, hc⟩
      · exact .inl h
      · exact .inr ⟨z, List.mem_cons_of_mem _ hz, hc⟩

theorem getLast_joinWith {d : Char} : ∀ {L : List Str}, 2 ≤ L.length → L.getLast? = some [] →
    (joinWith d L).getLast? = some d
  | [x, y], _, h => by
    simp only [List.getLast?_cons_cons, List.getLast?_singleton, Option.some.injEq] at h
    subst h
    simp [joinWith]
  | x :: y :: z :: t, _, h => by
    rw [joinWith, List.getLast?_append, List.getLast?_cons]
    have := getLast_joinWith (d := d) (L := y :: z :: t) (by simp) (by simpa using h)
    rw [this]
    rfl

theorem mem_dropEmptyLast {L : List Str} {x : Str} (hx : x ∈ L) (h0 : x ≠ []) : x ∈ dropEmptyLast L := by
  unfold dropEmptyLast
  split
  · rename_i hl
    have hne : L ≠ [] := by rintro rfl; simp at hx
    rw [← List.dropLast_append_getLast hne] at hx
    rw [List.getLast?_eq_some_getLast hne, Option.some.injEq] at hl
    rcases List.mem_append.mp hx with h | h
    · exact h
    · rw [hl] at h; simp at h; exact absurd h h0
  · exact hx

/-- A row that does not end with the delimiter is cut into the cells of the parser. -/
theorem splitRow_of_last {d q : Char} (hdq : d ≠ q) {row : Str} (h : row.getLast? ≠ some d) :
    splitRow row [d] [q] = rawCells d q false row := by
  rcases splitRow_eq hdq row with h1 | ⟨hq, h1⟩
  · exact h1
  · rw [h1]
    unfold dropEmptyLast
    split
    · rename_i hl
      exfalso
      apply h
      have hj := joinWith_rawCells d q row false
      rw [← hj]
      apply getLast_joinWith _ hl
      cases hr : rawCells d q false row with
      | nil => exact absurd hr (rawCells_ne_nil _ _ _ _)
      | cons a b =>
        cases b with
        | nil =>
          rw [hr] at hl hj
          simp only [List.getLast?_singleton, Option.some.injEq] at hl
          subst hl
          simp only [joinWith] at hj
          subst hj
          simp at hq
        | cons b c => simp
    · rfl

/-- The characters of a row are in the cells of `split_row`, but for the delimiters. -/
theorem mem_splitRow {d q : Char} (hdq : d ≠ q) {row : Str} {c : Char} (hc : c ∈ row) (hcd : c ≠ d) :
    ∃ cell ∈ splitRow row [d] [q], c ∈ cell := by
  rw [← joinWith_rawCells d q row false] at hc
  rcases mem_joinWith hc with h | ⟨x, hx, hcx⟩
  · exact absurd h hcd
  · rcases splitRow_eq hdq row with h1 | ⟨-, h1⟩
    · exact ⟨x, by rw [h1]; exact hx, hcx⟩
    · refine ⟨x, ?_, hcx⟩
      rw [h1]
      exact mem_dropEmptyLast hx (by rintro rfl; simp at hcx)

theorem splitRow_nil {d : Char} {row : Str} : splitRow row [d] [] = splitOn d row := by
  unfold splitRow
  simp only [List.isEmpty_nil, Bool.true_or, if_true, List.isEmpty_cons, Bool.false_eq_true, if_false]
  exact pySplit_splitOn d row

theorem sameLength_spec {rows : List Str} {delim q : Str} (h : everyRowSameLength rows delim q = true) :
    ∃ k, ∀ row ∈ rows, isInfixOf delim row = true ∧ (splitRow row delim q).length = k := by
  cases rows with
  | nil => simp [everyRowSameLength] at h
  | cons x rows =>
    refine ⟨(splitRow x delim q).length, fun row hr => ?_⟩
    simp only [everyRowSameLength, List.all_eq_true, Bool.and_eq_true, decide_eq_true_eq] at h
    exact h row hr

/-! ## The forms -/

section
variable {limit : Int} (hl : InLong limit) {data : Str} (hnul : NUL ∉ data)
  (hlim : (data.length : Int) ≤ limit)
include hl hnul hlim

theorem form2_lengths {d : Char} (hd : isNL d = false) (h : isForm2 (splitFile data) [d] [] = true) :
    ∃ k, ∀ r ∈ (parseString limit (dialectOf (some d) none none) data).1, r = [] ∨ r.length = k := by
  simp only [isForm2, Bool.and_eq_true, List.all_eq_true] at h
  obtain ⟨h1, h2⟩ := h
  obtain ⟨k, hk⟩ := sameLength_spec h1
  have hn : ∀ row ∈ splitFile data, NUL ∉ row := fun row hr hm => hnul (mem_of_splitFile hr hm)
  refine ⟨k, parse_lengths hl hnul hlim ?_ ?_⟩
  · intro row hr
    refine okRow_plain (hn row hr) fun c hc => ?_
    by_cases hcd : c = d
    · rw [hcd]; exact hd
    rw [← joinWith_splitOn d row] at hc
    rcases mem_joinWith hc with h | ⟨x, hx, hcx⟩
    · exact absurd h hcd
    · have := (h2 row hr).2 x (by rw [splitRow_nil]; exact hx)
      simp only [Bool.or_eq_true, List.isEmpty_iff] at this
      rcases this.2 with h | h
      · rw [h] at hcx; simp at hcx
      · simp only [isElementary, Bool.and_eq_true, List.all_eq_true] at h
        exact (elementary_plain (h.2 c hcx)).1
  · intro row hr _
    rw [show Option.getD (none : Option Char) NUL = NUL from rfl, rawCells_splitOn _ _ _ (hn row hr),
      Option.getD_some, ← splitRow_nil]
    exact (hk row hr).2

theorem form4_lengths_unquoted (h : isForm4 (splitFile data) [] = true) :
    ∀ r ∈ (parseString limit (dialectOf none none none) data).1, r = [] ∨ r.length = 1 := by
  simp only [isForm4, Bool.and_eq_true, List.all_eq_true, List.isEmpty_nil, if_true] at h
  have hn : ∀ row ∈ splitFile data, NUL ∉ row := fun row hr hm => hnul (mem_of_splitFile hr hm)
  refine parse_lengths hl hnul hlim ?_ ?_
  · intro row hr
    exact okRow_plain (hn row hr) fun c hc => (form4_plain (by rw [(h.2 row hr).2 c hc]; rfl)).1
  · intro row hr _
    show (rawCells NUL NUL false row).length = 1
    rw [rawCells_no_delim (hn row hr)]
    rfl

theorem form4_lengths_quoted {q : Char} (hq : q = '"' ∨ q = '\'') (h : isForm4 (splitFile data) [q] = true) :
    ∀ r ∈ (parseString limit (dialectOf none (some q) none) data).1, r = [] ∨ r.length = 1 := by
  simp only [isForm4, Bool.and_eq_true, List.all_eq_true, List.isEmpty_cons, Bool.false_eq_true,
    if_false] at h
  have hn : ∀ row ∈ splitFile data, NUL ∉ row := fun row hr hm => hnul (mem_of_splitFile hr hm)
  refine parse_lengths hl hnul hlim ?_ ?_
  · intro row hr
    obtain ⟨h1, h2⟩ := h.2 row hr
    rw [quotedCell_shape h1]
    refine okRow_quoted ?_ (by rcases hq with rfl | rfl <;> decide)
    intro hm
    have := form4_plain (h2 _ hm)
    rcases hq with rfl | rfl
    · exact this.2.1 rfl
    · exact this.2.2 rfl
  · intro row hr _
    show (rawCells NUL q false row).length = 1
    rw [rawCells_no_delim (hn row hr)]
    rfl

theorem form5_lengths {d q : Char} (hdq : d ≠ q) (hq : q = '"' ∨ q = '\'')
    (h : isForm5 (splitFile data) [d] [q] = true) :
    ∀ r ∈ (parseString limit (dialectOf (some d) (some q) none) data).1, r = [] ∨ r.length = 1 := by
  simp only [isForm5, Bool.and_eq_true, List.all_eq_true] at h
  obtain ⟨⟨-, h1⟩, h2⟩ := h
  simp only [isForm2, Bool.and_eq_true, List.all_eq_true] at h2
  have hin : ∀ row ∈ splitFile data, row = q :: inner row ++ [q] ∧ q ∉ inner row := by
    intro row hr
    refine ⟨quotedCell_shape (h1 row hr).2, fun hm => ?_⟩
    obtain ⟨cell, hc, hqc⟩ := mem_splitRow hdq hm (Ne.symm hdq)
    have := ((h2.2 (inner row) (List.mem_map_of_mem hr)).2 cell hc).2
    simp only [Bool.or_eq_true, List.isEmpty_iff] at this
    rcases this with h | h
    · rw [h] at hqc; simp at hqc
    · simp only [isElementary, Bool.and_eq_true, List.all_eq_true] at h
      have := elementary_plain (h.2 q hqc)
      rcases hq with rfl | rfl
      · exact this.2.1 rfl
      · exact this.2.2 rfl
  refine parse_lengths hl hnul hlim ?_ ?_
  · intro row hr
    rw [(hin row hr).1]
    exact okRow_quoted (hin row hr).2 (by rcases hq with rfl | rfl <;> decide)
  · intro row hr _
    rw [(hin row hr).1]
    rw [Option.getD_some, Option.getD_some, rawCells_quoted (hin row hr).2]
    rfl

/-- Forms 1 and 3: no row ends with the delimiter, and all cells are plain, or quoted without quotes
inside. -/
theorem quoted_lengths {d q : Char} (hdq : d ≠ q) (hd : isNL d = false)
    (hs : everyRowSameLength (splitFile data) [d] [q] = true)
    (hlast : ∀ row ∈ splitFile data, row.getLast? ≠ some d)
    (hcells : ∀ row ∈ splitFile data, ∀ cell ∈ splitRow row [d] [q], OkRow q false cell) :
    ∃ k, ∀ r ∈ (parseString limit (dialectOf (some d) (some q) none) data).1, r = [] ∨ r.length = k := by
  obtain ⟨k, hk⟩ := sameLength_spec hs
  refine ⟨k, parse_lengths hl hnul hlim ?_ ?_⟩
  · intro row hr
    rw [← joinWith_rawCells d q row false, ← splitRow_of_last hdq (hlast row hr)]
    exact okRow_join hdq hd (hcells row hr)
  · intro row hr _
    rw [Option.getD_some, Option.getD_some, ← splitRow_of_last hdq (hlast row hr)]
    exact (hk row hr).2

theorem form1_lengths {d q : Char} (hdq : d ≠ q) (hd : isNL d = false) (hq : isNL q = false)
    (h : isForm1 (splitFile data) [d] [q] = true)
    (hlast : ∀ row ∈ splitFile data, row.getLast? ≠ some d) :
    ∃ k, ∀ r ∈ (parseString limit (dialectOf (some d) (some q) none) data).1, r = [] ∨ r.length = k := by
  simp only [isForm1, Bool.and_eq_true, List.all_eq_true] at h
  refine quoted_lengths hl hnul hlim hdq hd h.1 hlast fun row hr cell hc => ?_
  obtain ⟨⟨-, h1⟩, h2⟩ := (h.2 row hr).2 cell hc
  rw [quotedCell_shape h1]
  exact okRow_quoted (not_mem_of_isInfixOf (by simpa using h2)) hq

theorem form3_lengths {d q : Char} (hdq : d ≠ q) (hd : isNL d = false) (hq : q = '"' ∨ q = '\'')
    (h : isForm3 (splitFile data) [d] [q] = true)
    (hlast : ∀ row ∈ splitFile data, row.getLast? ≠ some d)
    (hnest : ∀ row ∈ splitFile data, ∀ cell ∈ splitRow row [d] [q], q ∉ inner cell) :
    ∃ k, ∀ r ∈ (parseString limit (dialectOf (some d) (some q) none) data).1, r = [] ∨ r.length = k := by
  simp only [isForm3, Bool.and_eq_true, List.all_eq_true] at h
  refine quoted_lengths hl hnul hlim hdq hd h.1.1 hlast fun row hr cell hc => ?_
  have := ((h.2 row hr).2 cell hc).2
  split at this
  · rw [quotedCell_shape this]
    exact okRow_quoted (hnest row hr cell hc) (by rcases hq with rfl | rfl <;> decide)
  · simp only [isElementary, Bool.and_eq_true, List.all_eq_true] at this
    refine okRow_plain ?_ fun c hcc => (elementary_plain (this.2 c hcc)).1
    intro hm
    have := elementary_plain (this.2 q hm)
    rcases hq with rfl | rfl
    · exact this.2.1 rfl
    · exact this.2.2 rfl

end

end Clever
