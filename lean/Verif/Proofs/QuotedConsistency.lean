import Verif.Proofs.MaskedAbstraction
import Verif.Proofs.WordTables
import Verif.Proofs.QuoteUnknown
import Verif.Proofs.QuotedIO
import Verif.Props.Parsing
import Verif.Spec.ConsistentQuoted

/-!
# Lemmas for C118 with quotes
-/

namespace Clever

open Spec Props

theorem textLines_nil {t : Str} (h : textLines t = []) : t = [] := by
  cases t with
  | nil => rfl
  | cons c t =>
    rw [textLines] at h
    split at h
    · rename_i hc
      have : t ≠ [] := by rintro rfl; simp at hc
      exact absurd (textLines_nil h) this
    · split at h
      · cases h
      · cases ht : textLines t <;> rw [ht] at h <;> cases h

/-- With an even number of quotes on every line the records are the lines. -/
theorem records_even {q : Char} (hq : isNL q = false) (t : Str) (b : Bool)
    (h0 : textLines t = [] → b = false) (h1 : ∀ l ls, textLines t = l :: ls → l.count q % 2 = b.toNat ∧
      ∀ l ∈ ls, l.count q % 2 = 0) : records q b t = textLines t ∧ t.count q % 2 = b.toNat := by
  have hq1 : q ≠ '\r' := by rintro rfl; exact absurd hq (by decide)
  have hq2 : q ≠ '\n' := by rintro rfl; exact absurd hq (by decide)
  induction t generalizing b with
  | nil =>
    have := h0 rfl
    subst this
    exact ⟨rfl, rfl⟩
  | cons c t ih =>
    rw [textLines] at h0 h1 ⊢
    rw [records]
    by_cases hc1 : c = '\r' ∧ t.head? = some '\n'
    · rw [if_pos hc1] at h0 h1 ⊢
      have hb : b = false := by
        obtain ⟨rfl, ht⟩ := hc1
        cases t with
        | nil => simp at ht
        | cons x t =>
          simp only [List.head?_cons, Option.some.injEq] at ht
          subst ht
          have := (h1 [] (textLines t) (by rw [textLines, if_neg (by simp), if_pos (by simp)])).1
          cases b
          · rfl
          · simp at this
      subst hb
      rw [if_pos ⟨rfl, hc1⟩]
      obtain ⟨i1, i2⟩ := ih false h0 h1
      refine ⟨i1, ?_⟩
      rw [List.count_cons_of_ne (by rw [hc1.1]; exact Ne.symm hq1)]
      exact i2
    · rw [if_neg hc1] at h0 h1 ⊢
      rw [if_neg (fun h => hc1 h.2)]
      by_cases hc2 : c = '\n' ∨ c = '\r'
      · rw [if_pos hc2] at h0 h1 ⊢
        obtain ⟨i1, i2⟩ := h1 _ _ rfl
        have hb : b = false := by
          cases b
          · rfl
          · simp at i1
        subst hb
        rw [if_pos ⟨rfl, hc2⟩]
        obtain ⟨j1, j2⟩ := ih false (fun _ => rfl) (by
          intro l ls hl
          rw [hl] at i2
          exact ⟨by simpa using i2 l (by simp), fun l' hl' => i2 l' (by simp [hl'])⟩)
        rw [j1]
        refine ⟨rfl, ?_⟩
        rw [List.count_cons_of_ne (by rcases hc2 with rfl | rfl; exact Ne.symm hq2; exact Ne.symm hq1)]
        exact j2
      · rw [if_neg hc2] at h0 h1 ⊢
        rw [if_neg (fun h => hc2 h.2)]
        have hcount : ∀ s : Str, (c :: s).count q % 2 = b.toNat → s.count q % 2 = (b ^^ (c == q)).toNat := by
          intro s hs
          by_cases hcq : c = q
          · subst hcq
            rw [List.count_cons_self] at hs
            cases b <;> simp at hs ⊢ <;> omega
          · rw [List.count_cons_of_ne hcq] at hs
            have : (c == q) = false := by simpa using hcq
            rw [this]
            simpa using hs
        have hcount' : ∀ s : Str, s.count q % 2 = (b ^^ (c == q)).toNat → (c :: s).count q % 2 = b.toNat := by
          intro s hs
          by_cases hcq : c = q
          · subst hcq
            rw [List.count_cons_self]
            cases b <;> simp at hs ⊢ <;> omega
          · rw [List.count_cons_of_ne hcq]
            have : (c == q) = false := by simpa using hcq
            rw [this] at hs
            simpa using hs
        obtain ⟨j1, j2⟩ := ih (b ^^ (c == q)) (by
          intro hl
          rw [hl] at h1
          have := hcount [] (h1 [c] [] rfl).1
          cases hx : (b ^^ (c == q))
          · rfl
          · rw [hx] at this; simp at this) (by
          intro l ls hl
          rw [hl] at h1
          obtain ⟨k1, k2⟩ := h1 (c :: l) ls rfl
          exact ⟨hcount l k1, k2⟩)
        rw [j1]
        exact ⟨rfl, hcount' t j2⟩

section

variable {env : PyEnv} {d q : Char} {n : Nat} {t : Str} {good : Str × Bool → Prop}

theorem _root_.Clever.Spec.ConsistentQuoted.head (h : ConsistentQuoted d q n good t) :
    t ≠ [] ∧ ∀ c, t.head? = some c → isNL c = false := by
  obtain ⟨c, r, rfl, h1, h2⟩ := h.start
  refine ⟨by simp, fun x hx => ?_⟩
  simp only [List.head?_cons, Option.some.injEq] at hx
  subst hx
  simp [isNL, h1, h2]

theorem _root_.Clever.Spec.ConsistentQuoted.records (h : ConsistentQuoted d q n good t) (hq : isNL q = false) :
    records q false t = textLines t ∧ t.count q % 2 = 0 := by
  obtain ⟨h1, h2⟩ := records_even hq t false (fun _ => rfl) (by
    intro l ls hl
    have := h.even
    rw [hl] at this
    exact ⟨this l (by simp), fun x hx => this x (by simp [hx])⟩)
  exact ⟨h1, h2⟩

theorem quoted_pattern (h : ConsistentQuoted d q n good t) (hn : 2 ≤ n) (hd : isNL d = false) (hq : isNL q = false)
    (hdq : d ≠ q) (hq0 : q ≠ NUL) :
    patternScore t (mkDialect [d] [q] []) = .ok (fl (((nonblank t).length : ℚ) * fl (((n : ℚ) - 1) / n))) := by
  have hA : makeAbstraction t (mkDialect [d] [q] []) = .ok (abstraction d q NUL t) := by
    apply makeAbstraction_of <;> rfl
  obtain ⟨h1, h2⟩ := h.head
  obtain ⟨hrec, heven⟩ := h.records hq
  have hr := rows_quoted hd hq hdq hq0 t h.noNul h1 h2 heven
  rw [splitChar_eq, hrec] at hr
  have hall : ∀ p ∈ splitOn 'R' (abstraction d q NUL t), p = pat (n - 1) := by
    rw [hr]
    intro p hp
    obtain ⟨l, hl, rfl⟩ := List.mem_map.1 hp
    obtain ⟨hl1, hl2⟩ := List.mem_filter.1 hl
    rw [h.width l hl1 (by simpa using hl2)]
  have hlen : (splitOn 'R' (abstraction d q NUL t)).length = (nonblank t).length := by rw [hr]; simp [nonblank]
  have hrep := replicate_of_all hall
  rw [hlen] at hrep
  unfold patternScore
  rw [hA]
  simp only
  rw [score_const (nonblank_pos h1 h.noNul h2) hrep]
  have hc : (splitOn 'D' (pat (n - 1))).length = n := by
    have := C22_cell_counts n (by omega)
    rw [patCells, splitChar_eq] at this
    rw [pat_eq, show n - 1 + 1 = n by omega]
    exact this
  rw [hc, rowWeight, max_eq_right]
  have : (2 : ℚ) ≤ n := by exact_mod_cast hn
  have := eps_small
  linarith

theorem quoted_type (h : ConsistentQuoted d q n (fun c => isKnownType env c.1 c.2 = .ok true) t) (hq : isNL q = false)
    (hl : InLong (t.length + 1)) : typeScore env (t.length + 1) t (mkDialect [d] [q] []) = .ok 1 := by
  obtain ⟨h1, h2⟩ := h.head
  obtain ⟨hrec, heven⟩ := h.records hq
  have hp : parseStringQuoted (t.length + 1) (mkDialect [d] [q] []) t = (Spec.parse d q t, none) :=
    C05_quote_parity_flags _ hl d q t h.noNul (fits_of_length _ d q t (by omega))
  have hrow : ∀ l ∈ textLines t, l ≠ [] → recordRow d q l = (rawCells d q false l).map (cellValue q) := by
    intro l hl' hne
    have : oddQuotes q l = false := by
      have := h.even l hl'
      simp [oddQuotes, this]
    rw [recordRow, if_neg hne, this]
    rfl
  refine typeScoreWith_all epsType_le _ hp (fun c hc => ?_) fun h0 => ?_
  · obtain ⟨row, hrow', hcr⟩ := List.mem_flatten.1 hc
    rw [Spec.parse, hrec] at hrow'
    obtain ⟨l, hl', rfl⟩ := List.mem_map.1 hrow'
    by_cases hne : l = []
    · subst hne; simp [recordRow] at hcr
    · rw [hrow l hl' hne] at hcr
      obtain ⟨s, hs, rfl⟩ := List.mem_map.1 hcr
      exact h.cells l hl' hne s hs
  · obtain ⟨l, hl'⟩ := List.exists_mem_of_length_pos (nonblank_pos h1 h.noNul h2)
    obtain ⟨hl1, hl2⟩ := List.mem_filter.1 hl'
    have hl3 : l ≠ [] := by simpa using hl2
    obtain ⟨s, hs⟩ := List.exists_mem_of_ne_nil _ (rawCells_ne d q false l)
    have hmem : cellValue q s ∈ (Spec.parse d q t).flatten := by
      refine List.mem_flatten.2 ⟨recordRow d q l, ?_, ?_⟩
      · rw [Spec.parse, hrec]; exact List.mem_map.2 ⟨l, hl1, rfl⟩
      · rw [hrow l hl1 hl3]; exact List.mem_map.2 ⟨s, hs, rfl⟩
    rw [h0] at hmem
    cases hmem

theorem quoted_delim_mem (h : ConsistentQuoted d q n good t) (hn : 2 ≤ n) : d ∈ t := by
  obtain ⟨h1, h2⟩ := h.head
  obtain ⟨l, hl⟩ := List.exists_mem_of_length_pos (nonblank_pos h1 h.noNul h2)
  obtain ⟨hl1, hl2⟩ := List.mem_filter.1 hl
  have hw := h.width l hl1 (by simpa using hl2)
  by_contra hd
  have hd' : d ∉ l := fun hm => hd (by
    have hrec := records_textLines NUL t h.noNul
    exact mem_records NUL d t false l (by rw [hrec]; exact hl1) hm)
  have : ∀ (l : Str) (b : Bool), d ∉ l → (rawCells d q b l).length = 1 := by
    intro l
    induction l with
    | nil => intro b _; rfl
    | cons c l ih =>
      intro b hc
      simp only [List.mem_cons, not_or] at hc
      rw [rawCells, if_neg (fun h => hc.1 h.2.2.symm)]
      have := ih (b ^^ (c == q)) hc.2
      cases hr : rawCells d q (b ^^ (c == q)) l with
      | nil => exact absurd hr (rawCells_ne _ _ _ _)
      | cons x xs => rw [hr] at this; simpa [consHead] using this
  rw [this l false hd'] at hw
  omega

theorem quoted_candidate (ha : env.Ascii) {ord : SetOrder} {allowed : Option (List Str)}
    (h : ConsistentQuoted d q n good t) (hn : 2 ≤ n) (hd : OutsideUrls d) (hdel : DelimChar env allowed d)
    (hq : q = '"' ∨ q = '\'') (hqt : q ∈ t) : mkDialect [d] [q] [] ∈ getDialects env ord t allowed := by
  refine (C30_candidates_iff ..).2 ⟨[d], [q], [], rfl, .inr ⟨d, outside_kept ha hd (quoted_delim_mem h hn), rfl, hdel⟩,
    .inr ⟨q, outside_kept ha (outside_quote hq) hqt, rfl, ?_⟩, .inl rfl⟩
  rcases hq with rfl | rfl <;> simp

end


/-! ## Cells of unknown types -/

theorem countKnown_le {known : Str × Bool → Except PyExc Bool} : ∀ {cs : List (Str × Bool)} {k : Nat},
    countKnown known cs = .ok k → k ≤ cs.length ∧ ((∃ c ∈ cs, known c = .ok false) → k < cs.length)
  | [], k, h => by
    simp only [countKnown, Except.ok.injEq] at h
    subst h
    simp
  | c :: cs, k, h => by
    rw [countKnown] at h
    cases hb : known c with
    | error e => rw [hb] at h; cases h
    | ok b =>
      rw [hb] at h
      cases hm : countKnown known cs with
      | error e => rw [hm] at h; cases h
      | ok m =>
        rw [hm] at h
        simp only [Except.ok.injEq] at h
        subst h
        obtain ⟨i1, i2⟩ := countKnown_le hm
        refine ⟨by simp only [List.length_cons]; split <;> omega, ?_⟩
        rintro ⟨c', hc', hf⟩
        rcases List.mem_cons.1 hc' with rfl | hc'
        · rw [hb] at hf
          simp only [Except.ok.injEq] at hf
          subst hf
          simp only [List.length_cons]
          simp only [Bool.false_eq_true, if_false]
          omega
        · have := i2 ⟨c', hc', hf⟩
          simp only [List.length_cons]
          split <;> omega

theorem epsType_small : defaultEpsType ≤ 1 / 2 := by decide +kernel

/-- With a cell of unknown type among at most `2 ^ 51` cells the score is smaller than the pattern score. -/
theorem score_lt {P : ℚ} (hP : 0 < P) {k N : Nat} (hk : k < N) (hN : N ≤ 2 ^ 51) :
    fl (P * typeRatio defaultEpsType k N) < P := by
  have hN0 : (0 : ℚ) < N := by
    have : 0 < N := by omega
    exact_mod_cast this
  have hN' : (N : ℚ) ≤ 2 ^ 51 := by exact_mod_cast hN
  have hk' : (k : ℚ) ≤ N - 1 := by
    have : k + 1 ≤ N := hk
    have : ((k + 1 : ℕ) : ℚ) ≤ N := by exact_mod_cast this
    push_cast at this
    linarith
  have hinv : (1 : ℚ) / 2 ^ 51 ≤ 1 / N := one_div_le_one_div_of_le hN0 hN'
  have hr : (k : ℚ) / N ≤ 1 - 1 / 2 ^ 51 := by
    have : (k : ℚ) / N ≤ (N - 1) / N := by gcongr
    have h2 : ((N : ℚ) - 1) / N = 1 - 1 / N := by field_simp
    linarith
  have hr0 : (0 : ℚ) ≤ (k : ℚ) / N := by positivity
  have hf := (fl_error hr0).2
  have hT : typeRatio defaultEpsType k N ≤ (1 - 1 / 2 ^ 51) * (1 + 1 / 2 ^ 53) := by
    rw [typeRatio, if_neg (by omega)]
    refine max_le ?_ (le_trans hf ?_)
    · refine le_trans epsType_small ?_
      norm_num
    · gcongr
  have hT0 : 0 ≤ typeRatio defaultEpsType k N := by
    rw [typeRatio, if_neg (by omega)]
    refine le_trans ?_ (le_max_left _ _)
    decide +kernel
  have h1 := (fl_error (mul_nonneg hP.le hT0)).2
  calc fl (P * typeRatio defaultEpsType k N) ≤ P * typeRatio defaultEpsType k N * (1 + 1 / 2 ^ 53) := h1
    _ ≤ P * ((1 - 1 / 2 ^ 51) * (1 + 1 / 2 ^ 53)) * (1 + 1 / 2 ^ 53) := by gcongr
    _ = P * (((1 - 1 / 2 ^ 51) * (1 + 1 / 2 ^ 53)) * (1 + 1 / 2 ^ 53)) := by ring
    _ < P * 1 := by
      apply mul_lt_mul_of_pos_left _ hP
      norm_num
    _ = P := mul_one P

theorem word_known' {env : PyEnv} (ha : env.Ascii) (b : Bool) {s : Str}
    (h : ∀ c ∈ s, alnum c = true ∨ c ∈ ".()".toList) : isKnownType env s b = .ok true := by
  have hasc : ∀ c ∈ s, c.toNat < 128 := by
    intro c hc
    rcases h c hc with h1 | h1
    · simp only [alnum, low, Bool.or_eq_true, Bool.and_eq_true, decide_eq_true_eq] at h1
      omega
    · simp at h1
      rcases h1 with rfl | rfl | rfl <;> decide
  by_cases h0 : maybeStrip env true s = []
  · unfold isKnownType
    rw [detectType_chain, firstType_chain, if_pos h0]
    rfl
  · refine C82_word_known env ha b true s hasc ⟨h0, fun c hc => ?_⟩
    rcases h c (mem_maybeStrip hc) with h1 | h1
    · exact .inl h1
    · refine .inr (.inl ?_)
      simp at h1
      rcases h1 with rfl | rfl | rfl <;> decide

theorem quote_unknown {env : PyEnv} (h : env.Ascii) {c : Char} (hc : c = '"' ∨ c = '\'') (b : Bool) (w : Str)
    (hw : ∀ x ∈ w, x.toNat < 128) : isKnownType env (c :: w) b = .ok false := by
  unfold isKnownType
  rw [quote_type h hc b true w hw]
  rfl

/-- If only one dialect is among the best ones, it is detected. -/
theorem detect_only {env : PyEnv} {ord : SetOrder} {limit : Int} {t : Str} {allowed : Option (List Str)} {skip : Bool}
    {y : SimpleDialect} (hlong : InLong (t.length + 1)) (hnul : NUL ∉ t) (hbrace : '{' ∉ t ∨ '}' ∉ t)
    (hy : y ∈ getDialects env ord t allowed) (hbest : ∀ x, IsBest env ord t allowed x → x = y) :
    detect env ord limit t allowed .consistency skip = ⟨.ok (some y), some .consistency, limit⟩ := by
  obtain ⟨r, hr⟩ := C38_no_brace_partial env ord limit t allowed .consistency skip hlong hnul hbrace
  unfold detect at hr ⊢
  simp only [reduceCtorEq, or_self, if_false] at hr ⊢
  unfold consistencyDetect at hr ⊢
  simp only at hr ⊢
  cases hc : (computeConsistencyScores env (some 100000) skip [] (t.length + 1) t (getDialects env ord t allowed)).1 with
  | error e => rw [hc] at hr; simp at hr
  | ok s =>
    simp only
    obtain ⟨h1, h2, h3⟩ := C33_best _ _ _ _ _ _ _ hc
    have hone : getBestDialects s = [y] := by
      cases hb : getBestDialects s with
      | nil => exact absurd hb h1
      | cons y ys =>
        rw [hb] at h2 h3
        have hy' := hbest y ((h3 y).1 (by simp))
        cases ys with
        | nil => rw [hy']
        | cons z zs =>
          exfalso
          have hz := hbest z ((h3 z).1 (by simp))
          have hlt := (List.pairwise_cons.1 h2).1 z (by simp)
          rw [hy', hz] at hlt
          rw [C18_strict_total_order.1 _ (getDialects_isStr hy)] at hlt
          simp at hlt
    rw [hone]

theorem length_joinWith_ge (d : Char) : ∀ r : List Str, r.length ≤ (joinWith d r).length + 1
  | [] => by simp
  | [x] => by simp
  | x :: y :: r => by
    have := length_joinWith_ge d (y :: r)
    simp only [joinWith, List.length_append, List.length_cons] at this ⊢
    omega

/-- The number of cells is at most the length of the text. -/
theorem cells_le_text {d : Char} {nl : Str} (hnl : IsLineEnd nl) : ∀ T : List (List Str),
    T.flatten.length ≤ (tableText d nl T).length
  | [] => by simp
  | r :: T => by
    have ih := cells_le_text (d := d) hnl T
    have h1 := length_joinWith_ge d r
    have h2 : 1 ≤ nl.length := by rcases hnl with rfl | rfl | rfl <;> simp
    simp only [tableText, List.flatMap_cons, List.flatten_cons, List.length_append] at ih ⊢
    omega

theorem count_joinWith_even {d q : Char} (hdq : d ≠ q) : ∀ {ws : List Str}, (∀ w ∈ ws, w.count q % 2 = 0) →
    (joinWith d ws).count q % 2 = 0
  | [], _ => by simp [joinWith]
  | [w], h => by rw [joinWith]; exact h w (by simp)
  | w :: w' :: ws, h => by
    have ih := count_joinWith_even hdq (ws := w' :: ws) fun x hx => h x (by simp only [List.mem_cons] at hx ⊢; exact .inr hx)
    have hw := h w (by simp)
    rw [joinWith, List.count_append, List.count_cons_of_ne hdq]
    omega

theorem cellValue_word {q : Char} {b : Bool} {s : Str} (hqs : q ∉ s) : cellValue q (written q (b, s)) = (s, b) := by
  cases b with
  | false =>
    simp only [written, Bool.false_eq_true, if_false, cellValue]
    rw [undouble_of_not_mem _ _ hqs, stripOuter_of_not_mem _ _ hqs]
  | true =>
    simp only [written, if_true, cellValue]
    rw [undouble_false]
    simp only [beq_self_eq_true]
    rw [undouble_doubled]
    cases s with
    | nil => simp [stripOuter]
    | cons c s =>
      have hlast : (c :: (s ++ [q])).getLast? = some q := by rw [← List.cons_append, List.getLast?_concat]
      rw [List.cons_append, stripOuter, if_pos ⟨rfl, hlast⟩, ← List.cons_append, List.dropLast_concat]

theorem count_written_even {q : Char} {b : Bool} {s : Str} (hqs : q ∉ s) : (written q (b, s)).count q % 2 = 0 := by
  have h0 : s.count q = 0 := List.count_eq_zero.2 hqs
  cases b with
  | false => simp only [written, Bool.false_eq_true, if_false, h0]
  | true =>
    simp only [written, if_true, doubled_not_mem hqs, List.count_cons_self, List.count_append, h0, List.count_nil]

theorem joinStr_head {nl l : Str} {L : List Str} {c : Char} (tail : Str) :
    ∃ r, joinStr nl ((c :: l) :: L) ++ tail = c :: r := by
  cases L with
  | nil => exact ⟨l ++ tail, rfl⟩
  | cons l' L => exact ⟨_, rfl⟩

theorem mem_joinWith_of {d c : Char} : ∀ {L : List Str} {x : Str}, x ∈ L → c ∈ x → c ∈ joinWith d L
  | [y], x, hx, hc => by
    simp only [List.mem_cons, List.not_mem_nil, or_false] at hx
    subst hx
    exact hc
  | y :: z :: L, x, hx, hc => by
    rw [joinWith]
    rcases List.mem_cons.1 hx with rfl | hx
    · simp [hc]
    · have := mem_joinWith_of (d := d) hx hc
      simp only [List.mem_append, List.mem_cons]
      exact .inr (.inr this)

theorem typeScoreWith_inv {known : Str × Bool → Except PyExc Bool} {limit : Int} {data : Str} {x : SimpleDialect}
    {eps T : ℚ} {rows : List (List (Str × Bool))} (hp : parseStringQuoted limit x data = (rows, none))
    (h : typeScoreWith known limit data x eps = .ok T) :
    ∃ k, countKnown known rows.flatten = .ok k ∧ T = typeRatio eps k rows.flatten.length := by
  unfold typeScoreWith at h
  simp only [hp] at h
  cases hk : countKnown known rows.flatten with
  | error e => rw [hk] at h; cases h
  | ok k =>
    rw [hk] at h
    simp only [Except.ok.injEq] at h
    exact ⟨k, rfl, h.symm⟩

/-- The best score is not reached without the quote character if some cell has no type that way. -/
theorem not_best_unquoted {env : PyEnv} {ord : SetOrder} {allowed : Option (List Str)} {t : Str} {d q : Char} {P : ℚ}
    {rows : List (List (Str × Bool))}
    (hy : mkDialect [d] [q] [] ∈ getDialects env ord t allowed)
    (hyP : patternScore t (mkDialect [d] [q] []) = .ok P)
    (hyT : typeScore env (t.length + 1) t (mkDialect [d] [q] []) = .ok 1)
    (hxP : patternScore t (mkDialect [d] [] []) = .ok P)
    (hp : parseStringQuoted (t.length + 1) (mkDialect [d] [] []) t = (rows, none))
    (hN : rows.flatten.length ≤ 2 ^ 51) (hu : ∃ c ∈ rows.flatten, isKnownType env c.1 c.2 = .ok false)
    (hx : IsBest env ord t allowed (mkDialect [d] [] [])) : False := by
  obtain ⟨-, Q, ⟨P', T, hP', hT, rfl⟩, hmax⟩ := hx
  rw [hxP] at hP'
  simp only [Except.ok.injEq] at hP'
  subst hP'
  have hQ := hmax _ hy _ ⟨_, _, hyP, hyT, rfl⟩
  have hPfl : fl (P * 1) = P := by
    rw [mul_one]
    unfold patternScore at hyP
    split at hyP
    · cases hyP
    · simp only [Except.ok.injEq] at hyP
      rw [← hyP, scoreOfAbstraction_fl]
  rw [hPfl] at hQ
  obtain ⟨k, hk, rfl⟩ := typeScoreWith_inv hp hT
  exact absurd hQ (not_le.2 (score_lt (patternScore_pos hyP) ((countKnown_le hk).2 hu) hN))

/-- The lines of a table of words with cells in quotes: the dialect is found. -/
theorem quoted_words_detect {env : PyEnv} (ha : env.Ascii) {ord : SetOrder} {limit : Int} {skip : Bool} {t : Str} {d q : Char}
    {n : Nat} (hd' : PlainDelim d) (hq' : PlainQuote q) {L : List (List Str)} (hlines : textLines t = L.map (joinWith d))
    (hlne : ∀ l ∈ L.map (joinWith d), l ≠ []) (hsplit : ∀ r ∈ L, splitOn d (joinWith d r) = r)
    (hchars : ∀ c ∈ t, c = d ∨ c = q ∨ c = '\n' ∨ c = '\r' ∨ alnum c = true ∨ c ∈ ".()".toList)
    (hcons : ConsistentQuoted d q n (fun c => isKnownType env c.1 c.2 = .ok true) t)
    (hplain : ConsistentText d n (fun _ => True) t) (hn : 2 ≤ n) (hwidth : n ≤ 2 ^ 25) (hlen : t.length < 2 ^ 50)
    (hqt : q ∈ t) (hN : L.flatten.length ≤ 2 ^ 51)
    (hu : ∃ r ∈ L, ∃ w, q :: w ∈ r ∧ ∀ y ∈ w, y.toNat < 128) :
    detect env ord limit t none .consistency skip =
      ⟨.ok (some (dialectOf (some d) (some q) none)), some .consistency, limit⟩ := by
  have hdq := delim_ne_quote hd' hq'
  have hqn := plainQuote_nl hq'
  have hq0 : q ≠ NUL := by rcases hq' with rfl | rfl <;> decide
  have hdn : isNL d = false := by rcases hd' with rfl | rfl | rfl | rfl <;> decide
  have hnul := hcons.noNul
  have hasciiText : ∀ c ∈ t, c.toNat < 128 := by
    intro c hc
    rcases hchars c hc with rfl | rfl | rfl | rfl | h2 | h2
    · rcases hd' with rfl | rfl | rfl | rfl <;> decide
    · rcases hq' with rfl | rfl <;> decide
    · decide
    · decide
    · simp only [alnum, low, Bool.or_eq_true, Bool.and_eq_true, decide_eq_true_eq] at h2
      omega
    · simp at h2
      rcases h2 with rfl | rfl | rfl <;> decide
  have hnot : ∀ x : Char, x ≠ d → x ≠ q → x ≠ '\n' → x ≠ '\r' → alnum x = false → x ∉ ".()".toList → x ∉ t := by
    intro x i1 i0 i2 i3 i4 i5 hx
    rcases hchars x hx with h' | h' | h' | h' | h' | h'
    · exact i1 h'
    · exact i0 h'
    · exact i2 h'
    · exact i3 h'
    · rw [i4] at h'; cases h'
    · exact i5 h'
  -- the candidates
  have hout : OutsideUrls d := by
    unfold OutsideUrls
    rcases hd' with rfl | rfl | rfl | rfl <;> decide
  have hdel : DelimChar env none d := by
    rcases hd' with rfl | rfl | rfl | rfl
    · exact .inr ⟨by decide, by decide, by decide, by decide, by decide, by decide, by
        rw [ha.category _ (by decide)]; decide⟩
    · exact .inr ⟨by decide, by decide, by decide, by decide, by decide, by decide, by
        rw [ha.category _ (by decide)]; decide⟩
    · exact .inr ⟨by decide, by decide, by decide, by decide, by decide, by decide, by
        rw [ha.category _ (by decide)]; decide⟩
    · exact .inl rfl
  have hlong : InLong (t.length + 1) := by
    simp only [InLong]; omega
  have hcand := quoted_candidate ha (ord := ord) hcons hn hout hdel hq' hqt
  have hP := quoted_pattern hcons hn hdn hqn hdq hq0
  have hT := quoted_type hcons hqn hlong
  have hP' := consistent_pattern hplain hn
  have hp : parseStringQuoted (t.length + 1)
      (mkDialect [d] [] []) t =
        (L.map (·.map (·, false)), none) := by
    have hdd : mkDialect [d] [] [] = dialectOf (some d) none none := rfl
    have := plain_quoted _ hlong (some d) _ hnul fun l hl' p hp => (by
      have := line_length hl'
      have := piece_length hp
      omega)
    rw [hdd, this, hlines]
    simp only [List.map_map, Prod.mk.injEq, and_true]
    refine List.map_congr_left fun r hr => ?_
    have hlr := hlne _ (List.mem_map.2 ⟨r, hr, rfl⟩)
    simp only [Function.comp_apply]
    rw [if_neg hlr]
    simp only [Option.getD_some]
    rw [hsplit r hr]
  refine detect_only hlong hnul (.inl ?_) hcand fun x hx => ?_
  · apply hnot '{'
    · rcases hd' with rfl | rfl | rfl | rfl <;> decide
    · rcases hq' with rfl | rfl <;> decide
    all_goals decide
  · obtain ⟨A, p, hA, hall, hpn⟩ := best_wins hnul hcons.head.1 hcons.head.2 hn hwidth hlen hcand hP hT hx
    obtain ⟨cd, cq, ce, rfl, hc⟩ := (C30_candidates_iff ..).1 hx.1
    obtain ⟨d', q', e', heq, hmem⟩ := C30_from_text_partial env ha ord _ none (by simp) _ hx.1
    obtain ⟨rfl, rfl, rfl⟩ := mkDialect_inj heq
    have he0 : ce = [] := by
      rcases hc.escape with h0 | ⟨u, c, m, v, hu, rfl, hce, -⟩
      · exact h0
      · exfalso
        have hcm : c ∈ t := by rw [hu]; simp
        have := ascii_escape ha (hasciiText c hcm) ((isPotentialEscapechar_iff env c).2 hce)
        refine hnot c ?_ ?_ ?_ ?_ ?_ ?_ hcm <;> rcases this with rfl | rfl | rfl <;>
          first
            | decide
            | (rcases hd' with rfl | rfl | rfl | rfl <;> decide)
            | (rcases hq' with rfl | rfl <;> decide)
    have hd0 : cd = [d] := by
      rcases hc.delim with rfl | ⟨c, -, rfl, hcd⟩
      · exfalso
        obtain ⟨cd, cq', ce', hcd, -, -, rfl⟩ := makeAbstraction_ok _ _ A hA
        have hz : cd = NUL := by
          have : setChar "delimiter" (some []) = .ok NUL := rfl
          have h' : setChar "delimiter" (some []) = .ok cd := hcd
          rw [this] at h'
          simpa using h'.symm
        subst hz
        exact absurd hpn (not_le.2 (lt_of_le_of_lt (one_cell hnul hall) (by omega)))
      · have hcm := hmem c (by simp)
        rcases hchars c hcm with h' | h' | h'
        · rw [h']
        · exfalso
          subst h'
          rcases hcd with h' | ⟨i1, i2, i3, i4, i5, i6, i7⟩
          · rcases hq' with rfl | rfl <;> exact absurd h' (by decide)
          · rcases hq' with rfl | rfl
            · exact i3 rfl
            · exact i4 rfl
        · exfalso
          rcases hcd with rfl | ⟨i1, i2, i3, i4, i5, i6, i7⟩
          · exact absurd h' (by decide)
          · rw [ha.category c (hasciiText c hcm)] at i7
            rcases h' with h' | h' | h' | h'
            · exact i5 h'
            · exact i6 h'
            · exact i7 (alnum_category h')
            · simp at h'
              rcases h' with rfl | rfl | rfl
              · exact i1 rfl
              · exact i7 (by decide)
              · exact i7 (by decide)
    subst he0 hd0
    rcases hc.quote with rfl | ⟨c, -, rfl, hcq⟩
    · exfalso
      refine not_best_unquoted hcand hP hT hP' hp ?_ ?_ hx
      · simpa [List.length_flatten, Function.comp_def] using hN
      · obtain ⟨r, hr, w, hw, hasc⟩ := hu
        refine ⟨(q :: w, false), ?_, quote_unknown ha hq' false w hasc⟩
        exact List.mem_flatten.2 ⟨_, List.mem_map.2 ⟨r, hr, rfl⟩, List.mem_map.2 ⟨_, hw, rfl⟩⟩
    · have hcm := hmem c (by simp)
      by_cases hcq' : c = q
      · rw [hcq']
        rfl
      · exfalso
        refine hnot c ?_ hcq' ?_ ?_ ?_ ?_ hcm <;> rcases hcq with rfl | rfl | rfl | rfl <;>
          first
            | decide
            | (rcases hd' with rfl | rfl | rfl | rfl <;> decide)

end Clever
