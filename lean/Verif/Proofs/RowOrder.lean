import Verif.Props.Detection
import Verif.Props.Ties
import Verif.Proofs.DetectErrors
import Verif.Spec.Rows

/-!
# Detection and the order of rows
-/

namespace Clever

open Spec Props

/-- The rows of a text without quotes and escapes, with the flags. -/
theorem plain_quoted (limit : Int) (hl : InLong limit) (delim : Option Char) (t : Str) (hnul : NUL ∉ t)
    (hfit : ∀ l ∈ textLines t, ∀ p ∈ splitOn (delim.getD NUL) l, (p.length : Int) ≤ limit) :
    parseStringQuoted limit (dialectOf delim none none) t =
      ((textLines t).map (fun l => if l = [] then [] else (splitOn (delim.getD NUL) l).map (·, false)), none) := by
  have hsame : parseStringQuoted limit (dialectOf delim none none) t =
      parseStringQuoted limit (dialectOf (some (delim.getD NUL)) none none) t := by
    cases delim <;> rfl
  rw [hsame]
  generalize delim.getD NUL = d at hfit
  rw [parseStringQuoted_eq _ _ _ _ hl]
  have hlines : records NUL false t = textLines t := records_textLines NUL t hnul
  have hn : ∀ l ∈ textLines t, NUL ∉ l := fun l hl' hx =>
    hnul (mem_records NUL NUL t false l (by rw [hlines]; exact hl') hx)
  rw [parseText_fits _ _ _ rfl rfl hnul]
  · simp only [cfgOf, Option.getD_some, Option.getD_none, Spec.parse, hlines, List.map_map,
      Option.map_none, Prod.mk.injEq, and_true]
    apply List.map_congr_left
    intro l hl'
    simp only [Function.comp_apply, recordRow_splitOn d NUL l (hn l hl')]
    split
    · rfl
    · simp [mkCell, mkQuoted, Function.comp_def]
  · simp only [cfgOf, Option.getD_some, Option.getD_none, hlines]
    intro l hl'
    rw [fits_splitOn limit d NUL l (hn l hl')]
    simp only [List.all_eq_true, decide_eq_true_eq]
    intro p hp
    have := hfit l hl' p hp
    omega

theorem countKnown_perm {known : Str × Bool → Except PyExc Bool} {cs cs' : List (Str × Bool)} (h : cs.Perm cs') :
    ∀ n, countKnown known cs = .ok n → countKnown known cs' = .ok n := by
  have cons : ∀ (c : Str × Bool) (cs : List (Str × Bool)) (n : Nat), countKnown known (c :: cs) = .ok n ↔
      ∃ b m, known c = .ok b ∧ countKnown known cs = .ok m ∧ n = (if b then 1 else 0) + m := by
    intro c cs n
    rw [countKnown]
    cases known c with
    | error e => simp
    | ok b =>
      cases countKnown known cs with
      | error e => simp
      | ok m => simp [eq_comm]
  induction h with
  | nil => intro n h; exact h
  | cons x _ ih =>
    intro n hn
    rw [cons] at hn ⊢
    obtain ⟨b, m, h1, h2, h3⟩ := hn
    exact ⟨b, m, h1, ih m h2, h3⟩
  | swap x y l =>
    intro n hn
    rw [cons] at hn
    obtain ⟨b, m, h1, h2, h3⟩ := hn
    rw [cons] at h2
    obtain ⟨b', m', h1', h2', h3'⟩ := h2
    rw [cons]
    exact ⟨b', (if b then 1 else 0) + m', h1', by rw [cons]; exact ⟨b, m', h1, h2', rfl⟩, by omega⟩
  | trans _ _ ih1 ih2 => intro n hn; exact ih2 n (ih1 n hn)

theorem flatten_nonblank (f : Str → List (Str × Bool)) (L : List Str) :
    (L.map fun l => if l = [] then [] else f l).flatten = ((L.filter (· ≠ [])).map f).flatten := by
  induction L with
  | nil => rfl
  | cons l L ih =>
    by_cases h : l = []
    · simp [h]; simpa using ih
    · simp [h]; simpa using ih

theorem line_length {t l : Str} (h : l ∈ textLines t) : l.length ≤ t.length := by
  induction t generalizing l with
  | nil => simp [textLines] at h
  | cons c t ih =>
    rw [textLines] at h
    split at h
    · have := ih h; simp; omega
    · split at h
      · rcases List.mem_cons.1 h with rfl | h
        · simp
        · have := ih h; simp; omega
      · cases hT : textLines t with
        | nil => rw [hT] at h; simp [consHead] at h; simp [h]
        | cons r rs =>
          rw [hT] at h ih
          simp only [consHead, List.mem_cons] at h
          rcases h with rfl | h
          · have := ih (l := r) (by simp); simp; omega
          · have := ih (l := l) (by simp [h]); simp; omega

theorem piece_length {d : Char} {l p : Str} (h : p ∈ splitOn d l) : p.length ≤ l.length := by
  induction l generalizing p with
  | nil => simp [splitOn] at h; simp [h]
  | cons c l ih =>
    rw [splitOn] at h
    split at h
    · rcases List.mem_cons.1 h with rfl | h
      · simp
      · have := ih h; simp; omega
    · cases hT : splitOn d l with
      | nil => rw [hT] at h; simp [consHead] at h; simp [h]
      | cons r rs =>
        rw [hT] at h ih
        simp only [consHead, List.mem_cons] at h
        rcases h with rfl | h
        · have := ih (p := r) (by simp); simp; omega
        · have := ih (p := p) (by simp [h]); simp; omega

theorem typeScore_lines {env : PyEnv} {t t' : Str} (delim : Option Char) (h : SameLines t t')
    (hl : InLong (t.length + 1)) (hl' : InLong (t'.length + 1)) (hn : NUL ∉ t) (hn' : NUL ∉ t') (T : ℚ)
    (hT : typeScore env (t.length + 1) t (dialectOf delim none none) = .ok T) :
    typeScore env (t'.length + 1) t' (dialectOf delim none none) = .ok T := by
  have fit : ∀ t : Str, ∀ l ∈ textLines t, ∀ p ∈ splitOn (delim.getD NUL) l, (p.length : Int) ≤ (t.length : Int) + 1 := by
    intro t l hl p hp
    have := line_length hl
    have := piece_length hp
    omega
  have e1 := plain_quoted _ hl delim t hn (fit t)
  have e2 := plain_quoted _ hl' delim t' hn' (fit t')
  unfold typeScore typeScoreWith at hT ⊢
  rw [e1] at hT
  rw [e2]
  simp only [flatten_nonblank (fun l => (splitOn (delim.getD NUL) l).map (·, false))] at hT ⊢
  have hp : (((textLines t).filter (· ≠ [])).map fun l => (splitOn (delim.getD NUL) l).map (·, false)).flatten.Perm
      (((textLines t').filter (· ≠ [])).map fun l => (splitOn (delim.getD NUL) l).map (·, false)).flatten :=
    (h.map _).flatten
  generalize (((textLines t).filter (· ≠ [])).map fun l => (splitOn (delim.getD NUL) l).map (·, false)).flatten = a at hT hp
  generalize (((textLines t').filter (· ≠ [])).map fun l => (splitOn (delim.getD NUL) l).map (·, false)).flatten = b at hp
  cases hc : countKnown (fun c => isKnownType env c.1 c.2) a with
  | error e => rw [hc] at hT; cases hT
  | ok n =>
    rw [hc] at hT
    rw [countKnown_perm hp n hc, ← hp.length_eq]
    exact hT

theorem pureLoop_congr {pat pat' typ typ' : SimpleDialect → Except PyExc ℚ} {skip : Bool} :
    ∀ (S : List SimpleDialect) (inc : Option ℚ) (l : List (SimpleDialect × ConsistencyScore)),
      (∀ d ∈ S, pat d = pat' d) → (∀ d ∈ S, ∀ T, typ d = .ok T → typ' d = .ok T) →
      pureLoop pat typ skip S inc = .ok l → pureLoop pat' typ' skip S inc = .ok l
  | [], _, _, _, _, h => h
  | d :: S, inc, l, hp, ht, h => by
    have hp' : ∀ x ∈ S, pat x = pat' x := fun x hx => hp x (by simp [hx])
    have ht' : ∀ x ∈ S, ∀ T, typ x = .ok T → typ' x = .ok T := fun x hx => ht x (by simp [hx])
    rw [pureLoop] at h ⊢
    rw [← hp d (by simp)]
    cases hd : pat d with
    | error e => rw [hd] at h; cases h
    | ok P =>
      rw [hd] at h
      simp only at h ⊢
      split
      · rename_i hb
        rw [if_pos hb] at h
        cases hr : pureLoop pat typ skip S inc with
        | error e => rw [hr] at h; cases h
        | ok r =>
          rw [hr] at h
          rw [pureLoop_congr S inc r hp' ht' hr]
          exact h
      · rename_i hb
        rw [if_neg hb] at h
        cases hT : typ d with
        | error e => rw [hT] at h; cases h
        | ok T =>
          rw [hT] at h
          rw [ht d (by simp) T hT]
          simp only at h ⊢
          cases hr : pureLoop pat typ skip S (some (maxScore inc (fl (P * T)))) with
          | error e => rw [hr] at h; cases h
          | ok r =>
            rw [hr] at h
            rw [pureLoop_congr S _ r hp' ht' hr]
            exact h

/-- Dialects without quotechar and escapechar: the answer of the tie breaker does not depend on the text. -/
theorem tieBreaker_plain (ord : SetOrder) (limit limit' : Int) (t t' : Str) (ds : List SimpleDialect) (hn : ds.Nodup)
    (hp : ∀ x ∈ ds, ∃ d, x = mkDialect d [] []) : tieBreaker ord limit t ds = tieBreaker ord limit' t' ds := by
  by_cases h2 : ds.length = 2
  · match ds, h2 with
    | [a, b], _ =>
      obtain ⟨x, rfl⟩ := hp a (by simp)
      obtain ⟨y, rfl⟩ := hp b (by simp)
      have hxy : x ≠ y := by
        rintro rfl
        simp at hn
      have hd : (mkDialect x [] []).delimiter ≠ (mkDialect y [] []).delimiter := by simpa [mkDialect] using hxy
      have one : ∀ limit t, breakTiesTwo limit t (mkDialect x [] []) (mkDialect y [] []) =
          .ok (tieDelimiter (mkDialect x [] []) (mkDialect y [] [])) := by
        intro limit t
        unfold breakTiesTwo onlyQuotechar onlyDelimiter
        rw [if_neg (by simp [hd]), if_pos (by simp [mkDialect])]
      show breakTiesTwo limit t _ _ = breakTiesTwo limit' t' _ _
      rw [one, one]
  · by_cases h34 : ds.length = 3 ∨ ds.length = 4
    · have : ∃ a ∈ ds, ∃ b ∈ ds, a.delimiter ≠ b.delimiter := by
        match ds, h34 with
        | a :: b :: rest, _ =>
          refine ⟨a, by simp, b, by simp, ?_⟩
          obtain ⟨x, rfl⟩ := hp a (by simp)
          obtain ⟨y, rfl⟩ := hp b (by simp)
          have hxy : x ≠ y := by
            rintro rfl
            simp at hn
          simpa [mkDialect] using hxy
      obtain ⟨a, ha, b, hb, hab⟩ := this
      rw [C84_delimiters ord limit t ds h34 a b ha hb hab, C84_delimiters ord limit' t' ds h34 a b ha hb hab]
    · have : ds.length < 2 ∨ 4 < ds.length := by omega
      rw [C84_other_numbers ord limit t ds this, C84_other_numbers ord limit' t' ds this]

theorem plain_dialects {env : PyEnv} {ord : SetOrder} {ds : Option (List Str)} {t : Str} (h : PlainText env ds t)
    (x : SimpleDialect) : x ∈ getDialects env ord t ds ↔
      x = mkDialect [] [] [] ∨ ∃ c ∈ t, isDelimiter env ds c = true ∧ x = mkDialect [c] [] [] := by
  rw [mem_getDialects]
  constructor
  · rintro ⟨d, q, e, rfl, hd, hq, he, -⟩
    rw [h.noUrl] at hd hq
    have hq0 : q = [] := by
      rcases mem_getQuotechars.1 hq with rfl | ⟨c, hc, hc', -⟩
      · rfl
      · exact absurd hc (h.noQuote c hc')
    subst hq0
    have he0 : e = [] := by
      rcases mem_escapeInsertions.1 he with rfl | ⟨u, c, n, v, ht, -, hp, hn⟩
      · rfl
      · rcases hn with hn | hn
        · subst hn
          rcases mem_getDelimiters.1 hd with h0 | ⟨c', -, hdel, hcc⟩
          · cases h0
          · cases hcc
            rw [h.noEscape u c n v ht hp] at hdel
            cases hdel
        · cases hn
    subst he0
    rcases mem_getDelimiters.1 hd with rfl | ⟨c, hc, hdel, rfl⟩
    · exact .inl rfl
    · exact .inr ⟨c, hc, hdel, rfl⟩
  · rintro (rfl | ⟨c, hc, hdel, rfl⟩)
    · refine ⟨[], [], [], rfl, ?_, ?_, ?_, by simp⟩
      · exact mem_getDelimiters.2 (.inl rfl)
      · exact mem_getQuotechars.2 (.inl rfl)
      · exact mem_escapeInsertions.2 (.inl rfl)
    · refine ⟨[c], [], [], rfl, ?_, ?_, ?_, by simp⟩
      · rw [h.noUrl]; exact mem_getDelimiters.2 (.inr ⟨c, hc, hdel, rfl⟩)
      · exact mem_getQuotechars.2 (.inl rfl)
      · exact mem_escapeInsertions.2 (.inl rfl)

theorem splitOn_absent {d : Char} {l : Str} (h : d ∉ l) : (splitOn d l).length = 1 := by
  induction l with
  | nil => rfl
  | cons c l ih =>
    rw [splitOn]
    have h1 : c ≠ d := fun hh => h (by simp [hh])
    have h2 := ih fun hh => h (by simp [hh])
    rw [if_neg (by simpa using h1)]
    cases hT : splitOn d l with
    | nil => rw [hT] at h2; cases h2
    | cons r rs => rw [hT] at h2; simpa [consHead] using h2

theorem dedup_const {L : List Nat} (h : ∀ x ∈ L, x = 1) : L.dedup.length ≤ 2 := by
  have hs : L.dedup ⊆ [1] := fun x hx => by simp [h x (List.mem_dedup.1 hx)]
  have := (List.nodup_dedup L).subperm hs
  have := this.length_le
  simp at this
  omega

theorem scores_lines {env : PyEnv} {ord : SetOrder} {cap : Option Nat} {skip : Bool} {ds : Option (List Str)}
    {t t' : Str} (ht : PlainText env ds t) (ht' : PlainText env ds t') (hsame : SameLines t t')
    (hchars : ∀ c, c ∈ t ↔ c ∈ t') (hl : InLong (t.length + 1)) (hl' : InLong (t'.length + 1))
    (hcells : ∀ c ∈ t, isDelimiter env ds c = true →
      (((textLines t).filter (· ≠ [])).map fun l => (splitOn c l).length).dedup.length ≤ 2)
    (s : List (SimpleDialect × ConsistencyScore))
    (h : (computeConsistencyScores env cap skip [] (t.length + 1) t (getDialects env ord t ds)).1 = .ok s) :
    (computeConsistencyScores env cap skip [] (t'.length + 1) t' (getDialects env ord t' ds)).1 = .ok s := by
  obtain ⟨S, hS, hlt, he⟩ := computeConsistencyScores_eq env cap skip (t.length + 1) t
    (getDialects env ord t ds) (fun x hx => getDialects_isStr hx) (getDialects_nodup ..)
  obtain ⟨S', hS', hlt', he'⟩ := computeConsistencyScores_eq env cap skip (t'.length + 1) t'
    (getDialects env ord t' ds) (fun x hx => getDialects_isStr hx) (getDialects_nodup ..)
  have hSS : S = S' := by
    refine sorted_ext (fun x hx => getDialects_isStr (hS.mem_iff.1 hx)) hlt hlt' fun x => ?_
    rw [hS.mem_iff, hS'.mem_iff, plain_dialects ht, plain_dialects ht']
    simp only [hchars]
  subst hSS
  rw [he] at h
  rw [he']
  have cand : ∀ x ∈ S, ∃ o : Option Char, x = dialectOf o none none ∧
      ((((textLines t).filter (· ≠ [])).map fun l => (splitOn (o.getD NUL) l).length).dedup.length ≤ 2) := by
    intro x hx
    rcases (plain_dialects ht x).1 (hS.mem_iff.1 hx) with rfl | ⟨c, hc, hd, rfl⟩
    · refine ⟨none, rfl, dedup_const fun n hn => ?_⟩
      obtain ⟨l, hl1, rfl⟩ := List.mem_map.1 hn
      apply splitOn_absent
      intro hx
      have hl2 := (List.mem_filter.1 hl1).1
      rw [← records_textLines NUL t ht.noNul] at hl2
      exact ht.noNul (mem_records NUL NUL t false l hl2 hx)
    · exact ⟨some c, rfl, hcells c hc hd⟩
  refine pureLoop_congr S none s (fun x hx => ?_) (fun x hx T hT => ?_) h
  · obtain ⟨o, rfl, hn⟩ := cand x hx
    obtain ⟨p, p', y, n, h1, h2, -, -, h3, h4⟩ := C24_order_of_rows_partial t t' (dialectOf o none none) (o.getD NUL)
      NUL NUL (by cases o <;> rfl) rfl rfl ht.nonempty ht'.nonempty ⟨ht.noNul, ht.noNul, ht.noNul⟩
      ⟨ht'.noNul, ht'.noNul, ht'.noNul⟩ ht.head ht'.head hsame defaultEpsPat (fl_pos (by norm_num)).le
    have hpp : p = p' := h4 (by rw [h3]; exact hn)
    have e1 : patternScore t (dialectOf o none none) = .ok p := h1
    have e2 : patternScore t' (dialectOf o none none) = .ok p' := h2
    rw [e1, e2, hpp]
  · obtain ⟨o, rfl, -⟩ := cand x hx
    exact typeScore_lines o hsame hl hl' ht.noNul ht'.noNul T hT

theorem all_perm {α : Type} {p : α → Bool} {l l' : List α} (h : l.Perm l') : l.all p = l'.all p := by
  rw [Bool.eq_iff_iff]
  simp [List.all_eq_true, h.mem_iff]

theorem everyRowSameLength_iff (rows : List Str) (d q : Str) : everyRowSameLength rows d q = true ↔
    rows ≠ [] ∧ (∀ r ∈ rows, isInfixOf d r = true) ∧
      ∃ n, ∀ r ∈ rows, (splitRow r d q).length = n := by
  cases rows with
  | nil => simp [everyRowSameLength]
  | cons a rows =>
    simp only [everyRowSameLength, List.all_eq_true, Bool.and_eq_true, decide_eq_true_eq, ne_eq, reduceCtorEq,
      not_false_eq_true, true_and]
    constructor
    · intro h
      exact ⟨fun r hr => (h r hr).1, _, fun r hr => (h r hr).2⟩
    · rintro ⟨h1, n, h2⟩ r hr
      exact ⟨h1 r hr, by rw [h2 r hr, h2 a (by simp)]⟩

theorem everyRowSameLength_perm {rows rows' : List Str} (h : rows.Perm rows') (d q : Str) :
    everyRowSameLength rows d q = everyRowSameLength rows' d q := by
  rw [Bool.eq_iff_iff, everyRowSameLength_iff, everyRowSameLength_iff]
  have : rows ≠ [] ↔ rows' ≠ [] := by
    rw [← List.length_pos_iff, ← List.length_pos_iff, h.length_eq]
  simp [this, h.mem_iff]

theorem isForm2_perm {rows rows' : List Str} (h : rows.Perm rows') (d q : Str) :
    isForm2 rows d q = isForm2 rows' d q := by
  rw [isForm2, isForm2, everyRowSameLength_perm h, all_perm h]

theorem form_perm {rows rows' : List Str} (h : rows.Perm rows') (ds : List Str) :
    ∀ t ∈ formTests ds, t.holds rows = t.holds rows' := by
  intro t ht
  simp only [formTests, List.mem_append, List.mem_map, List.mem_flatMap, List.mem_cons, List.not_mem_nil, or_false] at ht
  rcases ht with ((⟨d, -, rfl⟩ | ⟨d, -, q, -, rfl | rfl | rfl⟩) | ⟨q, -, rfl⟩) | rfl
  · exact isForm2_perm h d []
  · show isForm1 rows d q = isForm1 rows' d q
    rw [isForm1, isForm1, everyRowSameLength_perm h, all_perm h]
  · show isForm3 rows d q = isForm3 rows' d q
    rw [isForm3, isForm3, everyRowSameLength_perm h, all_perm h, h.length_eq]
  · show isForm5 rows d q = isForm5 rows' d q
    rw [isForm5, isForm5, everyRowHasDelim, everyRowHasDelim, isForm2_perm (h.map inner), all_perm h, h.length_eq,
      all_perm (p := fun row => decide (2 < row.length) && isQuotedCell row q) h]
  · show isForm4 rows q = isForm4 rows' q
    rw [isForm4, isForm4, all_perm h, h.length_eq]
  · show isForm4 rows [] = isForm4 rows' []
    rw [isForm4, isForm4, all_perm h, h.length_eq]

theorem find?_congr {α : Type} {p q : α → Bool} : ∀ {l : List α}, (∀ x ∈ l, p x = q x) → l.find? p = l.find? q
  | [], _ => rfl
  | a :: l, h => by
    rw [List.find?_cons, List.find?_cons, h a (by simp), find?_congr fun x hx => h x (by simp [hx])]

end Clever
