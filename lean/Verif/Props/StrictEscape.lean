import Verif.Props.StrictMode

/-!
# C12 exactly, with an escape character

Strict mode rejects quotes that are not escaped, and texts whose last record is still open at the end.
-/

namespace Clever

open Spec

/-- The last record of the text is still open at its end: the last cell ends with an escape character that escapes nothing, after
other characters, or the last escape character of the last cell escapes a line break.  The arguments before the text say what
comes before it: an escape character that is not escaped itself, a character of the cell, and an escaped line break as the last
escape in the cell. -/
def Spec.openEnd (d e : Char) : Bool → Bool → Bool → Str → Bool
  | true, begun, _, [] => begun
  | false, _, broken, [] => broken
  | true, _, _, c :: rest => openEnd d e false true (isNL c) rest
  | false, begun, broken, c :: rest =>
    if c = e then openEnd d e true begun broken rest
    else if c = d || isNL c then openEnd d e false false false rest
    else openEnd d e false true broken rest

/-- The parser after a part of the text without bare quotes. -/
structure Scan {α : Type} (o : PObj α) (p n k : Bool) : Prop where
  field : o.field ≠ [] ↔ n = true
  esc : p = true → o.state = .escapedChar
  out : p = false → o.state.outside = true
  cont : p = false → (o.state = .afterEscapedCRNL ↔ k = true)
  begun : p = false → k = true → n = true
  fresh : p = false → o.state ≠ .inField → k = false → n = false

theorem scan_init {α : Type} : Scan (PObj.init : PObj α) false false false :=
  ⟨by simp [PObj.init], by simp, fun _ => rfl, by simp [PObj.init], by simp, by simp⟩

theorem addChar_field {α : Type} {cfg : Cfg} {o o' : PObj α} {c : Char} (h : addChar cfg o c = .ok o') :
    o'.field ≠ [] := by
  obtain ⟨-, rfl⟩ := addChar_eq_ok h
  simp

theorem scan_fresh {α : Type} {o : PObj α} (hf : o.field = []) (ho : o.state.outside = true)
    (ha : o.state ≠ .afterEscapedCRNL) : Scan o false false false :=
  ⟨by simp [hf], by simp, fun _ => ho, by simp [ha], by simp, by simp⟩

theorem scan_in {α : Type} {o : PObj α} (hf : o.field ≠ []) (ho : o.state = .inField) : Scan o false true false :=
  ⟨by simp [hf], by simp, fun _ => by simp [ho, PState.outside], by simp [ho], by simp, by simp [ho]⟩

theorem scan_after {α : Type} {o : PObj α} (hf : o.field ≠ []) (ho : o.state = .afterEscapedCRNL) : Scan o false true true :=
  ⟨by simp [hf], by simp, fun _ => by simp [ho, PState.outside], by simp [ho], by simp, by simp⟩

theorem scan_esc {α : Type} {o : PObj α} {n k : Bool} (hf : o.field ≠ [] ↔ n = true) (ho : o.state = .escapedChar) :
    Scan o true n k :=
  ⟨hf, fun _ => ho, by simp, by simp, by simp, by simp⟩

/-- An escaped character. -/
theorem scan_escaped {α : Type} {cfg : Cfg} {mk : Str → Bool → α} {o o' : PObj α} {u v : Char} (hu : u ≠ NUL)
    (ho : o.state = .escapedChar) (h : processChar cfg mk o u v = .ok o') : Scan o' false true (isNL u) := by
  simp only [processChar, ho, bind, Except.bind] at h
  split at h
  · rename_i hn
    rw [hn]
    split at h
    · cases h
    · rename_i o₁ h1
      cases h
      exact scan_after (by simpa [PObj.to] using addChar_field h1) rfl
  · rename_i hn
    rw [Bool.not_eq_true] at hn
    rw [hn]
    repeat' split at h
    all_goals first
      | (cases h; done)
      | (rename_i h1
         cases h
         exact scan_in (by simpa [PObj.to] using addChar_field h1) rfl)

/-- A character after a begun cell. -/
theorem scan_inField {α : Type} {cfg : Cfg} {mk : Str → Bool → α} {o o' : PObj α} {u : Char} {n k : Bool} (hu : u ≠ NUL)
    (hq : u ≠ cfg.quotechar) (hen : isNL cfg.escapechar = false) (hs : Scan o false n k)
    (ho : o.state = .inField ∨ o.state = .afterEscapedCRNL) (h : stepInField cfg mk o u = .ok o') :
    (u = cfg.escapechar ∧ Scan o' true n k) ∨
    (u ≠ cfg.escapechar ∧ (u = cfg.delimiter ∨ isNL u = true) ∧ Scan o' false false false) ∨
    (u ≠ cfg.escapechar ∧ ¬ (u = cfg.delimiter ∨ isNL u = true) ∧ Scan o' false true k) := by
  unfold stepInField at h
  split at h
  · rename_i hn
    have hn : isNL u = true := by simpa [hu] using hn
    cases h
    refine .inr (.inl ⟨?_, .inr hn, scan_fresh (by simp [saveField, PObj.to]) ?_ ?_⟩)
    · rintro rfl
      rw [hen] at hn
      cases hn
    · simp [PObj.to, hu, PState.outside]
    · simp [PObj.to, hu]
  rename_i hn
  have hn : ¬ isNL u = true := by
    intro h'
    exact hn (by simp [h'])
  split at h
  · rename_i he
    cases h
    exact .inl ⟨he, scan_esc (by simpa [PObj.to] using hs.field) rfl⟩
  rename_i he
  split at h
  · rename_i hd
    cases h
    exact .inr (.inl ⟨he, .inl hd, scan_fresh (by simp [saveField, PObj.to]) rfl (by simp [PObj.to])⟩)
  · rename_i hd
    refine .inr (.inr ⟨he, by simp [hd, hn], ?_⟩)
    have h1 := addChar_state h
    have h2 := addChar_field h
    rcases ho with ho | ho
    · have : k = false := by
        rw [Bool.eq_false_iff]
        intro hk
        have := (hs.cont rfl).2 hk
        rw [ho] at this
        cases this
      rw [this]
      exact scan_in h2 (h1.trans ho)
    · rw [(hs.cont rfl).1 ho]
      exact scan_after h2 (h1.trans ho)

theorem scan_startField {α : Type} {cfg : Cfg} {mk : Str → Bool → α} {o o' : PObj α} {u : Char} (k : Bool) (hu : u ≠ NUL)
    (hq : u ≠ cfg.quotechar) (hen : isNL cfg.escapechar = false) (hf : o.field = []) (ho : o.state = .startField)
    (h : stepStartField cfg mk o u = .ok o') :
    (u = cfg.escapechar ∧ Scan o' true false k) ∨
    (u ≠ cfg.escapechar ∧ (u = cfg.delimiter ∨ isNL u = true) ∧ Scan o' false false false) ∨
    (u ≠ cfg.escapechar ∧ ¬ (u = cfg.delimiter ∨ isNL u = true) ∧ Scan o' false true false) := by
  unfold stepStartField at h
  simp only [bind, Except.bind] at h
  split at h
  · rename_i hn
    have hn : isNL u = true := by simpa [hu] using hn
    cases h
    refine .inr (.inl ⟨?_, .inr hn, scan_fresh (by simp [saveField, PObj.to]) ?_ ?_⟩)
    · rintro rfl
      rw [hen] at hn
      cases hn
    · simp [PObj.to, hu, PState.outside]
    · simp [PObj.to, hu]
  rename_i hn
  have hn : ¬ isNL u = true := by
    intro h'
    exact hn (by simp [h'])
  split at h
  · rename_i he
    cases h
    exact .inl ⟨he, scan_esc (by simp [PObj.to, hf]) rfl⟩
  rename_i he
  split at h
  · rename_i hd
    cases h
    exact .inr (.inl ⟨he, .inl hd, scan_fresh (by simp [saveField]) (by simp [saveField, ho, PState.outside])
      (by simp [saveField, ho])⟩)
  · rename_i hd
    refine .inr (.inr ⟨he, by simp [hd, hn], ?_⟩)
    split at h
    · cases h
    · rename_i h1
      cases h
      exact scan_in (by simpa [PObj.to] using addChar_field h1) rfl

/-- A character that is not escaped. -/
theorem scan_next {α : Type} {cfg : Cfg} {mk : Str → Bool → α} {o o' : PObj α} {u v : Char} {n k : Bool} (hu : u ≠ NUL)
    (hq : u ≠ cfg.quotechar) (hen : isNL cfg.escapechar = false) (hs : Scan o false n k)
    (h : processChar cfg mk o u v = .ok o') :
    (u = cfg.escapechar ∧ Scan o' true n k) ∨
    (u ≠ cfg.escapechar ∧ (u = cfg.delimiter ∨ isNL u = true) ∧ Scan o' false false false) ∨
    (u ≠ cfg.escapechar ∧ ¬ (u = cfg.delimiter ∨ isNL u = true) ∧ Scan o' false true k) := by
  have hout := hs.out rfl
  have hfresh : o.state ≠ .inField → o.state ≠ .afterEscapedCRNL → n = false ∧ k = false ∧ o.field = [] := by
    intro h1 h2
    have hk : k = false := by
      rw [Bool.eq_false_iff]
      exact fun hk => h2 ((hs.cont rfl).2 hk)
    have hn := hs.fresh rfl h1 hk
    refine ⟨hn, hk, ?_⟩
    refine Classical.byContradiction fun hf => ?_
    rw [hs.field.1 hf] at hn
    cases hn
  have hnotE : isNL u = true → u ≠ cfg.escapechar := by
    rintro hn rfl
    rw [hen] at hn
    cases hn
  cases hst : o.state with
  | startRecord =>
    obtain ⟨rfl, rfl, hf⟩ := hfresh (by simp [hst]) (by simp [hst])
    simp only [processChar, hst, if_neg hu] at h
    split at h
    · rename_i hn
      cases h
      exact .inr (.inl ⟨hnotE hn, .inr hn, scan_fresh (by simpa [PObj.to] using hf) rfl (by simp [PObj.to])⟩)
    · exact scan_startField false hu hq hen (by simpa [PObj.to] using hf) rfl h
  | startField =>
    obtain ⟨rfl, rfl, hf⟩ := hfresh (by simp [hst]) (by simp [hst])
    simp only [processChar, hst] at h
    exact scan_startField false hu hq hen hf hst h
  | inField =>
    simp only [processChar, hst] at h
    exact scan_inField hu hq hen hs (.inl hst) h
  | afterEscapedCRNL =>
    simp only [processChar, hst, if_neg hu] at h
    exact scan_inField hu hq hen hs (.inr hst) h
  | eatCRNL =>
    obtain ⟨rfl, rfl, hf⟩ := hfresh (by simp [hst]) (by simp [hst])
    simp only [processChar, hst, if_neg hu] at h
    split at h
    · rename_i hn
      cases h
      exact .inr (.inl ⟨hnotE hn, .inr hn, scan_fresh hf hout (by simp [hst])⟩)
    · cases h
  | escapedChar => simp [hst, PState.outside] at hout
  | inQuotedField => simp [hst, PState.outside] at hout
  | escapeInQuotedField => simp [hst, PState.outside] at hout
  | quoteInQuotedField => simp [hst, PState.outside] at hout

/-- The end of a line. -/
theorem scan_eol {α : Type} {cfg : Cfg} {mk : Str → Bool → α} {o o' : PObj α} {n k : Bool} (hs : Scan o false n k)
    (h : processChar cfg mk o NUL NUL = .ok o') : (k = false ∧ o'.state = .startRecord) ∨ (k = true ∧ o' = o) := by
  have hout := hs.out rfl
  cases hst : o.state with
  | afterEscapedCRNL =>
    simp only [processChar, hst, if_true] at h
    cases h
    exact .inr ⟨(hs.cont rfl).1 hst, rfl⟩
  | escapedChar => simp [hst, PState.outside] at hout
  | inQuotedField => simp [hst, PState.outside] at hout
  | escapeInQuotedField => simp [hst, PState.outside] at hout
  | quoteInQuotedField => simp [hst, PState.outside] at hout
  | _ =>
    refine .inl ⟨?_, ?_⟩
    · rw [Bool.eq_false_iff]
      intro hk
      have := (hs.cont rfl).2 hk
      rw [hst] at this
      cases this
    · simp only [processChar, hst, stepStartField, stepInField] at h
      first
        | (cases h; exact hst)
        | (cases h; rfl)

theorem lineEndAfter_isNL {c : Char} {rest : Str} (hl : lineEndAfter c rest = true) : isNL c = true := by
  unfold lineEndAfter at hl
  simp only [Bool.or_eq_true, Bool.and_eq_true, decide_eq_true_eq] at hl
  unfold isNL
  rcases hl with h | h <;> simp [h]

/-- Without bare quotes strict mode differs only at an open end. -/
theorem textRun_strict_open {α : Type} (cfg : Cfg) (mk : Str → Bool → α) (hs : cfg.strict = true)
    (hen : isNL cfg.escapechar = false) (t : Str) : ∀ (o : PObj α) (p n k : Bool), Scan o p n k →
      (t = [] → p = false ∧ (k = true ∨ o.field = [])) → bareQuote cfg.quotechar cfg.escapechar p t = false →
      (openEnd cfg.delimiter cfg.escapechar p n k t = false →
        textRun cfg mk o t = textRun { cfg with strict := false } mk o t) ∧
      (openEnd cfg.delimiter cfg.escapechar p n k t = true → (textRun cfg mk o t).2 ≠ none) := by
  have hstep : ∀ (o : PObj α) (u v : Char) (p n k : Bool), Scan o p n k →
      processChar { cfg with strict := false } mk o u v = processChar cfg mk o u v := by
    intro o u v p n k ho
    cases p with
    | true => simp only [processChar, ho.esc rfl] <;> rfl
    | false =>
      have ho := ho.out rfl
      cases hst : o.state <;> first
        | (simp [hst, PState.outside] at ho; done)
        | (simp only [processChar, hst] <;> rfl)
  induction t with
  | nil =>
    intro o p n k ho ht _
    obtain ⟨rfl, hk⟩ := ht rfl
    have hst : o.state ≠ .inQuotedField := by
      intro h
      have := ho.out rfl
      simp [h, PState.outside] at this
    cases k with
    | true =>
      have hf := ho.field.2 (ho.begun rfl rfl)
      simp [openEnd, textRun, atEOF, hf, hs]
    | false =>
      have hf : o.field = [] := by simpa using hk
      simp [openEnd, textRun, atEOF, hf, hst]
  | cons c rest ih =>
    intro o p n k ho _ hb
    rw [textRun, textRun]
    by_cases hc : c = NUL
    · rw [if_pos hc, if_pos hc]
      exact ⟨fun _ => rfl, fun _ => by simp⟩
    rw [if_neg hc, if_neg hc]
    -- the state after the character
    have key : ∀ v o₁, processChar cfg mk o c v = .ok o₁ → ∃ p' n' k', Scan o₁ p' n' k' ∧
        openEnd cfg.delimiter cfg.escapechar p n k (c :: rest) = openEnd cfg.delimiter cfg.escapechar p' n' k' rest ∧
        bareQuote cfg.quotechar cfg.escapechar p' rest = false ∧ (p' = true → isNL c = false) ∧
        (isNL c = true → k' = true ∨ n' = false) := by
      intro v o₁ h
      cases p with
      | true =>
        exact ⟨false, true, isNL c, scan_escaped hc (ho.esc rfl) h, by rw [openEnd], by simpa [bareQuote] using hb, by simp, fun h => .inl h⟩
      | false =>
        rw [bareQuote] at hb
        split at hb
        · cases hb
        rename_i hq
        rcases scan_next hc hq hen ho h with ⟨he, hsc⟩ | ⟨he, hd, hsc⟩ | ⟨he, hd, hsc⟩
        · exact ⟨true, n, k, hsc, by rw [openEnd, if_pos he], by rwa [show (c == cfg.escapechar) = true by simpa using he] at hb, fun _ => by rw [he, hen],
            fun h => by rw [he, hen] at h; cases h⟩
        · exact ⟨false, false, false, hsc, by rw [openEnd, if_neg he, if_pos (by simpa using hd)],
            by rwa [show (c == cfg.escapechar) = false by simpa using he] at hb, by simp, fun _ => .inr rfl⟩
        · exact ⟨false, true, k, hsc, by rw [openEnd, if_neg he, if_neg (by simpa using hd)],
            by rwa [show (c == cfg.escapechar) = false by simpa using he] at hb, by simp, fun h => absurd (.inr h) hd⟩
    split
    · rename_i hl
      rw [hstep o c NUL p n k ho]
      cases h1 : processChar cfg mk o c NUL with
      | error e => exact ⟨fun _ => rfl, fun _ => by simp⟩
      | ok o₁ =>
        obtain ⟨p', n', k', hsc, hopen, hbare, hnl, hbrk⟩ := key _ _ h1
        simp only
        rw [hopen, hstep o₁ NUL NUL p' n' k' hsc]
        cases h2 : processChar cfg mk o₁ NUL NUL with
        | error e => exact ⟨fun _ => rfl, fun _ => by simp⟩
        | ok o₂ =>
          simp only
          cases p' with
          | true =>
            -- only at the end of the text
            have hrest : rest = [] := by
              simp only [Bool.or_eq_true, List.isEmpty_iff] at hl
              rcases hl with hl | hl
              · have := lineEndAfter_isNL hl
                rw [hnl rfl] at this
                cases this
              · exact hl
            subst hrest
            have h3 : o₂ = o₁.to .inField := by
              simp only [processChar, hsc.esc rfl, bind, Except.bind] at h2
              simp [isNL, NUL] at h2
              exact h2.symm
            subst h3
            have h4 : (o₁.to PState.inField).field = o₁.field := rfl
            rw [emit, emit, if_neg (by simp [PObj.to]), if_neg (by simp [PObj.to])]
            simp only [openEnd, textRun, atEOF, h4]
            constructor
            · intro hn
              have : o₁.field = [] := by
                refine Classical.byContradiction fun hf => ?_
                rw [hsc.field.1 hf] at hn
                cases hn
              simp [this, PObj.to]
            · intro hn
              simp [hsc.field.2 hn, hs]
          | false =>
            rcases scan_eol hsc h2 with ⟨rfl, h3⟩ | ⟨rfl, rfl⟩
            · rw [emit, emit, if_pos h3, if_pos h3]
              have hn : openEnd cfg.delimiter cfg.escapechar false n' false rest =
                  openEnd cfg.delimiter cfg.escapechar false false false rest := by
                simp only [Bool.or_eq_true, List.isEmpty_iff] at hl
                rcases hl with hl | rfl
                · rw [(hbrk (lineEndAfter_isNL hl)).resolve_left (by simp)]
                · rfl
              rw [hn]
              obtain ⟨i1, i2⟩ := ih PObj.init false false false scan_init (fun _ => ⟨rfl, .inr rfl⟩) hbare
              exact ⟨fun h => by rw [i1 h], fun h => i2 h⟩
            · have h3 : o₂.state ≠ .startRecord := by
                rw [(hsc.cont rfl).2 rfl]
                decide
              rw [emit, emit, if_neg h3, if_neg h3]
              exact ih o₂ false n' true hsc (fun _ => ⟨rfl, .inl rfl⟩) hbare
    · rename_i hl
      rw [hstep o c _ p n k ho]
      cases h1 : processChar cfg mk o c (rest.headD NUL) with
      | error e => exact ⟨fun _ => rfl, fun _ => by simp⟩
      | ok o₁ =>
        obtain ⟨p', n', k', hsc, hopen, hbare, -, -⟩ := key _ _ h1
        simp only
        rw [hopen]
        refine ih o₁ p' n' k' hsc ?_ hbare
        rintro rfl
        simp at hl

namespace Props

/-- **C12 exactly, with an escape character.**  Strict mode accepts a text if and only if the text has no quote character that is
not escaped, its last record is not open at the end, and non-strict mode accepts it. -/
theorem C12_escape_iff (limit : Int) (hl : InLong limit) (d : Option Char) (q e : Char) (t : Str) (hq : q ≠ NUL)
    (hqn : isNL q = false) (hen : isNL e = false) (hqe : q ≠ e) :
    (parseString limit (dialectOf d (some q) (some e) true) t).2 = none ↔
      bareQuote q e false t = false ∧ openEnd (d.getD NUL) e false false false t = false ∧
        (parseString limit (dialectOf d (some q) (some e) false) t).2 = none := by
  cases hb : bareQuote q e false t with
  | true =>
    have := C12_bare_quote_partial limit hl d (some e) q t hq hqn hen hqe hb
    simp [this]
  | false =>
    have hm := textRun_strict_open (cfgOf d (some q) (some e) limit true) mkPlain rfl hen t PObj.init false false false scan_init
      (fun _ => ⟨rfl, .inr rfl⟩) hb
    simp only [parseString_eq _ _ _ _ hl, Option.map_eq_none_iff, parseText_eq_textRun, true_and]
    cases ho : openEnd (d.getD NUL) e false false false t with
    | true =>
      have := hm.2 ho
      simp [this]
    | false =>
      have := hm.1 ho
      simp only [true_and]
      rw [this]
      rfl

/-- **C12**, without a quote character: strict mode rejects just the texts whose last record is open at the end, and those that
non-strict mode rejects. -/
theorem C12_no_quotechar_iff (limit : Int) (hl : InLong limit) (d : Option Char) (e : Char) (t : Str) (hen : isNL e = false) :
    (parseString limit (dialectOf d none (some e) true) t).2 = none ↔
      openEnd (d.getD NUL) e false false false t = false ∧
        (parseString limit (dialectOf d none (some e) false) t).2 = none := by
  simp only [parseString_eq _ _ _ _ hl, Option.map_eq_none_iff, parseText_eq_textRun]
  by_cases hn : NUL ∈ t
  · have h1 := textRun_nul (cfgOf d none (some e) limit true) mkPlain t PObj.init hn
    have h2 := textRun_nul (cfgOf d none (some e) limit false) mkPlain t PObj.init hn
    simp [h1, h2]
  have hb : ∀ (t : Str) (p : Bool), NUL ∉ t → bareQuote NUL e p t = false := by
    intro t
    induction t with
    | nil => intro p _; cases p <;> rfl
    | cons c t ih =>
      intro p h
      simp only [List.mem_cons, not_or] at h
      cases p with
      | true => exact ih false h.2
      | false =>
        rw [bareQuote, if_neg (Ne.symm h.1)]
        exact ih _ h.2
  have hm := textRun_strict_open (cfgOf d none (some e) limit true) mkPlain rfl hen t PObj.init false false false scan_init
    (fun _ => ⟨rfl, .inr rfl⟩) (hb t false hn)
  cases ho : openEnd (d.getD NUL) e false false false t with
  | true =>
    have := hm.2 ho
    simp [this]
  | false =>
    have := hm.1 ho
    simp only [true_and]
    rw [this]
    rfl

-- an escaped line break that a delimiter follows, one at the end, and an escape character at the end of a cell
example : openEnd ',' '|' false false false "a|\nb,c".toList = false ∧ openEnd ',' '|' false false false "a,b|\nc".toList = true ∧
    openEnd ',' '|' false false false "a,b|".toList = true ∧ openEnd ',' '|' false false false "a,|".toList = false := by decide

example : (parseString 99 (dialectOf (some ',') (some '"') (some '|') true) "a|\"|\nb,c".toList) =
      ([["a\"\nb".toList, "c".toList]], none) ∧
    (parseString 99 (dialectOf (some ',') (some '"') (some '|') true) "a,b|\nc".toList).2 = some (.parse .unexpectedEnd) ∧
    (parseString 99 (dialectOf (some ',') (some '"') (some '|') false) "a,b|\nc".toList).2 = none := by decide

end Props

end Clever
