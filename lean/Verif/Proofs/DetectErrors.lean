import Verif.Proofs.Detect
import Verif.Proofs.CellChars
import Verif.Proofs.TypeChars

/-! # When detection raises -/

namespace Clever

open Props (IsStr C06_success C10_same_cells C18_strict_total_order isJsonObj_cases)
open Re

/-- The candidates have components of at most one character. -/
theorem getDialects_dialectOf {env : PyEnv} {ord : SetOrder} {data : Str} {ds : Option (List Str)}
    {m : Bool} {x : SimpleDialect} (h : x ∈ getDialects env ord data ds m) :
    ∃ d q e : Option Char, x = dialectOf d q e := by
  obtain ⟨d, q, e, rfl, hd, hq, he, -⟩ := mem_getDialects.mp h
  have hd' : ∃ d' : Option Char, d = d'.toList := by
    rcases mem_getDelimiters.mp hd with rfl | ⟨c, -, -, rfl⟩
    · exact ⟨none, rfl⟩
    · exact ⟨some c, rfl⟩
  have hq' : ∃ d' : Option Char, q = d'.toList := by
    rcases mem_getQuotechars.mp hq with rfl | ⟨c, -, -, rfl⟩
    · exact ⟨none, rfl⟩
    · exact ⟨some c, rfl⟩
  have he' : ∃ d' : Option Char, e = d'.toList := by
    rcases mem_escapeInsertions.mp he with rfl | ⟨_, c, _, _, -, rfl, -⟩
    · exact ⟨none, rfl⟩
    · exact ⟨some c, rfl⟩
  obtain ⟨d', rfl⟩ := hd'
  obtain ⟨q', rfl⟩ := hq'
  obtain ⟨e', rfl⟩ := he'
  exact ⟨d', q', e', rfl⟩

theorem patternScore_dialectOf (data : Str) (d q e : Option Char) :
    ∃ P, patternScore data (dialectOf d q e) = .ok P := by
  unfold patternScore makeAbstraction baseAbstractionPy dialectOf
  simp only [setChar_toList, bind, Except.bind, pure, Except.pure]
  exact ⟨_, rfl⟩

theorem parseStringQuoted_error (limit : Int) (d : SimpleDialect) (t : Str) :
    (parseStringQuoted limit d t).2 = (parseString limit d t).2 := by
  unfold parseString parseStringQuoted
  rw [C10_same_cells]

/-- The exceptions of type detection. -/
def IsJsonExc (e : PyExc) : Prop := (∃ m, e = .valueError m) ∨ e = .recursionError

/-- Type detection raises only for a cell whose stripped text is in braces, and only what
`is_json_obj` does not catch. -/
theorem isKnownType_error {env : PyEnv} {cell : Str} {q : Bool} {e : PyExc}
    (h : isKnownType env cell q = .error e) :
    IsJsonExc e ∧ isJsonObj env (env.strip cell) = .error e := by
  unfold isKnownType detectType at h
  simp only [typeTests, firstType, maybeStrip, if_true] at h
  generalize env.strip cell = u at h
  have key : ∀ b : Bool, ∀ (X : Except PyExc (Option String)) (s : String),
      (∃ e', (match (match (Except.ok b : Except PyExc Bool) with
        | .error e => .error e
        | .ok true => .ok (some s)
        | .ok false => X : Except PyExc (Option String)) with
        | .error e => (.error e : Except PyExc Bool)
        | .ok t => .ok t.isSome) = .error e') → ∃ e', X = .error e' := by
    intro b X s ⟨e', h⟩
    cases b
    · cases X with
      | error x => exact ⟨x, rfl⟩
      | ok x => simp at h
    · simp at h
  have hj : isJsonObj env u = .error e := by
    revert h
    cases decide (u = []) <;> cases runRegex env true (reUrl env) u <;>
      cases runRegex env true reEmail u <;> cases runRegex env true (reIpv4 env) u <;> simp only <;>
      intro h <;> try (simp at h; done)
    revert h
    cases isNumber env true u <;> cases isTime env true u <;> cases isPercentage env true u <;>
      cases isCurrency env true u <;> simp only <;> intro h <;> try (simp at h; done)
    revert h
    cases runRegex env true reUnixPath u <;> cases isNan env u <;> cases isDate env true u <;>
      cases isDatetime env true u <;> simp only <;> intro h <;> try (simp at h; done)
    revert h
    cases isUnicodeAlphanum env true u q <;> cases isBytearray u <;> simp only <;> intro h <;>
      try (simp at h; done)
    cases hj : isJsonObj env u with
    | error e' => rw [hj] at h; simp at h; rw [h]
    | ok b => rw [hj] at h; cases b <;> simp at h
  refine ⟨?_, hj⟩
  rcases isJsonObj_cases env u with ⟨b, h'⟩ | ⟨m, h'⟩ | h'
  · rw [hj] at h'; simp at h'
  · rw [hj] at h'; simp at h'; exact .inl ⟨m, h'⟩
  · rw [hj] at h'; simp at h'; exact .inr h'

theorem isJsonObj_error_head {env : PyEnv} {s : Str} {e : PyExc} (h : isJsonObj env s = .error e) :
    s.head? = some '{' ∧ s.getLast? = some '}' := by
  unfold isJsonObj at h
  split at h
  · simp at h
  · rename_i hc
    simpa [endsWith1] using hc

theorem countKnown_error {f : Str × Bool → Except PyExc Bool} {cs : List (Str × Bool)} {e : PyExc}
    (h : countKnown f cs = .error e) : ∃ c ∈ cs, f c = .error e := by
  induction cs with
  | nil => simp [countKnown] at h
  | cons c cs ih =>
    simp only [countKnown] at h
    split at h
    · rename_i e' he
      simp at h
      exact ⟨c, by simp, by rw [he, h]⟩
    · split at h
      · rename_i e' he
        simp at h
        obtain ⟨c', hc', h'⟩ := ih (by rw [he, h])
        exact ⟨c', by simp [hc'], h'⟩
      · simp at h

/-- The type score of a NUL-free text for a candidate raises only because of a JSON-like cell. -/
theorem typeScore_error {env : PyEnv} {limit : Int} {data : Str} {d q e : Option Char} {x : PyExc}
    (hl : InLong limit) (hnul : NUL ∉ data) (hlim : (data.length : Int) ≤ limit)
    (h : typeScore env limit data (dialectOf d q e) = .error x) :
    ∃ row ∈ (parseStringQuoted limit (dialectOf d q e) data).1, ∃ c ∈ row,
      isKnownType env c.1 c.2 = .error x := by
  unfold typeScore typeScoreWith at h
  simp only at h
  split at h
  · rename_i e' he
    simp at h
    subst h
    obtain ⟨c, hc, h'⟩ := countKnown_error he
    obtain ⟨row, hr, hc⟩ := List.mem_flatten.mp hc
    exact ⟨row, hr, c, hc, h'⟩
  · have hp : (parseStringQuoted limit (dialectOf d q e) data).2 = none := by
      rw [parseStringQuoted_error]
      exact C06_success limit hl d q e data hnul hlim
    rw [hp] at h
    simp at h

/-- Detection raises only when the type score of a candidate does. -/
theorem consistencyDetect_typeScore {env : PyEnv} {ord : SetOrder} {cap : Option Nat} {skip : Bool}
    {limit : Int} {data : Str} {ds : Option (List Str)} {x : PyExc} {l : Int}
    (h : consistencyDetect env ord cap skip limit data ds = (.error x, l)) :
    l = data.length + 1 ∧ ∃ dia ∈ getDialects env ord data ds,
      typeScore env (data.length + 1) data dia = .error x := by
  obtain ⟨S, hS, hlt, he⟩ := computeConsistencyScores_eq env cap skip (data.length + 1) data
    (getDialects env ord data ds) (fun x hx => getDialects_isStr hx) (getDialects_nodup ..)
  unfold consistencyDetect at h
  simp only [he] at h
  split at h
  · rename_i e' hp
    simp only [Prod.mk.injEq, Except.error.injEq] at h
    obtain ⟨rfl, rfl⟩ := h
    refine ⟨rfl, ?_⟩
    obtain ⟨dia, hd, h1⟩ := pureLoop_error _ _ hp
    have hd' := hS.mem_iff.mp hd
    refine ⟨dia, hd', ?_⟩
    obtain ⟨d, q, e, rfl⟩ := getDialects_dialectOf hd'
    obtain ⟨P, hP⟩ := patternScore_dialectOf data d q e
    rcases h1 with h1 | h1
    · rw [hP] at h1; simp at h1
    · exact h1
  · rename_i scores hp
    -- the tie breaker does not raise
    have hne : S ≠ [] := fun h0 => getDialects_ne_nil env ord data ds (by
      rw [h0] at hS; exact hS.nil_eq.symm)
    obtain ⟨-, -, h3⟩ := best_spec (fun d P T hP hT => score_le hP hT) hne hp
    have hpar : ∀ d ∈ getBestDialects scores, Parses (data.length + 1) data d := by
      intro d hd
      obtain ⟨hd, P, T, -, hT, -⟩ := (h3 d).mp hd
      have h1 := typeScore_parses hT
      obtain ⟨d', q', e', rfl⟩ := getDialects_dialectOf (hS.mem_iff.mp hd)
      refine ⟨?_, ⟨_, rfl⟩, ⟨_, rfl⟩⟩
      unfold parseAll
      rw [parseStringQuoted_error] at h1
      simp only [Gen.toList, h1]
      exact ⟨_, rfl⟩
    obtain ⟨r, hr⟩ := tieBreaker_ok (ord := ord) hpar
    split at h
    · simp at h
    · rw [hr] at h
      simp at h

/-- Why detection raises. -/
theorem consistencyDetect_error {env : PyEnv} {ord : SetOrder} {cap : Option Nat} {skip : Bool}
    {limit : Int} {data : Str} {ds : Option (List Str)} {x : PyExc} {l : Int}
    (hl : InLong (data.length + 1)) (hnul : NUL ∉ data)
    (h : consistencyDetect env ord cap skip limit data ds = (.error x, l)) :
    l = data.length + 1 ∧ ∃ dia ∈ getDialects env ord data ds,
      ∃ row ∈ (parseStringQuoted (data.length + 1) dia data).1, ∃ c ∈ row,
        isKnownType env c.1 c.2 = .error x := by
  obtain ⟨h1, dia, hd, h2⟩ := consistencyDetect_typeScore h
  obtain ⟨d, q, e, rfl⟩ := getDialects_dialectOf hd
  exact ⟨h1, _, hd, typeScore_error hl hnul (by omega) h2⟩

theorem setLong_error {x : Int} {e : PyExc} (h : setLong x = .error e) : e = .overflowError := by
  unfold setLong at h
  split at h
  · simp at h
  · simp at h; exact h.symm

theorem cfg_error {limit : Int} {d q e : Option Char} {x : PyExc}
    (h : (dialectOf d q e).cfg limit = .error x) : x = .overflowError := by
  unfold SimpleDialect.cfg mkCfg dialectOf at h
  simp only [setChar_toList, bind, Except.bind] at h
  generalize hs : setLong limit = r at h
  cases r with
  | error e => simp at h; rw [← h]; exact setLong_error hs
  | ok v => simp [pure, Except.pure] at h

theorem parseStringQuoted_exc {limit : Int} {data : Str} {d q e : Option Char} {x : PyExc}
    (h : (parseStringQuoted limit (dialectOf d q e) data).2 = some x) :
    (∃ e, x = .parse e) ∨ x = .overflowError := by
  unfold parseStringQuoted parseData at h
  split at h
  · rename_i e'' hc
    simp at h
    subst h
    exact .inr (cfg_error hc)
  · simp only [Option.map_eq_some_iff] at h
    obtain ⟨a, -, rfl⟩ := h
    exact .inl ⟨a, rfl⟩

theorem typeScore_exc {env : PyEnv} {limit : Int} {data : Str} {d q e : Option Char} {x : PyExc}
    (h : typeScore env limit data (dialectOf d q e) = .error x) :
    IsJsonExc x ∨ (∃ e, x = .parse e) ∨ x = .overflowError := by
  unfold typeScore typeScoreWith at h
  simp only at h
  split at h
  · rename_i e' he
    simp at h
    subst h
    obtain ⟨c, hc, h'⟩ := countKnown_error he
    exact .inl (isKnownType_error h').1
  · split at h
    · rename_i e' he
      simp at h
      subst h
      exact .inr (parseStringQuoted_exc he)
    · simp at h

/-- The exceptions of a consistency detection: those of `is_json_obj`, of the parser, and a field size limit
that does not fit. -/
theorem consistencyDetect_exc {env : PyEnv} {ord : SetOrder} {cap : Option Nat} {skip : Bool}
    {limit : Int} {data : Str} {ds : Option (List Str)} {x : PyExc}
    (h : (consistencyDetect env ord cap skip limit data ds).1 = .error x) :
    IsJsonExc x ∨ (∃ e, x = .parse e) ∨ x = .overflowError := by
  obtain ⟨-, dia, hd, h2⟩ := consistencyDetect_typeScore (l := (consistencyDetect env ord cap skip limit data ds).2)
    (Prod.ext h rfl)
  obtain ⟨d, q, e, rfl⟩ := getDialects_dialectOf hd
  exact typeScore_exc h2

/-! ## The dialect that is scored first -/

theorem strLt_nil (s : Str) : strLt s [] = false := by cases s <;> rfl

/-- Without commas and semicolons among the delimiters, the all-empty dialect comes first. -/
theorem empty_least {x : SimpleDialect} (hx : IsStr x) (h1 : x.delimiter ≠ some [','])
    (h2 : x.delimiter ≠ some [';']) : x.lt (mkDialect [] [] []) = .ok false := by
  obtain ⟨d, q, e, s⟩ := x
  obtain ⟨a, b, c⟩ := hx
  simp only [ne_eq] at a b c
  obtain ⟨d, rfl⟩ := Option.ne_none_iff_exists'.1 a
  obtain ⟨q, rfl⟩ := Option.ne_none_iff_exists'.1 b
  obtain ⟨e, rfl⟩ := Option.ne_none_iff_exists'.1 c
  unfold SimpleDialect.lt keyLt
  simp only [mkDialect, h1, h2, false_and, if_false, optLt, strLt_nil, boolLt, Bool.and_false]
  simp

theorem pureLoop_first {pat typ : SimpleDialect → Except PyExc ℚ} {skip : Bool} {d : SimpleDialect}
    {S : List SimpleDialect} {P : ℚ} {x : PyExc} (hP : pat d = .ok P) (h : typ d = .error x) :
    pureLoop pat typ skip (d :: S) none = .error x := by
  rw [pureLoop]
  simp only [hP, belowIncumbent, Bool.false_and, Bool.false_eq_true, if_false]
  rw [h]

theorem first_raises {env : PyEnv} {ord : SetOrder} {cap : Option Nat} {skip : Bool}
    {limit : Int} {data : Str} {ds : Option (List Str)} {x : PyExc}
    (hd : ∀ y ∈ getDialects env ord data ds, y.delimiter ≠ some [','] ∧ y.delimiter ≠ some [';'])
    (h : typeScore env (data.length + 1) data (mkDialect [] [] []) = .error x) :
    consistencyDetect env ord cap skip limit data ds = (.error x, (data.length : Int) + 1) := by
  obtain ⟨S, hS, hlt, he⟩ := computeConsistencyScores_eq env cap skip (data.length + 1) data
    (getDialects env ord data ds) (fun x hx => getDialects_isStr hx) (getDialects_nodup ..)
  have h0 : mkDialect [] [] [] ∈ S := hS.mem_iff.mpr (mem_getDialects.mpr
    ⟨[], [], [], rfl, mem_getDelimiters.mpr (.inl rfl), mem_getQuotechars.mpr (.inl rfl),
      mem_escapeInsertions.mpr (.inl rfl), rfl⟩)
  have hS0 : ∃ S', S = mkDialect [] [] [] :: S' := by
    cases S with
    | nil => simp at h0
    | cons y S' =>
      rcases List.mem_cons.mp h0 with rfl | hm
      · exact ⟨S', rfl⟩
      · have h1 := List.rel_of_pairwise_cons hlt hm
        have hy := hS.mem_iff.mp (List.mem_cons_self (a := y))
        have h2 := empty_least (getDialects_isStr hy) (hd y hy).1 (hd y hy).2
        rw [DLt, h2] at h1
        simp at h1
  obtain ⟨S', rfl⟩ := hS0
  obtain ⟨P, hP⟩ := patternScore_dialectOf data none none none
  have hd0 : dialectOf none none none = mkDialect [] [] [] := rfl
  rw [hd0] at hP
  have hl : pureLoop (fun d => patternScore data d) (fun d => typeScore env (data.length + 1) data d) skip
      (mkDialect [] [] [] :: S') none = .error x := pureLoop_first hP h
  rw [hl] at he
  unfold consistencyDetect
  simp only
  rw [he]

/-! ## Cells in braces -/

theorem brace_avoids {env : PyEnv} (h : env.Ascii) :
    (reNumber1 env).Avoids '{' ∧ (reNumber2 env).Avoids '{' ∧ (reNumber3 env).Avoids '{' ∧
      (reAlphanum env).Avoids '{' ∧ (reAlphanumQuoted env).Avoids '{' := by
  have hd : env.decimal '{' = false := decimal_of_ascii h (by decide) (by decide)
  have hn : env.number '{' = false := by rw [h.number _ (by decide)]; decide
  have hl : env.letter '{' = false := by rw [h.letter _ (by decide)]; decide
  have hs : specialsAllowed.contains '{'.toNat = false := by decide
  have hq : (specialsAllowed ++ quotedSpecialsAllowed).contains '{'.toNat = false := by decide
  have hc : decide ('{' = ' ') = false := by decide
  refine ⟨?_, ?_, ?_, ?_, ?_⟩
  · simp [reNumber1, reNoDot, reExp, cat, opt, plus, chr, Avoids, hd, oneOf, rng]
  · simp [reNumber2, reThousands, cat, opt, plus, chr, upto, times, Avoids, hd, oneOf, rng]
  · simp [reNumber3, reThousands, cat, opt, plus, chr, upto, times, Avoids, hd, oneOf, rng]
  all_goals
    simp only [reAlphanum, reAlphanumQuoted, reAlnum, cat, opt, plus, Avoids, hn, hl, hs, hq, hc, Bool.or_false,
      and_self]

/-- A cell in braces without the characters that URLs, email addresses, prices or paths need is
judged by `is_json_obj` alone. -/
theorem isKnownType_brace {env : PyEnv} (h : env.Ascii) (u : Str) (q : Bool)
    (hu : ∀ c ∈ u, c.toNat < 128 ∧ c ≠ '.' ∧ c ≠ 'l' ∧ c ≠ '@' ∧ c ≠ '$' ∧ c ≠ '/') :
    isKnownType env ('{' :: u ++ ['}']) q = isJsonObj env ('{' :: u ++ ['}']) := by
  have sp1 : env.space '{' = false := by rw [h.space _ (by decide)]; decide
  have sp2 : env.space '}' = false := by rw [h.space _ (by decide)]; decide
  have hstrip : env.strip ('{' :: u ++ ['}']) = '{' :: u ++ ['}'] := by
    simp [PyEnv.strip, sp1, sp2]
  have hstrip' : maybeStrip env true ('{' :: u ++ ['}']) = '{' :: u ++ ['}'] := by
    simpa [maybeStrip] using hstrip
  set s := '{' :: u ++ ['}'] with hs
  have hmem : '{' ∈ s := by simp [hs]
  have hall : ∀ c ∈ s, c.toNat < 128 ∧ c ≠ '.' ∧ c ≠ 'l' ∧ c ≠ '@' ∧ c ≠ '$' ∧ c ≠ '/' := by
    intro c hc
    simp only [hs, List.cons_append, List.mem_cons, List.mem_append, List.not_mem_nil, or_false] at hc
    rcases hc with rfl | hc | rfl
    · decide
    · exact hu c hc
    · decide
  have dig : startsWithDigit env s = false := by
    simp only [hs, List.cons_append, startsWithDigit]
    rw [h.digit _ (by decide)]; decide
  obtain ⟨v1, v2, v3, v4, v5⟩ := brace_avoids h
  have e0 : (s = []) = False := by simp [hs]
  have e1 : runRegex env true (reUrl env) s = false := by
    unfold runRegex; rw [hstrip']
    exact (url_needs env).fullmatch fun c hc hp => by
      rcases hp with hp | hp
      · exact (hall c hc).2.1 hp
      · exact (hall c hc).2.2.1 hp
  have e2 : runRegex env true reEmail s = false := by
    unfold runRegex; rw [hstrip']
    exact email_needs.fullmatch fun c hc hp => (hall c hc).2.2.2.1 hp
  have e3 : runRegex env true (reIpv4 env) s = false := by
    unfold runRegex; rw [hstrip']
    exact (ipv4_needs env).fullmatch fun c hc hp => (hall c hc).2.1 hp
  have e4 : isNumber env true s = false := by
    unfold isNumber runRegex
    rw [hstrip', v1.fullmatch hmem, v2.fullmatch hmem, v3.fullmatch hmem]
    simp
  have e5 : isTime env true s = false := by
    unfold isTime
    simp only [hstrip', dig, Bool.false_and]
  have e6 : isPercentage env true s = false := by
    have : s.getLast? = some '}' := by rw [hs, List.getLast?_append]; rfl
    unfold isPercentage endsWith1
    rw [this]
    simp
  have e7 : isCurrency env true s = false := by
    unfold isCurrency
    have : ((reCurrency env).fullmatch s).isSome = false :=
      (currency_needs env).fullmatch fun c hc hp => by
        rw [h.currency c (hall c hc).1] at hp
        exact (hall c hc).2.2.2.2.1 (by simpa using hp)
    cases hm : (reCurrency env).fullmatch s with
    | none => rfl
    | some m => rw [hm] at this; simp at this
  have e8 : runRegex env true reUnixPath s = false := by
    unfold runRegex; rw [hstrip']
    exact unixPath_needs.fullmatch fun c hc hp => (hall c hc).2.2.2.2.2 hp
  have e9 : isNan env s = false := by
    unfold isNan
    rw [h.lower s fun c hc => (hall c hc).1]
    have hb : asciiLower '{' = '{' := by decide
    simp [hs, hb]
  have e10 : isDate env true s = false := by
    unfold isDate
    simp only [hstrip', dig, Bool.false_and]
  have e11 : isDatetime env true s = false := by
    unfold isDatetime
    simp [dig]
  have e12 : isUnicodeAlphanum env true s q = false := by
    unfold isUnicodeAlphanum runRegex
    rw [hstrip', v4.fullmatch hmem, v5.fullmatch hmem]
    simp
  have e13 : isBytearray s = false := by
    unfold isBytearray
    simp [hs]
  unfold isKnownType detectType
  rw [hstrip']
  simp only [typeTests, firstType, e0, e1, e2, e3, e4, e5, e6, e7, e8, e9, e10, e11, e12, e13, decide_false]
  cases isJsonObj env s with
  | error e => rfl
  | ok b => cases b <;> rfl

end Clever
