import Verif.Proofs.Double
import Verif.Proofs.Clock
import Verif.Proofs.TypeCache
import Verif.Proofs.JsonValid
import Mathlib.Tactic.Linarith
import Mathlib.Tactic.Positivity

/-!
# Type detection and the type score: C25 - C29
-/

namespace Clever.Props

open Spec

/-! ## C25: the type score lies between eps and 1 -/

theorem countKnown_le {f : Str × Bool → Except PyExc Bool} {cs : List (Str × Bool)} {n : Nat}
    (h : countKnown f cs = .ok n) : n ≤ cs.length := by
  induction cs generalizing n with
  | nil => simp [countKnown] at h; omega
  | cons c cs ih =>
    simp only [countKnown] at h
    split at h
    · cases h
    · split at h
      · cases h
      · rename_i m hm
        have := ih hm
        simp only [Except.ok.injEq] at h
        simp only [List.length_cons]
        split at h <;> omega

/-- C25 for `type_score` of `detect_type.py`. -/
theorem C25_type_score_range (env : PyEnv) (limit : Int) (data : Str) (d : SimpleDialect) (eps : ℚ)
    (he : eps ≤ 1) (x : ℚ) (h : typeScore env limit data d eps = .ok x) : eps ≤ x ∧ x ≤ 1 := by
  unfold typeScore typeScoreWith at h
  simp only at h
  split at h
  · cases h
  · rename_i n hn
    have hle := countKnown_le hn
    split at h
    · cases h
    · simp only [Except.ok.injEq] at h
      subst h
      unfold typeRatio
      split
      · exact ⟨le_refl _, he⟩
      · rename_i h0
        refine ⟨le_max_left _ _, max_le he ?_⟩
        rw [← fl_one]
        apply fl_mono
        rw [div_le_one (by positivity)]
        exact_mod_cast hle

/-- C25 for `ConsistencyDetector.compute_type_score` with its default `eps`, whatever the cache
contains. -/
theorem C25_compute_type_score_range (env : PyEnv) (cap : Option Nat) (limit : Int) (data : Str)
    (d : SimpleDialect) (history : List (Str × Bool)) (x : ℚ)
    (h : (computeTypeScore env cap (lruCalls cap (fun c => isKnownType env c.1 c.2) [] history).2
      limit data d).1 = .ok x) : defaultEpsType ≤ x ∧ x ≤ 1 := by
  have hs := lruCalls_sound (cap := cap) (f := fun c : Str × Bool => isKnownType env c.1 c.2) (cache := [])
    (by intro p hp; cases hp) history
  rw [(computeTypeScore_sound hs.2 limit data d defaultEpsType).1] at h
  exact C25_type_score_range env limit data d defaultEpsType (by decide +kernel) x h

/-- C25, sharper: the score is the double nearest to the share of the known cells if that is at least `eps`, and only a
parse without any cell, or a share below `eps`, gives `eps`. -/
theorem C25_type_score_value (env : PyEnv) (limit : Int) (data : Str) (d : SimpleDialect) (eps : ℚ)
    (x : ℚ) (h : typeScore env limit data d eps = .ok x) :
    ∃ cells : List (Str × Bool), (parseStringQuoted limit d data).1.flatten = cells ∧
      ((cells = [] ∧ x = eps) ∨
        (cells ≠ [] ∧ x = max eps
          (fl (((cells.filter (fun c => isKnownType env c.1 c.2 = .ok true)).length : ℚ) / (cells.length : ℚ))))) := by
  refine ⟨_, rfl, ?_⟩
  unfold typeScore typeScoreWith at h
  simp only at h
  generalize (parseStringQuoted limit d data).1.flatten = cells at h
  split at h
  · cases h
  · rename_i n hn
    have hc : ∀ {cs : List (Str × Bool)} {n : Nat}, countKnown (fun c => isKnownType env c.1 c.2) cs = .ok n →
        n = (cs.filter (fun c => isKnownType env c.1 c.2 = .ok true)).length := by
      intro cs
      induction cs with
      | nil => intro n h; simpa [countKnown, eq_comm] using h
      | cons c cs ih =>
        intro n h
        simp only [countKnown] at h
        split at h
        · cases h
        · rename_i b hb
          split at h
          · cases h
          · rename_i m hm
            have := ih hm
            simp only [Except.ok.injEq] at h
            rw [List.filter_cons, hb]
            cases b
            · simp at h ⊢; omega
            · simp at h ⊢; omega
    split at h
    · cases h
    · simp only [Except.ok.injEq] at h
      subst h
      unfold typeRatio
      by_cases h0 : cells = []
      · left; simp [h0]
      · right
        refine ⟨h0, ?_⟩
        have : ¬ cells.length = 0 := by simpa using h0
        rw [if_neg this, hc hn]

/-- One of the two cells of `a,!` has a known type. -/
example : typeScore asciiEnv 100 "a,!%".toList ⟨some ",".toList, some [], some [], false⟩ = .ok (1 / 2) := by
  decide +kernel

/-- No cell at all: the score is `eps`. -/
example : typeScore asciiEnv 100 [] ⟨some ",".toList, some [], some [], false⟩ = .ok defaultEpsType := by
  decide +kernel

/-! ## C26: the cache of the type detection is transparent -/

/-- C26: after any history of queries on a fresh cache of any capacity, the answers are those of the
uncached function. -/
theorem C26_cache_transparent {K V E : Type} [DecidableEq K] (cap : Option Nat) (f : K → Except E V)
    (history : List K) : (lruCalls cap f [] history).1 = history.map f :=
  (lruCalls_sound (cap := cap) (cache := []) (by intro p hp; cases hp) history).1

/-- C26 for the type score: after any queries, the cached score is the uncached one. -/
theorem C26_type_score_transparent (env : PyEnv) (cap : Option Nat) (history : List (Str × Bool))
    (limit : Int) (data : Str) (d : SimpleDialect) (eps : ℚ) :
    (computeTypeScore env cap (lruCalls cap (fun c => isKnownType env c.1 c.2) [] history).2
      limit data d eps).1 = typeScore env limit data d eps :=
  (computeTypeScore_sound
    (lruCalls_sound (cap := cap) (f := fun c : Str × Bool => isKnownType env c.1 c.2) (cache := [])
      (by intro p hp; cases hp) history).2 limit data d eps).1

/-- C26: scoring a sequence of dialects one after the other with one cache gives the scores of
each of them alone. -/
theorem C26_dialect_sequence (env : PyEnv) (cap : Option Nat) (limit : Int) (data : Str) (eps : ℚ)
    (ds : List SimpleDialect) :
    (ds.foldl (fun (acc : List (Except PyExc ℚ) × TypeCache) d =>
        let r := computeTypeScore env cap acc.2 limit data d eps
        (acc.1 ++ [r.1], r.2)) ([], [])).1 = ds.map (fun d => typeScore env limit data d eps) := by
  have key : ∀ (ds : List SimpleDialect) (acc : List (Except PyExc ℚ) × TypeCache),
      CacheSound (fun c => isKnownType env c.1 c.2) acc.2 →
      (ds.foldl (fun (acc : List (Except PyExc ℚ) × TypeCache) d =>
        let r := computeTypeScore env cap acc.2 limit data d eps
        (acc.1 ++ [r.1], r.2)) acc).1 = acc.1 ++ ds.map (fun d => typeScore env limit data d eps) := by
    intro ds
    induction ds with
    | nil => intro acc _; simp
    | cons d ds ih =>
      intro acc h
      have h1 := computeTypeScore_sound (cap := cap) h limit data d eps
      simp only [List.foldl_cons, List.map_cons]
      rw [ih _ h1.2, h1.1]
      simp
  exact key ds ([], []) (by intro p hp; cases hp)

/-- C26: the cache never has more entries than its capacity. -/
theorem C26_cache_bounded {K V E : Type} [DecidableEq K] (n : Nat) (f : K → Except E V)
    (history : List K) : (lruCalls (some n) f [] history).2.length ≤ n := by
  have key : ∀ (ks : List K) (cache : List (K × V)), cache.length ≤ n →
      (lruCalls (some n) f cache ks).2.length ≤ n := by
    intro ks
    induction ks with
    | nil => intro cache h; exact h
    | cons k ks ih => intro cache h; simp only [lruCalls]; exact ih _ (lruCall_length h k)
  exact key history [] (by simp)

/-- Capacity 2, six calls: the entry for `1` is evicted and computed again. -/
example : lruCalls (some 2) (fun k : Nat => if k = 9 then Except.error () else .ok (k * k)) [] [1, 2, 1, 3, 9, 2] =
    ([.ok 1, .ok 4, .ok 1, .ok 9, .error (), .ok 4], [(2, 4), (3, 9)]) := by decide

/-! ## C27: surrounding whitespace is ignored -/

/-- C27: adding whitespace at the ends of a cell does not change its type. -/
theorem C27_whitespace_ignored (env : PyEnv) (a s b : Str) (ha : ∀ c ∈ a, env.space c = true)
    (hb : ∀ c ∈ b, env.space c = true) (q : Bool) :
    detectType env (a ++ s ++ b) q = detectType env s q := by
  unfold detectType maybeStrip
  rw [if_pos rfl, if_pos rfl, strip_pad env ha hb]

/-- C27: a cell of whitespace only is empty. -/
theorem C27_whitespace_only (env : PyEnv) (a : Str) (ha : ∀ c ∈ a, env.space c = true) (q : Bool) :
    detectType env a q = .ok (some "empty") := by
  unfold detectType maybeStrip
  rw [if_pos rfl, strip_space env ha]
  rfl

/-- C27: and nothing else is empty. -/
theorem C27_empty_iff (env : PyEnv) (s : Str) (q : Bool) :
    detectType env s q = .ok (some "empty") ↔ ∀ c ∈ s, env.space c = true := by
  constructor
  · intro hd
    have hs : env.strip s = [] := by
      unfold detectType maybeStrip at hd
      rw [if_pos rfl] at hd
      generalize env.strip s = u at hd
      by_contra hne
      simp only [typeTests, firstType, hne, decide_false] at hd
      revert hd
      cases runRegex env true (reUrl env) u <;> cases runRegex env true reEmail u <;>
        cases runRegex env true (reIpv4 env) u <;> cases isNumber env true u <;> cases isTime env true u <;> simp
      cases isPercentage env true u <;> cases isCurrency env true u <;> cases runRegex env true reUnixPath u <;>
        cases isNan env u <;> cases isDate env true u <;> cases isDatetime env true u <;>
        cases isUnicodeAlphanum env true u q <;> cases isBytearray u <;> simp
      cases isJsonObj env u with
      | error e => simp
      | ok b => cases b <;> simp
    -- only whitespace strips to nothing
    unfold PyEnv.strip at hs
    rw [List.reverse_eq_nil_iff] at hs
    have h1 : ∀ c ∈ (s.dropWhile env.space), env.space c = true := by
      intro c hc
      have h2 := List.takeWhile_append_dropWhile (p := env.space) (l := (s.dropWhile env.space).reverse)
      rw [hs, List.append_nil] at h2
      have : c ∈ (s.dropWhile env.space).reverse := by simpa using hc
      rw [← h2] at this
      exact List.all_eq_true.mp (List.all_takeWhile (p := env.space) (l := (s.dropWhile env.space).reverse)) c this
    have h3 : s.dropWhile env.space = [] := by
      cases hd : s.dropWhile env.space with
      | nil => rfl
      | cons c t =>
        have h4 := dropWhile_head hd
        have h5 := h1 c (by rw [hd]; simp)
        rw [h4] at h5; cases h5
    intro c hc
    have h2 := List.takeWhile_append_dropWhile (p := env.space) (l := s)
    rw [h3, List.append_nil] at h2
    rw [← h2] at hc
    exact List.all_eq_true.mp (List.all_takeWhile (p := env.space) (l := s)) c hc
  · exact fun h => C27_whitespace_only env s h q

example : detectType asciiEnv " \t12:30 \n".toList = .ok (some "time") := by decide +kernel
example : detectType asciiEnv "  ".toList = .ok (some "empty") := by decide +kernel

/-! ## C28: the time cells are exactly the clock times -/

/-- C28: the time test accepts a cell exactly when it is a clock time (after stripping). -/
theorem C28_time_test (env : PyEnv) (h : env.Ascii) (cell : Str) (sw : Bool) :
    isTime env sw cell = true ↔ IsClock (maybeStrip env sw cell) := isTime_iff h sw cell

/-- C28: and such cells, and no others, get the type `time`. -/
theorem C28_time_type (env : PyEnv) (h : env.Ascii) (cell : Str) (q : Bool) :
    detectType env cell q = .ok (some "time") ↔ IsClock (env.strip cell) := detectType_time_iff h cell q true

example : IsClock "9:05".toList := Or.inl (Or.inl ⟨9, 5, by omega, by omega, by decide⟩)
example : IsClock "23:59:59-19:59".toList :=
  Or.inr ⟨23, 59, 59, 19, 59, '-', by omega, by omega, by omega, by omega, by omega, Or.inr rfl, by decide⟩
/-- The hour 24 is not valid. -/
example : ¬ IsClock "24:00".toList := fun h => by
  have := (C28_time_test asciiEnv asciiEnv_ascii "24:00".toList false).2 h
  revert this; decide +kernel

/-! ## C29: hour-only offsets -/

/-- C29 is false: a time stamp with an hour-only UTC offset never has a known type.  `PATTERN_TIME_HH`
is a copy of the `hhmm` pattern. -/
theorem C29_hour_offset_violated (env : PyEnv) (h : env.Ascii) (y m d oh : Nat) (hy : y < 10000)
    (hm : m < 100) (hd : d < 100) (ho : oh < 100) (t : Str) (ht : IsPlainClock t) (g : Char)
    (hg : g = '+' ∨ g = '-') (q : Bool) :
    detectType env (isoDate y m d ++ 'T' :: (t ++ g :: pad2 oh)) q = .ok none := by
  have st : StampText (isoDate y m d ++ 'T' :: (t ++ g :: pad2 oh)) :=
    stamp_offset hy hm hd ht hg (fun c hc => Or.inl (pad2_digits ho c hc)) ⟨oh % 10, [dg (oh / 10)], by omega, rfl⟩
  have hoc : ∀ x, isDig x = false → x ∉ pad2 oh := fun x hx => pad2_not_mem ho hx
  have hg1 : isDig g = false := by rcases hg with rfl | rfl <;> decide
  -- not a time
  have n1 : ∀ sw s, StampText s → ¬ IsClock s → isTime env sw s = false := fun sw s h1 h2 => by
    rw [Bool.eq_false_iff]; intro h3
    rw [isTime_iff h, h1.maybeStrip h] at h3
    exact h2 h3
  have nT : ∀ x, isDig x = false → x ≠ '+' → x ≠ '-' → x ≠ ':' → x ∉ t ++ g :: pad2 oh := by
    intro x h1 h2 h3 h4 hx
    simp only [List.mem_append, List.mem_cons] at hx
    rcases hx with hx | hx | hx
    · exact plain_not_mem ht h1 h4 hx
    · rcases hg with rfl | rfl
      · exact h2 hx
      · exact h3 hx
    · exact hoc x h1 hx
  have strip_t : ∀ sw, maybeStrip env sw (t ++ g :: pad2 oh) = t ++ g :: pad2 oh := by
    intro sw
    unfold maybeStrip
    split
    · apply strip_of_ends
      · obtain ⟨n, u, hn, rfl⟩ := ht.facts.2.2.1
        intro c hc
        have : c = dg n := by simpa [eq_comm] using hc
        subst this; exact space_dg h hn
      · intro c hc
        have : c = dg (oh % 10) := by simpa [pad2, eq_comm] using hc
        subst this; exact space_dg h (by omega)
    · rfl
  have strip_o : ∀ sw, maybeStrip env sw (pad2 oh) = pad2 oh := by
    intro sw
    unfold maybeStrip
    split
    · apply strip_of_ends
      · intro c hc
        have : c = dg (oh / 10) := by simpa [pad2, eq_comm] using hc
        subst this; exact space_dg h (by omega)
      · intro c hc
        have : c = dg (oh % 10) := by simpa [pad2, eq_comm] using hc
        subst this; exact space_dg h (by omega)
    · rfl
  have hiso : isIsoTime env true (t ++ g :: pad2 oh) = false := by
    rw [isIsoTime_offset ht hg (hoc g hg1) (hoc '+' (by decide))]
    · have h1 : isTime env true (pad2 oh) = false := by
        rw [Bool.eq_false_iff]; intro h3
        rw [isTime_iff h, strip_o] at h3
        exact hoc ':' (by decide) h3.facts.1
      have h2 : runRegex env true reTimeHHMM2 (pad2 oh) = false := by
        rw [Bool.eq_false_iff]; intro h3
        unfold runRegex at h3
        rw [strip_o, eats_hhmm2.fullmatch] at h3
        obtain ⟨a, b, -, -, he⟩ := h3
        have := congrArg List.length he
        simp [pad2] at this
      have h3 : runRegex env true reTimeHH (pad2 oh) = false := h2
      rw [h1, h2, h3]; simp
    · have : (t ++ g :: pad2 oh).getLast? = some (dg (oh % 10)) := by simp [pad2]
      unfold endsWith1
      rw [this]
      have : dg (oh % 10) ≠ 'Z' := dg_ne (by omega) (by decide)
      simpa using this
    · rw [Bool.eq_false_iff]; intro h3
      rw [isTime_iff h, strip_t] at h3
      exact not_isClock_offset ht hg (hoc ':' (by decide)) h3
  have hdt : isDatetime env true (isoDate y m d ++ 'T' :: (t ++ g :: pad2 oh)) = false := by
    rw [isDatetime_iso h true hy hm hd (nT ' ' (by decide) (by decide) (by decide) (by decide))
      (nT 'T' (by decide) (by decide) (by decide) (by decide)), hiso]
    simp
  have hmem : 'T' ∈ isoDate y m d ++ 'T' :: (t ++ g :: pad2 oh) := by simp
  unfold detectType
  rw [st.maybeStrip h]
  generalize isoDate y m d ++ 'T' :: (t ++ g :: pad2 oh) = s at st hdt hmem
  obtain ⟨e1, e2, e3, e4, e5⟩ := st.early h true
  have ne : ∀ c ∈ s, ∀ d, isDig d = false → d ≠ ':' → d ≠ '+' → d ≠ '-' → d ≠ 'T' → c ≠ d := by
    intro c hc d h1 h2 h3 h4 h5
    rcases st.chars c hc with h | rfl
    · exact h.ne h1 h2 h3 h4
    · exact Ne.symm h5
  have e6 : isTime env true s = false := by
    refine n1 true s st fun hc => ?_
    exact (hc.facts.2.1 'T' hmem).ne (d := 'T') (by decide) (by decide) (by decide) (by decide) rfl
  have lastc : ∀ x, isDig x = false → endsWith1 s x = false := by
    intro x hx
    obtain ⟨n, u, hn, rfl⟩ := st.last
    unfold endsWith1
    rw [List.getLast?_concat]
    have : dg n ≠ x := dg_ne hn hx
    simpa using this
  have e7 : isPercentage env true s = false := by
    unfold isPercentage; rw [lastc '%' (by decide)]; rfl
  have e8 : isCurrency env true s = false := by
    unfold isCurrency
    have hcur := (currency_needs env).fullmatch (s := s) fun c hc => by
      rcases st.chars c hc with h1 | rfl
      · rw [h.currency c h1.ascii]
        have := h1.ne (d := '$') (by decide) (by decide) (by decide) (by decide)
        simpa using this
      · rw [h.currency 'T' (by decide)]; decide
    cases hf : (reCurrency env).fullmatch s with
    | none => rfl
    | some m => rw [hf] at hcur; cases hcur
  have e9 : runRegex env true reUnixPath s = false := by
    unfold runRegex
    rw [st.maybeStrip h]
    exact unixPath_needs.fullmatch fun c hc =>
      ne c hc '/' (by decide) (by decide) (by decide) (by decide) (by decide)
  have asc : ∀ c ∈ s, c.toNat < 128 := by
    intro c hc
    rcases st.chars c hc with h | rfl
    · exact h.ascii
    · decide
  obtain ⟨n0, u0, hn0, hs0⟩ := st.first
  have e10 : isNan env s = false := by
    unfold isNan
    rw [h.lower s asc, hs0]
    have hl : asciiLower (dg n0) ≠ 'n' := by
      have : ∀ n : Fin 10, asciiLower (dg n.1) ≠ 'n' := by decide
      exact this ⟨n0, hn0⟩
    simp [List.map_cons, hl]
  have e11 : isDate env true s = false := by
    unfold isDate runRegex
    simp only [st.maybeStrip h]
    rw [(date_avoids_colon h).fullmatch st.colon]; simp
  have e12 : isUnicodeAlphanum env true s q = false := by
    unfold isUnicodeAlphanum runRegex
    rw [st.maybeStrip h, (alnum_avoids_colon h).1.fullmatch st.colon, (alnum_avoids_colon h).2.fullmatch st.colon]
    simp
  have e13 : isBytearray s = false := by unfold isBytearray; rw [lastc ')' (by decide)]; simp
  have e14 : isJsonObj env s = .ok false := by unfold isJsonObj; rw [lastc '}' (by decide)]; simp
  simp only [typeTests, firstType, e1, e2, e3, e4, e5, e6, e7, e8, e9, e10, e11, hdt, e12, e13, e14, decide_false]

/-- The witness of the violation, evaluated by the model: `+0100` is recognised, `+01` is not. -/
example : detectType asciiEnv "2019-01-12T04:01:23+01".toList = .ok none ∧
    detectType asciiEnv "2019-01-12T04:01:23+0100".toList = .ok (some "datetime") := by
  constructor <;> decide +kernel

/-- C29 as far as it holds: with a UTC offset `hhmm` or `hh:mm` the cell has a known type.  Missing:
the hour-only offset `hh`. -/
theorem C29_offset_partial (env : PyEnv) (h : env.Ascii) (y m d : Nat) (hy1 : 1000 ≤ y) (hy2 : y < 3000)
    (hm1 : 1 ≤ m) (hm2 : m ≤ 12) (hd1 : 1 ≤ d) (hd2 : d ≤ 31) (t : Str) (ht : IsPlainClock t)
    (g : Char) (hg : g = '+' ∨ g = '-') (o : Str)
    (ho : (∃ oh om, oh < 24 ∧ om < 60 ∧ o = pad2 oh ++ pad2 om) ∨
      (∃ oh om, oh < 24 ∧ om < 60 ∧ o = pad2 oh ++ ':' :: pad2 om)) (q : Bool) :
    isKnownType env (isoDate y m d ++ 'T' :: (t ++ g :: o)) q = .ok true := by
  have hoc : ∀ c ∈ o, (∃ n, n < 10 ∧ c = dg n) ∨ c = ':' := by
    intro c hc
    rcases ho with ⟨oh, om, h1, h2, rfl⟩ | ⟨oh, om, h1, h2, rfl⟩
    · rcases List.mem_append.1 hc with hc | hc
      · exact Or.inl (pad2_digits (by omega) c hc)
      · exact Or.inl (pad2_digits (by omega) c hc)
    · simp only [List.mem_append, List.mem_cons] at hc
      rcases hc with hc | hc | hc
      · exact Or.inl (pad2_digits (by omega) c hc)
      · exact Or.inr hc
      · exact Or.inl (pad2_digits (by omega) c hc)
  have hom : ∀ x, isDig x = false → x ≠ ':' → x ∉ o := by
    intro x h1 h2 hx
    rcases hoc x hx with ⟨n, hn, rfl⟩ | rfl
    · exact dg_ne hn h1 rfl
    · exact h2 rfl
  have hlast : ∃ n u, n < 10 ∧ o = u ++ [dg n] := by
    rcases ho with ⟨oh, om, h1, h2, rfl⟩ | ⟨oh, om, h1, h2, rfl⟩
    · exact ⟨om % 10, pad2 oh ++ [dg (om / 10)], by omega, by simp [pad2]⟩
    · exact ⟨om % 10, pad2 oh ++ [':', dg (om / 10)], by omega, by simp [pad2]⟩
  have hfirst : ∃ n u, n < 10 ∧ o = dg n :: u := by
    rcases ho with ⟨oh, om, h1, h2, rfl⟩ | ⟨oh, om, h1, h2, rfl⟩
    · exact ⟨oh / 10, _, by omega, rfl⟩
    · exact ⟨oh / 10, _, by omega, rfl⟩
  have strip_o : maybeStrip env true o = o := by
    unfold maybeStrip
    rw [if_pos rfl]
    apply strip_of_ends
    · obtain ⟨n, u, hn, rfl⟩ := hfirst
      intro c hc
      have : c = dg n := by simpa [eq_comm] using hc
      subst this; exact space_dg h hn
    · obtain ⟨n, u, hn, rfl⟩ := hlast
      intro c hc
      have : c = dg n := by simpa [eq_comm] using hc
      subst this; exact space_dg h hn
  have hg1 : isDig g = false := by rcases hg with rfl | rfl <;> decide
  have hg2 : g ≠ ':' := by rcases hg with rfl | rfl <;> decide
  have htime : isTime env true t = true := by
    rw [isTime_iff h, (IsClock.stamp (Or.inl ht)).maybeStrip h]; exact Or.inl ht
  have hiso : isIsoTime env true (t ++ g :: o) = true := by
    by_cases hn : isTime env true (t ++ g :: o) = true
    · unfold isIsoTime; simp [hn]
    · rw [isIsoTime_offset ht hg (hom g hg1 hg2) (hom '+' (by decide) (by decide)) ?_ (by simpa using hn)]
      · rw [htime]
        rcases ho with ⟨oh, om, h1, h2, he⟩ | ⟨oh, om, h1, h2, he⟩
        · have : runRegex env true reTimeHHMM2 o = true := by
            unfold runRegex
            rw [strip_o, eats_hhmm2.fullmatch]
            exact ⟨oh, om, h1, h2, he⟩
          rw [this]; simp
        · have : isTime env true o = true := by
            rw [isTime_iff h, strip_o]
            exact Or.inl (Or.inr (Or.inl ⟨oh, om, h1, h2, he⟩))
          rw [this]; simp
      · obtain ⟨n, u, hn', rfl⟩ := hlast
        have : (t ++ g :: (u ++ [dg n])).getLast? = some (dg n) := by
          rw [show t ++ g :: (u ++ [dg n]) = (t ++ g :: u) ++ [dg n] by simp, List.getLast?_concat]
        unfold endsWith1
        rw [this]
        have : dg n ≠ 'Z' := dg_ne hn' (by decide)
        simpa using this
  have nT : ∀ x, isDig x = false → x ≠ '+' → x ≠ '-' → x ≠ ':' → x ∉ t ++ g :: o := by
    intro x h1 h2 h3 h4 hx
    simp only [List.mem_append, List.mem_cons] at hx
    rcases hx with hx | hx | hx
    · exact plain_not_mem ht h1 h4 hx
    · rcases hg with rfl | rfl
      · exact h2 hx
      · exact h3 hx
    · exact hom x h1 h4 hx
  have hdt : isDatetime env true (isoDate y m d ++ 'T' :: (t ++ g :: o)) = true := by
    rw [isDatetime_iso h true (by omega) (by omega) (by omega)
      (nT ' ' (by decide) (by decide) (by decide) (by decide))
      (nT 'T' (by decide) (by decide) (by decide) (by decide)), hiso, isDate_isoDate h true hy1 hy2 hm1 hm2 hd1 hd2]
    rfl
  have st : StampText (isoDate y m d ++ 'T' :: (t ++ g :: o)) :=
    stamp_offset (by omega) (by omega) (by omega) ht hg hoc hlast
  unfold isKnownType detectType
  rw [st.maybeStrip h]
  generalize isoDate y m d ++ 'T' :: (t ++ g :: o) = s at hdt
  simp only [typeTests, firstType, hdt]
  cases decide (s = []) <;> cases runRegex env true (reUrl env) s <;> cases runRegex env true reEmail s <;>
    cases runRegex env true (reIpv4 env) s <;> cases isNumber env true s <;> cases isTime env true s <;> simp
  cases isPercentage env true s <;> cases isCurrency env true s <;> cases runRegex env true reUnixPath s <;>
    cases isNan env s <;> cases isDate env true s <;> simp

example : isKnownType asciiEnv "2019-01-12T04:01-2359".toList = .ok true := by decide +kernel

/-! ## The JSON model -/

/-- The test for JSON objects either answers, or raises one of the two exceptions that
`is_json_obj` does not catch. -/
theorem isJsonObj_cases (env : PyEnv) (s : Str) :
    (∃ b, isJsonObj env s = .ok b) ∨
      (∃ m, isJsonObj env s = .error (.valueError m)) ∨ isJsonObj env s = .error .recursionError := by
  unfold isJsonObj
  have hf := jsonLoads_fuel env s
  split
  · exact Or.inl ⟨_, rfl⟩
  · split
    · exact Or.inl ⟨_, rfl⟩
    · exact Or.inl ⟨_, rfl⟩
    · exact Or.inr (Or.inl ⟨_, rfl⟩)
    · exact Or.inr (Or.inr rfl)
    · rename_i hj; exact absurd hj hf

end Clever.Props
