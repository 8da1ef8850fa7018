import Mathlib.Data.List.Forall2
import Verif.Model.TypePatterns
import Verif.Proofs.CellTypes

/-!
# C106: type detection with given patterns
-/

namespace Clever.Spec

/-- The names that are looked up. -/
def patternNames : List String :=
  ["number_1", "number_2", "number_3", "url", "email", "ipv4", "unicode_alphanum", "unicode_alphanum_quoted",
   "time_hhmmss", "time_hhmm", "time_HHMM", "time_HH", "time_hmm", "time_hhmmsszz", "currency", "unix_path", "date"]

/-- A dictionary with all the patterns, in which the matches of `currency` have a group with a text. -/
structure Complete (P : Patterns) : Prop where
  all : ∀ n ∈ patternNames, ∃ p, dictGet n P = some p
  group : ∀ p, dictGet "currency" P = some p → ∀ s m, p s = some m → ∃ g, m.group1 = .ok (some g)

end Clever.Spec

namespace Clever.Props

open Clever Spec

theorem pyOr_ok (a : Bool) (b : Except PyExc Bool) : pyOr (.ok a) b = if a then .ok true else b := by
  cases a <;> rfl

theorem pyAnd_ok (a : Bool) (b : Except PyExc Bool) : pyAnd (.ok a) b = if a then b else .ok false := by
  cases a <;> rfl

section
variable (env : PyEnv) (sw : Bool)

theorem runPat_default {name : String} {r : Re} (h : dictGet name (defaultPatterns env) = some (.ofRe r)) (cell : Str) :
    runPat env sw (defaultPatterns env) name cell = .ok (runRegex env sw r cell) := by
  simp [runPat, h, Pat.ofRe, runRegex]

theorem isNumberP_default (cell : Str) :
    isNumberP env sw (defaultPatterns env) cell = .ok (isNumber env sw cell) := by
  unfold isNumberP isNumber
  split
  · rfl
  · rw [runPat_default env sw (r := reNumber1 env) rfl, runPat_default env sw (r := reNumber2 env) rfl,
      runPat_default env sw (r := reNumber3 env) rfl]
    cases runRegex env sw (reNumber1 env) cell <;> cases runRegex env sw (reNumber2 env) cell <;> rfl

theorem isDateP_default (cell : Str) : isDateP env sw (defaultPatterns env) cell = .ok (isDate env sw cell) := by
  unfold isDateP isDate
  simp only
  rw [runPat_default env sw (r := reDate env) rfl]
  cases startsWithDigit env (maybeStrip env sw cell) <;> rfl

theorem isTimeP_default (cell : Str) : isTimeP env sw (defaultPatterns env) cell = .ok (isTime env sw cell) := by
  unfold isTimeP isTime
  simp only
  rw [runPat_default env sw (r := reTimeHMM) rfl, runPat_default env sw (r := reTimeHHMM1) rfl,
    runPat_default env sw (r := reTimeHHMMSS) rfl, runPat_default env sw (r := reTimeHHMMSSZZ) rfl]
  cases startsWithDigit env (maybeStrip env sw cell)
  · rfl
  · cases runRegex env sw reTimeHMM (maybeStrip env sw cell) <;>
      cases runRegex env sw reTimeHHMM1 (maybeStrip env sw cell) <;>
      cases runRegex env sw reTimeHHMMSS (maybeStrip env sw cell) <;> rfl

theorem isPercentageP_default (cell : Str) :
    isPercentageP env sw (defaultPatterns env) cell = .ok (isPercentage env sw cell) := by
  unfold isPercentageP isPercentage
  rw [isNumberP_default]
  cases endsWith1 cell '%' <;> rfl

theorem currency_has_group (cell : Str) (m : MState) (h : (reCurrency env).fullmatch cell = some m) :
    ∃ g, m.group 1 = some g := by
  cases cell with
  | nil => simp [Re.fullmatch, reCurrency, Re.cat, Re.run] at h
  | cons c r =>
    have hg := currency_group env c r
    rw [h] at hg
    simp only [Option.map_some] at hg
    repeat' split at hg
    all_goals first | (simp at hg; done) | exact ⟨_, Option.some.inj hg⟩

theorem isCurrencyP_default (cell : Str) :
    isCurrencyP env sw (defaultPatterns env) cell = .ok (isCurrency env sw cell) := by
  have hd : dictGet "currency" (defaultPatterns env) = some (.ofRe (reCurrency env)) := rfl
  unfold isCurrencyP isCurrency
  rw [hd]
  simp only [Pat.ofRe]
  cases hm : (reCurrency env).fullmatch cell with
  | none => rfl
  | some m =>
    obtain ⟨g, hg⟩ := currency_has_group env cell m hm
    simp only [Option.map_some, hg, isNumberP_default]

theorem isOffsetTimeP_default (sep : Char) (t : Str) :
    isOffsetTimeP env sw (defaultPatterns env) sep t = .ok (isOffsetTime env sw sep t) := by
  unfold isOffsetTimeP isOffsetTime
  match splitAt1 sep t with
  | [] => rfl
  | [_] => rfl
  | a :: b :: _ =>
    simp only [isTimeP_default, runPat_default env sw (name := "time_HHMM") (r := reTimeHHMM2) rfl, runPat_default env sw (name := "time_HH") (r := reTimeHH) rfl,
      pyAnd_ok, pyOr_ok]
    cases isTime env sw a <;> cases isTime env sw b <;> cases runRegex env sw reTimeHHMM2 b <;> rfl

theorem isIsoTimeP_default (t : Str) :
    isIsoTimeP env sw (defaultPatterns env) t = .ok (isIsoTime env sw t) := by
  unfold isIsoTimeP isIsoTime
  simp only [isTimeP_default, isOffsetTimeP_default]
  cases endsWith1 t 'Z' <;> cases isTime env sw t.dropLast <;> cases isTime env sw t <;> cases t.contains '+' <;>
    cases t.contains '-' <;> rfl

theorem isDatetimeP_default (cell : Str) :
    isDatetimeP env sw (defaultPatterns env) cell = .ok (isDatetime env sw cell) := by
  unfold isDatetimeP isDatetime
  split
  · rfl
  · split
    · split
      · rename_i a b h
        simp only [h, isDateP_default, isTimeP_default, pyAnd_ok]
        cases isDate env sw a <;> rfl
      · rename_i h
        split
        · rename_i a b h'
          exact absurd h' (h a b)
        · rfl
    · split
      · split
        · rename_i a b h
          simp only [h, isDateP_default, isIsoTimeP_default, pyAnd_ok]
          cases isDate env sw a <;> rfl
        · rename_i h
          split
          · rename_i a b h'
            exact absurd h' (h a b)
          · rfl
      · rfl

theorem isUnicodeAlphanumP_default (cell : Str) (q : Bool) :
    isUnicodeAlphanumP env sw (defaultPatterns env) cell q = .ok (isUnicodeAlphanum env sw cell q) := by
  unfold isUnicodeAlphanumP isUnicodeAlphanum
  rw [runPat_default env sw (r := reAlphanumQuoted env) rfl, runPat_default env sw (r := reAlphanum env) rfl]
  cases q <;> rfl

theorem typeTestsP_default : typeTestsP env sw (defaultPatterns env) = typeTests env sw := by
  unfold typeTestsP typeTests
  simp only [isNumberP_default, isTimeP_default, isPercentageP_default, isCurrencyP_default, isDateP_default,
    isDatetimeP_default, isUnicodeAlphanumP_default, runPat_default env sw (name := "url") (r := reUrl env) rfl,
    runPat_default env sw (name := "email") (r := reEmail) rfl, runPat_default env sw (name := "ipv4") (r := reIpv4 env) rfl,
    runPat_default env sw (name := "unix_path") (r := reUnixPath) rfl]

end

/-- **C106**, default: without patterns, and with an empty dictionary, the default patterns are used. -/
theorem C106_default (env : PyEnv) (cell : Str) (q sw : Bool) :
    detectTypeP env none cell q sw = detectType env cell q sw ∧
    detectTypeP env (some []) cell q sw = detectType env cell q sw := by
  simp only [detectTypeP, patternsOr, typeTestsP_default, detectType, and_self]

/-- **C106**, missing patterns: with a dictionary that is not empty and has no pattern `url`, every cell that is not empty
raises `AssertionError`. -/
theorem C106_missing (env : PyEnv) (P : Patterns) (hP : P ≠ []) (hu : dictGet "url" P = none) (cell : Str)
    (q sw : Bool) (hc : maybeStrip env sw cell ≠ []) :
    detectTypeP env (some P) cell q sw = .error .assertionError := by
  have hp : patternsOr env (some P) = P := by
    cases P with
    | nil => exact absurd rfl hP
    | cons a b => rfl
  simp [detectTypeP, hp, typeTestsP, firstType, hc, runPat, hu]

/-- **C106**, unused patterns: the answer depends on the patterns with the seventeen names only. -/
theorem C106_names (env : PyEnv) (P P' : Patterns) (hP : P ≠ []) (hP' : P' ≠ [])
    (h : ∀ n ∈ patternNames, dictGet n P = dictGet n P') (cell : Str) (q sw : Bool) :
    detectTypeP env (some P) cell q sw = detectTypeP env (some P') cell q sw := by
  have hp : ∀ P : Patterns, P ≠ [] → patternsOr env (some P) = P := by
    intro P hP
    cases P with
    | nil => exact absurd rfl hP
    | cons a b => rfl
  have hr : ∀ n ∈ patternNames, ∀ s, runPat env sw P n s = runPat env sw P' n s := by
    intro n hn s
    simp only [runPat, h n hn]
  have e1 : isNumberP env sw P = isNumberP env sw P' := by
    funext s
    simp only [isNumberP, hr "number_1" (by decide), hr "number_2" (by decide), hr "number_3" (by decide)]
  have e2 : isDateP env sw P = isDateP env sw P' := by
    funext s
    simp only [isDateP, hr "date" (by decide)]
  have e3 : isTimeP env sw P = isTimeP env sw P' := by
    funext s
    simp only [isTimeP, hr "time_hmm" (by decide), hr "time_hhmm" (by decide), hr "time_hhmmss" (by decide),
      hr "time_hhmmsszz" (by decide)]
  have e4 : isPercentageP env sw P = isPercentageP env sw P' := by
    funext s
    simp only [isPercentageP, e1]
  have e5 : isCurrencyP env sw P = isCurrencyP env sw P' := by
    funext s
    simp only [isCurrencyP, e1, h "currency" (by decide), h "number_1" (by decide)]
  have e6 : isOffsetTimeP env sw P = isOffsetTimeP env sw P' := by
    funext c s
    simp only [isOffsetTimeP, e3, hr "time_HHMM" (by decide), hr "time_HH" (by decide)]
  have e7 : isDatetimeP env sw P = isDatetimeP env sw P' := by
    funext s
    simp only [isDatetimeP, isIsoTimeP, e2, e3, e6]
  have e8 : isUnicodeAlphanumP env sw P = isUnicodeAlphanumP env sw P' := by
    funext s b
    simp only [isUnicodeAlphanumP, hr "unicode_alphanum" (by decide), hr "unicode_alphanum_quoted" (by decide)]
  simp only [detectTypeP, hp P hP, hp P' hP', typeTestsP, e1, e2, e3, e4, e5, e7, e8, hr "url" (by decide),
    hr "email" (by decide), hr "ipv4" (by decide), hr "unix_path" (by decide)]

/-! A test that raises nothing. -/

theorem pyOr_total {a b : Except PyExc Bool} (ha : ∃ x, a = .ok x) (hb : ∃ x, b = .ok x) : ∃ x, pyOr a b = .ok x := by
  obtain ⟨x, rfl⟩ := ha
  rw [pyOr_ok]
  split
  · exact ⟨_, rfl⟩
  · exact hb

theorem pyAnd_total {a b : Except PyExc Bool} (ha : ∃ x, a = .ok x) (hb : ∃ x, b = .ok x) : ∃ x, pyAnd a b = .ok x := by
  obtain ⟨x, rfl⟩ := ha
  rw [pyAnd_ok]
  split
  · exact hb
  · exact ⟨_, rfl⟩

theorem complete_total {env : PyEnv} {sw : Bool} {P : Patterns} (h : Complete P) {name : String}
    {f : Str → Bool → Except PyExc Bool} (hf : (name, f) ∈ typeTestsP env sw P) (hj : name ≠ "json") (cell : Str)
    (q : Bool) : ∃ b, f cell q = .ok b := by
  have hr : ∀ n ∈ patternNames, ∀ s, ∃ b, runPat env sw P n s = .ok b := by
    intro n hn s
    obtain ⟨p, hp⟩ := h.all n hn
    exact ⟨_, by simp only [runPat, hp]; rfl⟩
  have hif : ∀ (b : Bool) (x : Except PyExc Bool), (∃ y, x = .ok y) → ∃ y, (if b then x else .ok false) = .ok y := by
    intro b x hx
    cases b
    · exact ⟨_, rfl⟩
    · exact hx
  have e1 : ∀ s, ∃ b, isNumberP env sw P s = .ok b := by
    intro s
    unfold isNumberP
    split
    · exact ⟨_, rfl⟩
    · exact pyOr_total (hr _ (by decide) _) (pyOr_total (hr _ (by decide) _) (hr _ (by decide) _))
  have e2 : ∀ s, ∃ b, isDateP env sw P s = .ok b := fun s => hif _ _ (hr _ (by decide) _)
  have e3 : ∀ s, ∃ b, isTimeP env sw P s = .ok b := fun s =>
    hif _ _ (pyOr_total (hr _ (by decide) _) (pyOr_total (hr _ (by decide) _)
      (pyOr_total (hr _ (by decide) _) (hr _ (by decide) _))))
  have e4 : ∀ s, ∃ b, isPercentageP env sw P s = .ok b := fun s => hif _ _ (e1 _)
  have e5 : ∀ s, ∃ b, isCurrencyP env sw P s = .ok b := by
    intro s
    obtain ⟨p, hp⟩ := h.all "currency" (by decide)
    unfold isCurrencyP
    rw [hp]
    simp only
    cases hm : p s with
    | none => exact ⟨_, rfl⟩
    | some m =>
      obtain ⟨g, hg⟩ := h.group p hp s m hm
      simp only [hg]
      exact e1 g
  have e6 : ∀ c s, ∃ b, isOffsetTimeP env sw P c s = .ok b := by
    intro c s
    unfold isOffsetTimeP
    split
    · exact pyAnd_total (e3 _) (pyOr_total (e3 _) (pyOr_total (hr _ (by decide) _) (hr _ (by decide) _)))
    · exact ⟨_, rfl⟩
  have e7 : ∀ s, ∃ b, isIsoTimeP env sw P s = .ok b := by
    intro s
    refine pyOr_total (hif _ _ (e3 _)) (pyOr_total (e3 _) ?_)
    split
    · exact e6 _ _
    · exact hif _ _ (e6 _ _)
  have e8 : ∀ s, ∃ b, isDatetimeP env sw P s = .ok b := by
    intro s
    unfold isDatetimeP
    repeat' split
    all_goals first | exact ⟨_, rfl⟩ | exact pyAnd_total (e2 _) (e3 _) | exact pyAnd_total (e2 _) (e7 _)
  have e9 : ∀ s b, ∃ x, isUnicodeAlphanumP env sw P s b = .ok x := by
    intro s b
    unfold isUnicodeAlphanumP
    split <;> exact hr _ (by decide) _
  simp only [typeTestsP, List.mem_cons, Prod.mk.injEq, List.not_mem_nil, or_false] at hf
  rcases hf with ⟨rfl, rfl⟩ | ⟨rfl, rfl⟩ | ⟨rfl, rfl⟩ | ⟨rfl, rfl⟩ | ⟨rfl, rfl⟩ | ⟨rfl, rfl⟩ | ⟨rfl, rfl⟩ | ⟨rfl, rfl⟩ |
    ⟨rfl, rfl⟩ | ⟨rfl, rfl⟩ | ⟨rfl, rfl⟩ | ⟨rfl, rfl⟩ | ⟨rfl, rfl⟩ | ⟨rfl, rfl⟩ | ⟨rfl, rfl⟩
  · exact ⟨_, rfl⟩
  · exact hr _ (by decide) _
  · exact hr _ (by decide) _
  · exact hr _ (by decide) _
  · exact e1 _
  · exact e3 _
  · exact e4 _
  · exact e5 _
  · exact hr _ (by decide) _
  · exact ⟨_, rfl⟩
  · exact e2 _
  · exact e8 _
  · exact e9 _ _
  · exact ⟨_, rfl⟩
  · exact absurd rfl hj

theorem firstType_error {cell : Str} {q : Bool} {l : List (String × (Str → Bool → Except PyExc Bool))} {e : PyExc}
    (h : firstType cell q l = .error e) : ∃ p ∈ l, p.2 cell q = .error e := by
  induction l with
  | nil => simp [firstType] at h
  | cons p l ih =>
    obtain ⟨name, f⟩ := p
    simp only [firstType] at h
    split at h
    · rename_i e' he
      simp only [Except.error.injEq] at h
      subst h
      exact ⟨(name, f), by simp, he⟩
    · simp at h
    · obtain ⟨p, hp, h⟩ := ih h
      exact ⟨p, by simp [hp], h⟩

theorem firstType_some {cell : Str} {q : Bool} {l : List (String × (Str → Bool → Except PyExc Bool))} {t : String}
    (h : firstType cell q l = .ok (some t)) : t ∈ l.map Prod.fst := by
  induction l with
  | nil => simp [firstType] at h
  | cons p l ih =>
    obtain ⟨name, f⟩ := p
    simp only [firstType] at h
    split at h
    · simp at h
    · simp only [Except.ok.injEq, Option.some.injEq] at h
      simp [h]
    · simp [ih h]

/-- **C106**, exceptions: with a complete dictionary the only exceptions are those of `json.loads` on the stripped cell. -/
theorem C106_complete (env : PyEnv) (P : Patterns) (h : Complete P) (cell : Str) (q sw : Bool) (e : PyExc)
    (he : detectTypeP env (some P) cell q sw = .error e) : isJsonObj env (maybeStrip env sw cell) = .error e := by
  have hp : patternsOr env (some P) = P := by
    cases P with
    | nil =>
      obtain ⟨p, hp⟩ := h.all "url" (by decide)
      simp [dictGet] at hp
    | cons a b => rfl
  rw [detectTypeP, hp] at he
  obtain ⟨⟨name, f⟩, hm, hf⟩ := firstType_error he
  by_cases hj : name = "json"
  · simp only [typeTestsP, List.mem_cons, Prod.mk.injEq, List.not_mem_nil, or_false, hj, String.reduceEq, false_and,
      false_or, true_and] at hm
    subst hm
    exact hf
  · obtain ⟨b, hb⟩ := complete_total h hm hj (maybeStrip env sw cell) q
    simp only [hb] at hf
    cases hf

/-- **C106**, names: whatever the patterns are, the type is one of the fifteen names. -/
theorem C106_types (env : PyEnv) (patterns : Option Patterns) (cell : Str) (q sw : Bool) (t : String)
    (h : detectTypeP env patterns cell q sw = .ok (some t)) :
    t ∈ ["empty", "url", "email", "ipv4", "number", "time", "percentage", "currency", "unix_path", "nan", "date",
      "datetime", "unicode_alphanum", "bytearray", "json"] := firstType_some h

/-! Fewer patterns -/

/-- The same answer, or the exception for a missing pattern. -/
def Misses {α : Type} (a b : Except PyExc α) : Prop := a = .error .assertionError ∨ a = b

theorem pyOr_misses {a b a' b' : Except PyExc Bool} (ha : Misses a a') (hb : Misses b b') :
    Misses (pyOr a b) (pyOr a' b') := by
  rcases ha with rfl | rfl
  · exact .inl rfl
  · rcases hb with rfl | rfl
    · rcases a with e | (_ | _)
      · exact .inr rfl
      · exact .inl rfl
      · exact .inr rfl
    · exact .inr rfl

theorem pyAnd_misses {a b a' b' : Except PyExc Bool} (ha : Misses a a') (hb : Misses b b') :
    Misses (pyAnd a b) (pyAnd a' b') := by
  rcases ha with rfl | rfl
  · exact .inl rfl
  · rcases hb with rfl | rfl
    · rcases a with e | (_ | _)
      · exact .inr rfl
      · exact .inr rfl
      · exact .inl rfl
    · exact .inr rfl

theorem firstType_misses {cell : Str} {q : Bool} : ∀ {l l' : List (String × (Str → Bool → Except PyExc Bool))},
    List.Forall₂ (fun p p' => p.1 = p'.1 ∧ Misses (p.2 cell q) (p'.2 cell q)) l l' →
    Misses (firstType cell q l) (firstType cell q l')
  | _, _, .nil => .inr rfl
  | (n, f) :: l, (n', f') :: l', .cons ⟨h1, h2⟩ t => by
    simp only at h1 h2
    subst h1
    rw [firstType, firstType]
    rcases h2 with h2 | h2
    · rw [h2]; exact .inl rfl
    · rw [h2]
      rcases f' cell q with e | (_ | _)
      · exact .inr rfl
      · exact firstType_misses t
      · exact .inr rfl

/-- **C106**, patterns added: if a dictionary has all patterns of another one, the answers are the same, or the smaller
dictionary raises `AssertionError`; no missing pattern is passed over. -/
theorem C106_extend (env : PyEnv) (P P' : Patterns) (hP : P ≠ []) (hP' : P' ≠ [])
    (h : ∀ n p, dictGet n P = some p → dictGet n P' = some p) (cell : Str) (q sw : Bool) :
    detectTypeP env (some P) cell q sw = .error .assertionError ∨
    detectTypeP env (some P) cell q sw = detectTypeP env (some P') cell q sw := by
  have hp : ∀ P : Patterns, P ≠ [] → patternsOr env (some P) = P := by
    intro P hP
    cases P with
    | nil => exact absurd rfl hP
    | cons a b => rfl
  have hr : ∀ n s, Misses (runPat env sw P n s) (runPat env sw P' n s) := by
    intro n s
    unfold runPat
    cases hg : dictGet n P with
    | none => exact .inl rfl
    | some p => rw [h n p hg]; exact .inr rfl
  have hif : ∀ (b : Bool) (x y : Except PyExc Bool), Misses x y →
      Misses (if b then x else .ok false) (if b then y else .ok false) := by
    intro b x y hx
    cases b
    · exact .inr rfl
    · exact hx
  have e1 : ∀ s, Misses (isNumberP env sw P s) (isNumberP env sw P' s) := by
    intro s
    unfold isNumberP
    split
    · exact .inr rfl
    · exact pyOr_misses (hr _ _) (pyOr_misses (hr _ _) (hr _ _))
  have e2 : ∀ s, Misses (isDateP env sw P s) (isDateP env sw P' s) := fun s => hif _ _ _ (hr _ _)
  have e3 : ∀ s, Misses (isTimeP env sw P s) (isTimeP env sw P' s) := fun s =>
    hif _ _ _ (pyOr_misses (hr _ _) (pyOr_misses (hr _ _) (pyOr_misses (hr _ _) (hr _ _))))
  have e4 : ∀ s, Misses (isPercentageP env sw P s) (isPercentageP env sw P' s) := fun s => hif _ _ _ (e1 _)
  have e5 : ∀ s, Misses (isCurrencyP env sw P s) (isCurrencyP env sw P' s) := by
    intro s
    unfold isCurrencyP
    cases hg : dictGet "currency" P with
    | none => exact .inl rfl
    | some p =>
      rw [h _ p hg]
      simp only
      cases p s with
      | none => exact .inr rfl
      | some m =>
        simp only
        rcases m.group1 with e | (_ | g)
        · exact .inr rfl
        · cases sw with
          | true => exact .inr rfl
          | false =>
            simp only [Bool.false_eq_true, if_false]
            cases hg1 : dictGet "number_1" P with
            | none => exact .inl rfl
            | some p1 => rw [h _ p1 hg1]; exact .inr rfl
        · exact e1 g
  have e6 : ∀ c s, Misses (isOffsetTimeP env sw P c s) (isOffsetTimeP env sw P' c s) := by
    intro c s
    unfold isOffsetTimeP
    split
    · exact pyAnd_misses (e3 _) (pyOr_misses (e3 _) (pyOr_misses (hr _ _) (hr _ _)))
    · exact .inr rfl
  have e7 : ∀ s, Misses (isIsoTimeP env sw P s) (isIsoTimeP env sw P' s) := by
    intro s
    refine pyOr_misses (hif _ _ _ (e3 _)) (pyOr_misses (e3 _) ?_)
    split
    · exact e6 _ _
    · exact hif _ _ _ (e6 _ _)
  have e8 : ∀ s, Misses (isDatetimeP env sw P s) (isDatetimeP env sw P' s) := by
    intro s
    unfold isDatetimeP
    split
    · exact .inr rfl
    · split
      · split
        · exact pyAnd_misses (e2 _) (e3 _)
        · exact .inr rfl
      · split
        · split
          · exact pyAnd_misses (e2 _) (e7 _)
          · exact .inr rfl
        · exact .inr rfl
  have e9 : ∀ s b, Misses (isUnicodeAlphanumP env sw P s b) (isUnicodeAlphanumP env sw P' s b) := by
    intro s b
    unfold isUnicodeAlphanumP
    split <;> exact hr _ _
  rw [detectTypeP, detectTypeP, hp P hP, hp P' hP']
  refine firstType_misses ?_
  unfold typeTestsP
  refine .cons ⟨rfl, .inr rfl⟩ (.cons ⟨rfl, hr _ _⟩ (.cons ⟨rfl, hr _ _⟩ (.cons ⟨rfl, hr _ _⟩ (.cons ⟨rfl, e1 _⟩
    (.cons ⟨rfl, e3 _⟩ (.cons ⟨rfl, e4 _⟩ (.cons ⟨rfl, e5 _⟩ (.cons ⟨rfl, hr _ _⟩ (.cons ⟨rfl, .inr rfl⟩ (.cons ⟨rfl, e2 _⟩
    (.cons ⟨rfl, e8 _⟩ (.cons ⟨rfl, e9 _ _⟩ (.cons ⟨rfl, .inr rfl⟩ (.cons ⟨rfl, .inr rfl⟩ .nil))))))))))))))

/-- **C106**, a pattern for currencies without a group: if no test in front of that for currencies succeeds and the
pattern matches, the exception is that of `m.group(1)`, or the one that `None` as a cell leads to. -/
theorem C106_group (env : PyEnv) (P : Patterns) (hP : P ≠ []) (p : Pat) (hp : dictGet "currency" P = some p) (cell : Str)
    (q sw : Bool) (m : PatMatch) (hm : p (maybeStrip env sw cell) = some m)
    (hb : ∀ t ∈ (typeTestsP env sw P).take 7, t.2 (maybeStrip env sw cell) q = .ok false) :
    (∀ e, m.group1 = .error e → detectTypeP env (some P) cell q sw = .error e) ∧
    (m.group1 = .ok none →
      detectTypeP env (some P) cell q sw = .error (if sw then .attributeError "strip" else .typeError "expected string or buffer")) := by
  have hpo : patternsOr env (some P) = P := by
    cases P with
    | nil => exact absurd rfl hP
    | cons a b => rfl
  have key : ∀ e, isCurrencyP env sw P (maybeStrip env sw cell) = .error e →
      detectTypeP env (some P) cell q sw = .error e := by
    intro e he
    rw [detectTypeP, hpo]
    simp only [typeTestsP, List.take_succ_cons, List.take_zero, List.mem_cons, List.not_mem_nil, or_false, forall_eq_or_imp, forall_eq] at hb
    obtain ⟨h1, h2, h3, h4, h5, h6, h7⟩ := hb
    simp only [typeTestsP, firstType, h1, h2, h3, h4, h5, h6, h7, he]
  constructor
  · intro e he
    exact key e (by simp only [isCurrencyP, hp, hm, he])
  · intro he
    refine key _ ?_
    have hn : ∃ n, dictGet "number_1" P = some n := by
      have hnum := hb ("number", fun c _ => isNumberP env sw P c) (by simp [typeTestsP])
      have hempty := hb ("empty", fun c _ => .ok (c = [])) (by simp [typeTestsP])
      simp only at hnum hempty
      cases hg : dictGet "number_1" P with
      | some n => exact ⟨n, rfl⟩
      | none =>
        rw [isNumberP, if_neg (by simpa using hempty)] at hnum
        simp [runPat, hg, pyOr] at hnum
    obtain ⟨n, hn⟩ := hn
    cases sw <;> simp [isCurrencyP, hp, hm, he, hn]

/-! Examples -/

/-- A dictionary with a single pattern raises for every cell that this pattern does not take. -/
example : let a : Pat := fun s => if s = ['u'] then some ⟨.ok none⟩ else none
    (∀ n p, dictGet n [("url", a)] = some p → dictGet n (("url", a) :: defaultPatterns asciiEnv) = some p) ∧
    detectTypeP asciiEnv (some [("url", a)]) ['u'] = .ok (some "url") ∧
    detectTypeP asciiEnv (some [("url", a)]) ['v'] = .error .assertionError ∧
    detectTypeP asciiEnv (some (("url", a) :: defaultPatterns asciiEnv)) ['v'] = .ok (some "unicode_alphanum") := by
  refine ⟨?_, by decide +kernel, by decide +kernel, by decide +kernel⟩
  intro n p h
  rw [dictGet] at h ⊢
  split at h
  · next hn => rw [if_pos hn]; exact h
  · simp [dictGet] at h

/-- A pattern whose group takes no part in the match. -/
example : detectTypeP asciiEnv (some (("currency", fun _ => some ⟨.ok none⟩) :: defaultPatterns asciiEnv))
    "?".toList = .error (.attributeError "strip") ∧
    ((typeTestsP asciiEnv true (("currency", fun _ => some ⟨.ok none⟩) :: defaultPatterns asciiEnv)).take 7).map
      (fun t => t.2 (maybeStrip asciiEnv true "?".toList) false) = List.replicate 7 (.ok false) := by decide +kernel

/-- The default patterns with another one for `url`. -/
def demoPatterns : Patterns :=
  ("url", fun s => if s = "here".toList then some ⟨.error .indexError⟩ else none) :: defaultPatterns asciiEnv

example : detectTypeP asciiEnv (some demoPatterns) " here ".toList = .ok (some "url") ∧
    detectTypeP asciiEnv (some demoPatterns) "www.a.com".toList ≠ .ok (some "url") ∧
    detectTypeP asciiEnv (some demoPatterns) "12".toList = .ok (some "number") := by decide +kernel

example : Complete demoPatterns := by
  refine ⟨?_, ?_⟩
  · intro n hn
    simp only [patternNames, List.mem_cons, List.not_mem_nil, or_false] at hn
    rcases hn with rfl | rfl | rfl | rfl | rfl | rfl | rfl | rfl | rfl | rfl | rfl | rfl | rfl | rfl | rfl | rfl | rfl <;>
      exact ⟨_, rfl⟩
  · intro p hp s m hm
    have hd : dictGet "currency" demoPatterns = some (.ofRe (reCurrency asciiEnv)) := rfl
    rw [hd] at hp
    obtain rfl := Option.some.inj hp
    simp only [Pat.ofRe, Option.map_eq_some_iff] at hm
    obtain ⟨m', h1, rfl⟩ := hm
    obtain ⟨g, hg⟩ := currency_has_group asciiEnv s m' h1
    exact ⟨g, by rw [hg]⟩

/-- A pattern without a group raises. -/
example : detectTypeP asciiEnv (some (("currency", fun _ => some ⟨.error .indexError⟩) :: defaultPatterns asciiEnv))
    "?".toList = .error .indexError := by decide +kernel

end Clever.Props
