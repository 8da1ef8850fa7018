import Verif.Proofs.JsonType

/-!
# Cells with JSON objects, and cells of any known type: C85, C86
-/

namespace Clever.Props

open Spec

/-! ## C85: JSON -/

/-- C85: `json.loads` accepts exactly the JSON texts, with the additional words `NaN`, `Infinity` and `-Infinity`, and
within the limits on the depth and on the digits of whole numbers. -/
theorem C85_loads (env : PyEnv) (s : Str) : jsonLoads env s = .ok () ↔
    ∃ a v b, IsJsonSpace a ∧ IsJson pythonWords env.maxStrDigits .value env.jsonDepth v ∧ IsJsonSpace b ∧
      s = a ++ (v ++ b) := jsonLoads_iff env s

/-- C85: a cell gets the type `json` exactly when it is such a text and begins with a brace. -/
theorem C85_json_type (env : PyEnv) (h : env.Ascii) (q sw : Bool) (cell : Str)
    (hn : detectType env cell q sw ≠ .ok (some "nan")) :
    detectType env cell q sw = .ok (some "json") ↔
      (maybeStrip env sw cell).head? = some '{' ∧
      IsJson pythonWords env.maxStrDigits .value env.jsonDepth (maybeStrip env sw cell) := json_type_iff h hn

/-- C85: for ASCII cells the same without the assumption. -/
theorem C85_json_type_ascii (env : PyEnv) (h : env.Ascii) (q sw : Bool) (cell : Str) (ha : ∀ c ∈ cell, c.toNat < 128) :
    detectType env cell q sw = .ok (some "json") ↔
      (maybeStrip env sw cell).head? = some '{' ∧
      IsJson pythonWords env.maxStrDigits .value env.jsonDepth (maybeStrip env sw cell) := by
  by_cases hn : detectType env cell q sw = .ok (some "nan")
  · constructor
    · intro h1
      rw [hn] at h1
      exact absurd h1 (by decide)
    · rintro ⟨h1, -⟩
      obtain ⟨f, h2, h3⟩ := type_sound hn
      simp [typeTests] at h2
      subst h2
      have h4 : isNan env (maybeStrip env sw cell) = true := by simpa using h3
      rw [isNan_iff h (fun c hc => ha c (mem_maybeStrip hc))] at h4
      exact absurd ((nan_chars h4).2 '{' (List.mem_of_head? h1)) (by decide)
  · exact json_type_iff h hn

/-- C85: a JSON object is never taken for something else: either it gets the type `json`, or an exception is raised
because of the limits. -/
theorem C85_object (env : PyEnv) (h : env.Ascii) (q sw : Bool) (cell : Str) (d : Nat)
    (hn : detectType env cell q sw ≠ .ok (some "nan")) (hb : (maybeStrip env sw cell).head? = some '{')
    (hj : IsJson jsonWords 0 .value d (maybeStrip env sw cell)) :
    detectType env cell q sw = .ok (some "json") ∨ (∃ m, detectType env cell q sw = .error (.valueError m)) ∨
      detectType env cell q sw = .error .recursionError := by
  have hj' : IsJson pythonWords 0 .value d (maybeStrip env sw cell) := json_words (by simp [pythonWords]) hj
  obtain ⟨t, ht⟩ := head_brace hb
  rw [detectType_chain, brace_tests h ht (maybeStrip_idem env sw cell)] at hn ⊢
  split at hn
  · exact absurd rfl hn
  · rename_i hf
    rw [if_neg hf]
    have he := object_ends (fun _ h => h) hj' hb
    unfold isJsonObj endsWith1
    rw [if_neg (by simp [hb, he])]
    rcases jsonLoads_limits (env := env) hj' with h1 | h1 | h1 <;> rw [h1]
    · exact Or.inl rfl
    · exact Or.inr (Or.inl ⟨_, rfl⟩)
    · exact Or.inr (Or.inr rfl)

/-- C85 is false: text with `NaN`, which is not a JSON text, gets the type `json`. -/
theorem C85_words_violated (env : PyEnv) (h : env.Ascii) (q sw : Bool) (hd : 1 ≤ env.jsonDepth) :
    detectType env "{\"a\":NaN}".toList q sw = .ok (some "json") ∧
    ∀ lim d, ¬ IsJson jsonWords lim .value d "{\"a\":NaN}".toList := by
  have hst : maybeStrip env sw "{\"a\":NaN}".toList = "{\"a\":NaN}".toList := by
    unfold maybeStrip
    split
    · apply strip_of_ends
      · intro c hc
        simp at hc; subst hc
        exact space_of h (by decide) (by decide)
      · intro c hc
        simp at hc; subst hc
        exact space_of h (by decide) (by decide)
    · rfl
  have hnan : isNan env "{\"a\":NaN}".toList = false := by
    rw [Bool.eq_false_iff]
    intro hc
    rw [isNan_iff h (by decide)] at hc
    exact absurd ((nan_chars hc).2 '{' (by decide)) (by decide)
  constructor
  · have ht : "{\"a\":NaN}".toList = '{' :: "\"a\":NaN}".toList := rfl
    rw [detectType_chain, hst, brace_tests h ht hst, hnan, if_neg (by simp)]
    have : isJsonObj env "{\"a\":NaN}".toList = .ok true := by
      rw [isJsonObj_iff]
      refine ⟨rfl, ?_⟩
      obtain ⟨n, hn⟩ : ∃ n, env.jsonDepth = n + 1 := ⟨env.jsonDepth - 1, by omega⟩
      rw [hn]
      exact .object (.member (a := []) (k := "\"a\"".toList) (b := []) (c := []) (v := "NaN".toList) (e := []) noSpace
        ⟨["a".toList], by simp [IsJsonChar], rfl⟩ noSpace noSpace (.word (by decide)) noSpace)
    rw [this]
    rfl
  · intro lim d hj
    generalize hs : "{\"a\":NaN}".toList = s at hj
    cases hj with
    | word hw => subst hs; revert hw; decide
    | number hn =>
      obtain ⟨g, n, f, e, hg, hn, -, -, -, rfl⟩ := hn
      obtain ⟨c, t, rfl, hc⟩ := isWhole_head hn
      rcases hg with rfl | rfl
      · simp at hs; rw [← hs.1] at hc; revert hc; decide
      · simp at hs
    | string hk =>
      obtain ⟨cs, -, rfl⟩ := hk
      simp at hs
    | emptyArray => simp at hs
    | array => simp at hs
    | @emptyObject d a ha =>
      have : '"' ∈ '{' :: (a ++ ['}']) := by rw [← hs]; decide
      simp at this
      rcases ha _ this with h2 | h2 | h2 | h2 <;> exact absurd h2 (by decide)
    | @object d t ht =>
      have : t = "\"a\":NaN".toList := by
        have e1 : '{' :: ("\"a\":NaN".toList ++ ['}']) = '{' :: (t ++ ['}']) := hs
        exact (List.append_cancel_right (List.cons.inj e1).2).symm
      exact json_not_N ht (by rw [this]; rfl)

/-- C85 as far as it holds: a JSON object within the limits gets the type `json`.  Missing: objects beyond the limits,
for which an exception is raised, and that nothing else gets this type. -/
theorem C85_object_partial (env : PyEnv) (h : env.Ascii) (q sw : Bool) (cell : Str)
    (hn : detectType env cell q sw ≠ .ok (some "nan")) (hb : (maybeStrip env sw cell).head? = some '{')
    (hj : IsJson jsonWords env.maxStrDigits .value env.jsonDepth (maybeStrip env sw cell)) :
    detectType env cell q sw = .ok (some "json") :=
  (json_type_iff h hn).2 ⟨hb, json_words (by simp [pythonWords]) hj⟩

example : IsJson jsonWords 0 .value 2 "{\"a\": [1, -2.5e3], \"b\\n\": {}}".toList := by
  refine .object (s := "\"a\": [1, -2.5e3], \"b\\n\": {}".toList) ?_
  refine .members (a := []) (k := "\"a\"".toList) (b := []) (c := [' ']) (v := "[1, -2.5e3]".toList) (e := [])
    (t := " \"b\\n\": {}".toList) noSpace ⟨["a".toList], by simp [IsJsonChar], rfl⟩ noSpace (by simp [IsJsonSpace]) ?_
    noSpace ?_
  · refine .array (s := "1, -2.5e3".toList) ?_
    refine .elements (a := []) (v := ['1']) (b := []) (t := " -2.5e3".toList) noSpace
      (.number ⟨[], ['1'], [], [], by simp, Or.inr ⟨1, [], by simp [AllIn, dg]⟩, by simp, by simp, by simp, rfl⟩) noSpace ?_
    refine .element (a := [' ']) (v := "-2.5e3".toList) (b := []) (by simp [IsJsonSpace]) (.number ?_) noSpace
    refine ⟨['-'], ['2'], ".5".toList, "e3".toList, by simp, Or.inr ⟨2, [], by simp [AllIn, dg]⟩,
      Or.inr ⟨['5'], by simp, ?_, rfl⟩, Or.inr ⟨'e', [], ['3'], by simp, Or.inl rfl, by simp, ?_, rfl⟩, by simp, rfl⟩
    · unfold AllIn; decide
    · unfold AllIn; decide
  · exact .member (a := [' ']) (k := "\"b\\n\"".toList) (b := []) (c := [' ']) (v := "{}".toList) (e := [])
      (by simp [IsJsonSpace]) ⟨["b".toList, "\\n".toList], by simp [IsJsonChar], rfl⟩ noSpace (by simp [IsJsonSpace])
      (.emptyObject (a := []) noSpace) noSpace

example : detectType asciiEnv "{\"a\": [1, -2.5e3], \"b\\n\": {}}".toList = .ok (some "json") := by decide +kernel

/-! ## C86: known types -/

/-- C86: an ASCII cell has a known type exactly when, without the white space around it, it is empty or one of the
described texts. -/
theorem C86_known (env : PyEnv) (h : env.Ascii) (hd : DecimalDigits env) (q sw : Bool) (cell : Str)
    (ha : ∀ c ∈ cell, c.toNat < 128) :
    let s := maybeStrip env sw cell
    isKnownType env cell q sw = .ok true ↔
      s = [] ∨ IsUrlText (wordChar env) env.decimal s ∨ IsEmailText s ∨ IsNumberText env.decimal s ∨ IsClock s ∨
      IsPercentText env.decimal (maybeStrip env sw) s ∨
      IsCurrencyText env.currency env.reSpace env.decimal (maybeStrip env sw) s ∨ IsPathText s ∨ IsNanText s ∨
      IsDateText env.decimal s ∨ IsDatetimeText (IsDateText env.decimal) (maybeStrip env sw) s ∨ IsWordText q s ∨
      IsBytearrayText s ∨
      (s.head? = some '{' ∧ IsJson pythonWords env.maxStrDigits .value env.jsonDepth s) := by
  intro s
  have hst : maybeStrip env sw s = s := maybeStrip_idem env sw cell
  have ha' : ∀ c ∈ s, c.toNat < 128 := fun c hc => ha c (mem_maybeStrip hc)
  have t1 := url_test env sw s
  have t2 := email_test env sw s
  have t3 := ipv4_test env sw s
  have t4 := isNumber_iff h sw s
  have t5 := isTime_iff h sw s
  have t6 := isPercentage_iff h sw s
  have t7 := isCurrency_iff h sw s
  have t8 := path_test env sw s
  have t9 := isNan_iff h ha'
  have t10 := isDate_iff h hd sw s
  have t11 := isDatetime_iff h hd sw hst
  have t12 := isUnicodeAlphanum_iff h sw q ha'
  rw [hst] at t1 t2 t3 t4 t5 t8 t10 t12
  have tb := isBytearray_iff s
  have tj := isJsonObj_iff (env := env) s
  rw [known_iff]
  change (∃ p ∈ pureTests env sw, p.2 s q = .ok true) ∨ isJsonObj env s = .ok true ↔ _
  have key : (∃ p ∈ pureTests env sw, p.2 s q = .ok true) ↔
      s = [] ∨ runRegex env sw (reUrl env) s = true ∨ runRegex env sw reEmail s = true ∨
      runRegex env sw (reIpv4 env) s = true ∨ isNumber env sw s = true ∨ isTime env sw s = true ∨
      isPercentage env sw s = true ∨ isCurrency env sw s = true ∨ runRegex env sw reUnixPath s = true ∨
      isNan env s = true ∨ isDate env sw s = true ∨ isDatetime env sw s = true ∨ isUnicodeAlphanum env sw s q = true ∨
      isBytearray s = true := by
    simp [pureTests, typeTests, List.dropLast]
  rw [key, t1, t2, t3, t4, t5, t6, t7, t8, t9, t10, t11, t12, tb, tj]
  constructor
  · rintro ((h | h | h | h | h | h | h | h | h | h | h | h | h | h) | h)
    · simp [h]
    · simp [h]
    · simp [h]
    · exact Or.inr (Or.inl (quad_url h))
    all_goals simp [h]
  · rintro (h | h | h | h | h | h | h | h | h | h | h | h | h | h) <;> simp [h]

/-- C86: quoting a cell does not make its type unknown. -/
theorem C86_quoted (env : PyEnv) (h : env.Ascii) (hd : DecimalDigits env) (sw : Bool) (cell : Str)
    (ha : ∀ c ∈ cell, c.toNat < 128) (hk : isKnownType env cell false sw = .ok true) :
    isKnownType env cell true sw = .ok true := by
  have hw : IsWordText false (maybeStrip env sw cell) → IsWordText true (maybeStrip env sw cell) := by
    rintro ⟨h1, h2⟩
    refine ⟨h1, fun c hc => ?_⟩
    rcases h2 c hc with h3 | h3 | h3
    · exact Or.inl h3
    · exact Or.inr (Or.inl h3)
    · exact absurd h3.1 (by decide)
  refine (C86_known env h hd true sw cell ha).2 ?_
  rcases (C86_known env h hd false sw cell ha).1 hk with h | h | h | h | h | h | h | h | h | h | h | h | h | h
  case inr.inr.inr.inr.inr.inr.inr.inr.inr.inr.inr.inl => simp [hw h]
  all_goals simp [h]

example : isKnownType asciiEnv "a,b".toList true = .ok true ∧ isKnownType asciiEnv "a,b".toList = .ok false := by
  decide +kernel

end Clever.Props
