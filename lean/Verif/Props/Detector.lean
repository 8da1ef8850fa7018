import Verif.Proofs.NormalForm
import Verif.Props.Detection
import Verif.Model.Detect

/-!
# The detector: C37 - C41 and C43
-/

namespace Clever.Props

open Clever

/-- Detection by the consistency measure, or a normal form. -/
theorem detect_cases (env : PyEnv) (ord : SetOrder) (limit : Int) (sample : Str)
    (delimiters : Option (List Str)) (method : DetectionMethod) (skip : Bool) :
    (method ≠ .consistency ∧ ∃ d, detectDialectNormal env sample delimiters = some d ∧
      detect env ord limit sample delimiters method skip = ⟨.ok (some d), some .normal, limit⟩) ∨
    ((method = .consistency ∨ detectDialectNormal env sample delimiters = none) ∧
      ∃ cap, detect env ord limit sample delimiters method skip =
        ⟨(consistencyDetect env ord cap skip limit sample delimiters).1, some .consistency,
          (consistencyDetect env ord cap skip limit sample delimiters).2⟩) := by
  cases method with
  | consistency => exact .inr ⟨.inl rfl, _, rfl⟩
  | auto =>
    cases h : detectDialectNormal env sample delimiters with
    | none =>
      refine .inr ⟨.inr rfl, some 100000, ?_⟩
      unfold detect
      rw [h]
      rfl
    | some d =>
      refine .inl ⟨by simp, d, rfl, ?_⟩
      unfold detect
      rw [h]
      rfl
  | normal =>
    cases h : detectDialectNormal env sample delimiters with
    | none =>
      refine .inr ⟨.inr rfl, some 100000, ?_⟩
      unfold detect
      rw [h]
      rfl
    | some d =>
      refine .inl ⟨by simp, d, rfl, ?_⟩
      unfold detect
      rw [h]
      rfl

theorem consistencyDetect_limit (env : PyEnv) (ord : SetOrder) (cap : Option Nat) (skip : Bool) (limit : Int)
    (data : Str) (delimiters : Option (List Str)) :
    ((∃ r, (consistencyDetect env ord cap skip limit data delimiters).1 = .ok r) ∧
      (consistencyDetect env ord cap skip limit data delimiters).2 = limit) ∨
    ((∃ e, (consistencyDetect env ord cap skip limit data delimiters).1 = .error e) ∧
      (consistencyDetect env ord cap skip limit data delimiters).2 = (data.length : Int) + 1) := by
  unfold consistencyDetect
  simp only
  split
  · exact .inr ⟨⟨_, rfl⟩, rfl⟩
  · split
    · exact .inl ⟨⟨_, rfl⟩, rfl⟩
    · split
      · exact .inr ⟨⟨_, rfl⟩, rfl⟩
      · exact .inl ⟨⟨_, rfl⟩, rfl⟩

/-! ## C37

Full statement: `(detect env ord limit sample delimiters method skip).limit = limit`.  It fails when
detection raises, because `field_size_limit(old_limit)` is not in a `finally` clause. -/

/-- **C37**, missing: the case in which detection raises.  If detection returns (a dialect or `None`)
the field size limit is what it was. -/
theorem C37_restored_partial (env : PyEnv) (ord : SetOrder) (limit : Int) (sample : Str)
    (delimiters : Option (List Str)) (method : DetectionMethod) (skip : Bool) (r : Option SimpleDialect)
    (h : (detect env ord limit sample delimiters method skip).result = .ok r) :
    (detect env ord limit sample delimiters method skip).limit = limit := by
  rcases detect_cases env ord limit sample delimiters method skip with ⟨-, d, -, he⟩ | ⟨-, cap, he⟩
  · rw [he]
  · rw [he] at h ⊢
    rcases consistencyDetect_limit env ord cap skip limit sample delimiters with ⟨-, h2⟩ | ⟨⟨e, h1⟩, -⟩
    · exact h2
    · simp only [h1] at h; simp at h

example : (detect asciiEnv .forward 7 "a b,c\nd e,f".toList).limit = 7 := by decide +kernel

/-- What happens otherwise: if detection raises, the limit is the length of the sample plus one. -/
theorem C37_on_error_partial (env : PyEnv) (ord : SetOrder) (limit : Int) (sample : Str)
    (delimiters : Option (List Str)) (method : DetectionMethod) (skip : Bool) (e : PyExc)
    (h : (detect env ord limit sample delimiters method skip).result = .error e) :
    (detect env ord limit sample delimiters method skip).limit = (sample.length : Int) + 1 := by
  rcases detect_cases env ord limit sample delimiters method skip with ⟨-, d, -, he⟩ | ⟨-, cap, he⟩
  · rw [he] at h; simp at h
  · rw [he] at h ⊢
    rcases consistencyDetect_limit env ord cap skip limit sample delimiters with ⟨⟨r, h1⟩, -⟩ | ⟨-, h2⟩
    · simp only [h1] at h; simp at h
    · exact h2

theorem deepText_chars (env : PyEnv) :
    ∀ c ∈ bombKey (List.replicate (env.jsonDepth + 1) '['), BraceChar c := by
  intro c hc
  simp only [bombKey, List.mem_cons, List.mem_replicate] at hc
  rcases hc with rfl | rfl | rfl | ⟨-, rfl⟩ <;> unfold BraceChar <;> decide

theorem longIntText_chars (env : PyEnv) :
    ∀ c ∈ bombKey (List.replicate (env.maxStrDigits + 1) '1'), BraceChar c := by
  intro c hc
  simp only [bombKey, List.mem_cons, List.mem_replicate] at hc
  rcases hc with rfl | rfl | rfl | ⟨-, rfl⟩ <;> unfold BraceChar <;> decide

/-- Detection on `{"":[[[...[}` (more brackets than the recursion limit allows): `RecursionError`, and
the field size limit is not restored. -/
theorem detect_deep {env : PyEnv} (h : env.Ascii) (hd : env.jsonDepth < 1000000000) (ord : SetOrder)
    (limit : Int) (method : DetectionMethod) (skip : Bool) :
    detect env ord limit (deepText env) none method skip =
      ⟨.error .recursionError, some .consistency, (env.jsonDepth : Int) + 7⟩ := by
  have hl : (bombKey (List.replicate (env.jsonDepth + 1) '[')).length = env.jsonDepth + 4 := by
    simp [bombKey]
  have := detect_brace h ord limit _ (deepText_chars env) (by rw [hl]; unfold InLong; omega) _
    (isJsonObj_deep env) method skip
  unfold deepText
  rw [this, hl]
  congr 1

/-- Detection on `{"":111...1}` (more digits than `int` accepts): `ValueError`. -/
theorem detect_longInt {env : PyEnv} (h : env.Ascii) (h0 : 0 < env.jsonDepth) (hm : env.maxStrDigits ≠ 0)
    (hd : env.maxStrDigits < 1000000000) (ord : SetOrder) (limit : Int) (method : DetectionMethod)
    (skip : Bool) :
    detect env ord limit (longIntText env) none method skip =
      ⟨.error (.valueError "Exceeds the limit for integer string conversion"), some .consistency,
        (env.maxStrDigits : Int) + 7⟩ := by
  have hl : (bombKey (List.replicate (env.maxStrDigits + 1) '1')).length = env.maxStrDigits + 4 := by
    simp [bombKey]
  have := detect_brace h ord limit _ (longIntText_chars env) (by rw [hl]; unfold InLong; omega) _
    (isJsonObj_longInt env h0 hm) method skip
  unfold longIntText
  rw [this, hl]
  congr 1

/-- **C37 is violated**: for the tables of the examples (and, by `detect_deep`, for all tables that
agree with ASCII) there is a NUL-free text on which detection changes the field size limit, whatever
the method and the prior limit (but one). -/
theorem C37_violated : ∃ sample : Str, NUL ∉ sample ∧
    ∀ (ord : SetOrder) (limit : Int) (method : DetectionMethod) (skip : Bool), limit ≠ 997 →
      (detect asciiEnv ord limit sample none method skip).limit ≠ limit := by
  refine ⟨deepText asciiEnv, ?_, fun ord limit method skip hne => ?_⟩
  · intro h
    have : NUL ∈ bombKey (List.replicate (asciiEnv.jsonDepth + 1) '[') := by
      unfold deepText at h
      simp only [List.cons_append, List.mem_cons, List.mem_append, List.not_mem_nil, or_false] at h
      rcases h with h | h | h
      · exact absurd h (by decide)
      · exact h
      · exact absurd h (by decide)
    exact (deepText_chars _ _ this).2.1 rfl
  · rw [detect_deep asciiEnv_ascii (by decide)]
    exact fun h => hne h.symm

/-! ## C38

Full statement: for a NUL-free sample whose length fits a C `long`,
`∃ r, (detect env ord limit sample delimiters method skip).result = .ok r`.  It fails for texts with
cells that look like JSON objects. -/

/-- **C38**, missing: `ValueError` and `RecursionError` are possible.  For NUL-free texts there are no
parse errors (nor other exceptions than those two), whatever the field size limit. -/
theorem C38_no_parse_error_partial (env : PyEnv) (ord : SetOrder) (limit : Int) (sample : Str)
    (delimiters : Option (List Str)) (method : DetectionMethod) (skip : Bool)
    (hl : InLong (sample.length + 1)) (hnul : NUL ∉ sample) :
    (∃ r, (detect env ord limit sample delimiters method skip).result = .ok r) ∨
    (∃ m, (detect env ord limit sample delimiters method skip).result = .error (.valueError m)) ∨
    (detect env ord limit sample delimiters method skip).result = .error .recursionError := by
  rcases detect_cases env ord limit sample delimiters method skip with ⟨-, d, -, he⟩ | ⟨-, cap, he⟩
  · exact .inl ⟨_, by rw [he]⟩
  · rw [he]
    simp only
    rcases hc : consistencyDetect env ord cap skip limit sample delimiters with ⟨r, l⟩
    cases r with
    | ok r => exact .inl ⟨r, rfl⟩
    | error x =>
      obtain ⟨-, dia, -, row, -, c, -, hk⟩ := consistencyDetect_error hl hnul hc
      rcases (isKnownType_error hk).1 with ⟨m, rfl⟩ | rfl
      · exact .inr (.inl ⟨m, rfl⟩)
      · exact .inr (.inr rfl)

/-- A text without `{` is handled without exception. -/
theorem C38_no_brace_partial (env : PyEnv) (ord : SetOrder) (limit : Int) (sample : Str)
    (delimiters : Option (List Str)) (method : DetectionMethod) (skip : Bool)
    (hl : InLong (sample.length + 1)) (hnul : NUL ∉ sample) (hb : '{' ∉ sample ∨ '}' ∉ sample) :
    ∃ r, (detect env ord limit sample delimiters method skip).result = .ok r := by
  rcases detect_cases env ord limit sample delimiters method skip with ⟨-, d, -, he⟩ | ⟨-, cap, he⟩
  · exact ⟨_, by rw [he]⟩
  · rw [he]
    simp only
    rcases hc : consistencyDetect env ord cap skip limit sample delimiters with ⟨r, l⟩
    cases r with
    | ok r => exact ⟨r, rfl⟩
    | error x =>
      obtain ⟨-, dia, -, row, hrow, c, hcm, hk⟩ := consistencyDetect_error hl hnul hc
      obtain ⟨h1, h2⟩ := isJsonObj_error_head (isKnownType_error hk).2
      have m1 := mem_strip (List.mem_of_mem_head? h1)
      have m2 := mem_strip (List.mem_of_getLast? h2)
      have k1 := parseStringQuoted_chars _ _ _ row hrow c hcm _ m1
      have k2 := parseStringQuoted_chars _ _ _ row hrow c hcm _ m2
      rcases hb with hb | hb
      · rcases k1 with k1 | k1
        · exact absurd k1 hb
        · exact absurd k1 (by decide)
      · rcases k2 with k2 | k2
        · exact absurd k2 hb
        · exact absurd k2 (by decide)

/-- The exact reason of an exception: for some candidate dialect a cell of the sample is, without
surrounding whitespace, a text in braces for which `json.loads` raises something else than
`JSONDecodeError`. -/
theorem C38_cause_partial (env : PyEnv) (ord : SetOrder) (limit : Int) (sample : Str)
    (delimiters : Option (List Str)) (method : DetectionMethod) (skip : Bool) (x : PyExc)
    (hl : InLong (sample.length + 1)) (hnul : NUL ∉ sample)
    (h : (detect env ord limit sample delimiters method skip).result = .error x) :
    ∃ d ∈ getDialects env ord sample delimiters,
      ∃ row ∈ (parseStringQuoted (sample.length + 1) d sample).1, ∃ c ∈ row,
        isJsonObj env (env.strip c.1) = .error x := by
  rcases detect_cases env ord limit sample delimiters method skip with ⟨-, d, -, he⟩ | ⟨-, cap, he⟩
  · rw [he] at h; simp at h
  · rw [he] at h
    simp only at h
    rcases hc : consistencyDetect env ord cap skip limit sample delimiters with ⟨r, l⟩
    rw [hc] at h
    simp only at h
    subst h
    obtain ⟨-, dia, hd, row, hrow, c, hcm, hk⟩ := consistencyDetect_error hl hnul hc
    exact ⟨dia, hd, row, hrow, c, hcm, (isKnownType_error hk).2⟩

example : (detect asciiEnv .forward 1 "{a};b\n{b};c".toList).result =
    .ok (some (mkDialect [';'] [] [])) := by
  decide +kernel

/-- **C38 is violated**: there are NUL-free texts on which detection raises `RecursionError`, and others
on which it raises `ValueError`, with every method. -/
theorem C38_violated (ord : SetOrder) (limit : Int) (method : DetectionMethod) (skip : Bool) :
    (detect asciiEnv ord limit (deepText asciiEnv) none method skip).result = .error .recursionError ∧
    (detect asciiEnv ord limit (longIntText asciiEnv) none method skip).result =
      .error (.valueError "Exceeds the limit for integer string conversion") := by
  rw [detect_deep asciiEnv_ascii (by decide),
    detect_longInt asciiEnv_ascii (by decide) (by decide) (by decide)]
  exact ⟨rfl, rfl⟩

/-! ## C39 and C40 -/

/-- **C39**: if delimiters are requested, the detected delimiter is one of them or empty. -/
theorem C39_requested_delimiters (env : PyEnv) (ord : SetOrder) (limit : Int) (sample : Str)
    (delimiters : List Str) (method : DetectionMethod) (skip : Bool) (d : SimpleDialect)
    (h : (detect env ord limit sample (some delimiters) method skip).result = .ok (some d)) :
    d.delimiter = some [] ∨ ∃ x ∈ delimiters, d.delimiter = some x := by
  rcases detect_cases env ord limit sample (some delimiters) method skip with ⟨-, x, hn, he⟩ | ⟨-, cap, he⟩
  · rw [he] at h
    simp only [Except.ok.injEq, Option.some.injEq] at h
    subst h
    obtain ⟨d, q, rfl, hd, -⟩ := normal_mem hn
    rcases hd with rfl | hd
    · exact .inl rfl
    · exact .inr ⟨d, hd, rfl⟩
  · rw [he] at h
    obtain ⟨hm, -⟩ := C34_detected_is_best _ _ _ _ _ _ _ _ h
    obtain ⟨d, q, e, rfl, hd, -⟩ := mem_getDialects.mp hm
    rcases mem_getDelimiters.mp hd with rfl | ⟨c, -, hc, rfl⟩
    · exact .inl rfl
    · exact .inr ⟨[c], by simpa [isDelimiter] using hc, rfl⟩

/-- Only `;` is requested; both a normal form and the consistency measure would prefer `,`. -/
example : (detect asciiEnv .forward 10 "a,b;c\nd,e;f".toList (some [[';']]) .consistency).result =
    .ok (some (mkDialect [';'] [] [])) := by decide +kernel

/-- **C40**: a detected dialect is valid, if the requested delimiters (if any) have at most one
character. -/
theorem C40_valid (env : PyEnv) (ord : SetOrder) (limit : Int) (sample : Str)
    (delimiters : Option (List Str)) (method : DetectionMethod) (skip : Bool) (d : SimpleDialect)
    (hds : ∀ l, delimiters = some l → ∀ x ∈ l, x.length ≤ 1)
    (h : (detect env ord limit sample delimiters method skip).result = .ok (some d)) :
    d.validate = .ok () ∧ ∃ D Q E, d = ⟨some D, some Q, some E, false⟩ := by
  rcases detect_cases env ord limit sample delimiters method skip with ⟨-, x, hn, he⟩ | ⟨-, cap, he⟩
  · rw [he] at h
    simp only [Except.ok.injEq, Option.some.injEq] at h
    subst h
    obtain ⟨d, q, rfl, hd, hq⟩ := normal_mem hn
    refine ⟨?_, d, q, [], rfl⟩
    have h1 : d.length ≤ 1 := by
      rcases hd with rfl | hd
      · simp
      · cases delimiters with
        | none =>
          simp only [Option.getD_none, nfDelims, List.mem_cons, List.not_mem_nil, or_false] at hd
          rcases hd with rfl | rfl | rfl | rfl <;> simp
        | some l => exact hds l rfl d hd
    have h2 : q.length ≤ 1 := by rcases hq with rfl | rfl | rfl <;> simp
    simp [SimpleDialect.validate, validPart, mkDialect, h1, h2]
  · rw [he] at h
    obtain ⟨hm, -⟩ := C34_detected_is_best _ _ _ _ _ _ _ _ h
    obtain ⟨D, Q, E, rfl⟩ := getDialects_dialectOf hm
    refine ⟨?_, _, _, _, rfl⟩
    have : ∀ o : Option Char, validPart (some o.toList) = true := by
      intro o; cases o <;> simp [validPart]
    simp only [dialectOf, SimpleDialect.validate, this]
    simp

/-- The hypothesis is needed: normal forms accept delimiters of several characters. -/
example : (detect asciiEnv .forward 10 "a--b\nc--d".toList (some [['-', '-']])).result =
    .ok (some ⟨some ['-', '-'], some [], some [], false⟩) := by decide +kernel

example : ∃ d, (detect asciiEnv .forward 10 "'a' 'b'\n'c' 'd'\n".toList none).result = .ok (some d) ∧
    d.validate = .ok () := ⟨mkDialect [' '] ['\''] [], by decide +kernel⟩

/-! ## C41 -/

/-- **C41**, missing: `method="normal"` (see `C41_violated`).  With `method="consistency"` a detected
dialect is one of the candidates with the best consistency score, and `method_` says so. -/
theorem C41_consistency_partial (env : PyEnv) (ord : SetOrder) (limit : Int) (sample : Str)
    (delimiters : Option (List Str)) (skip : Bool) :
    (detect env ord limit sample delimiters .consistency skip).method_ = some .consistency ∧
    ∀ d, (detect env ord limit sample delimiters .consistency skip).result = .ok (some d) →
      Spec.IsBest env ord sample delimiters d :=
  ⟨rfl, fun d h => C34_detected_is_best env ord _ skip limit sample delimiters d h⟩

/-- With `method="auto"`: the normal form if there is one, otherwise what `method="consistency"`
gives. -/
theorem C41_auto_partial (env : PyEnv) (ord : SetOrder) (limit : Int) (sample : Str)
    (delimiters : Option (List Str)) (skip : Bool) :
    (∀ d, detectDialectNormal env sample delimiters = some d →
      (detect env ord limit sample delimiters .auto skip).result = .ok (some d) ∧
      (detect env ord limit sample delimiters .auto skip).method_ = some .normal) ∧
    (detectDialectNormal env sample delimiters = none →
      detect env ord limit sample delimiters .auto skip =
        detect env ord limit sample delimiters .consistency skip) := by
  constructor
  · intro d hd
    unfold detect
    rw [hd]
    exact ⟨rfl, rfl⟩
  · intro hd
    unfold detect
    rw [hd]
    rfl

/-- The attribute `method_` tells which method produced the result. -/
theorem C41_attribute_partial (env : PyEnv) (ord : SetOrder) (limit : Int) (sample : Str)
    (delimiters : Option (List Str)) (method : DetectionMethod) (skip : Bool) (d : SimpleDialect)
    (h : (detect env ord limit sample delimiters method skip).result = .ok (some d)) :
    ((detect env ord limit sample delimiters method skip).method_ = some .normal ∧
      detectDialectNormal env sample delimiters = some d) ∨
    ((detect env ord limit sample delimiters method skip).method_ = some .consistency ∧
      Spec.IsBest env ord sample delimiters d) := by
  rcases detect_cases env ord limit sample delimiters method skip with ⟨-, x, hn, he⟩ | ⟨-, cap, he⟩
  · rw [he] at h ⊢
    simp only [Except.ok.injEq, Option.some.injEq] at h
    subst h
    exact .inl ⟨rfl, hn⟩
  · rw [he] at h ⊢
    exact .inr ⟨rfl, C34_detected_is_best _ _ _ _ _ _ _ _ h⟩

/-- The methods `normal` and `auto` do the same. -/
theorem C41_normal_is_auto_partial (env : PyEnv) (ord : SetOrder) (limit : Int) (sample : Str)
    (delimiters : Option (List Str)) (skip : Bool) :
    detect env ord limit sample delimiters .normal skip =
      detect env ord limit sample delimiters .auto skip := rfl

/-- Method names other than the three raise `ValueError`. -/
theorem C41_names_partial (env : PyEnv) (ord : SetOrder) (limit : Int) (sample : Str)
    (delimiters : Option (List Str)) (method : Str) (skip : Bool)
    (h : method ≠ "auto".toList ∧ method ≠ "normal".toList ∧ method ≠ "consistency".toList) :
    (∃ m, (detectStr env ord limit sample delimiters method skip).result = .error (.valueError m)) ∧
    (detectStr env ord limit sample delimiters method skip).limit = limit := by
  unfold detectStr DetectionMethod.ofString
  rw [if_neg h.1, if_neg h.2.1, if_neg h.2.2]
  exact ⟨⟨_, rfl⟩, rfl⟩

example : (detect asciiEnv .forward 10 "a,b\nc,d".toList none .auto).method_ = some .normal ∧
    (detect asciiEnv .forward 10 "a,b\nc,d".toList none .consistency).method_ = some .consistency ∧
    (detect asciiEnv .forward 10 "a,b\nc".toList none .auto).method_ = some .consistency := by
  decide +kernel

/-- **C41 is violated**: with `method="normal"` a text without normal form is passed to the consistency
measure. -/
theorem C41_violated : ∃ sample : Str, detectDialectNormal asciiEnv sample none = none ∧
    (detect asciiEnv .forward 10 sample none .normal true).result = .ok (some (mkDialect [] [] [])) ∧
    (detect asciiEnv .forward 10 sample none .normal true).method_ = some .consistency :=
  ⟨"x".toList, by decide +kernel⟩

/-! ## C43 -/

/-- **C43**: normal-form detection never returns a dialect with an escapechar. -/
theorem C43_no_escapechar (env : PyEnv) (sample : Str) (delimiters : Option (List Str)) (d : SimpleDialect)
    (h : detectDialectNormal env sample delimiters = some d) : d.escapechar = some [] := by
  obtain ⟨D, Q, rfl, -⟩ := normal_mem h
  rfl

/-- **C43**: if a potential escape character (general category `Po`, not a blocked character) comes
immediately before one of the delimiters or a quote character, there is no normal form. -/
theorem C43_escape_excludes (env : PyEnv) (henv : env.Ascii) (u v : Str) (c n : Char)
    (delimiters : Option (List Str)) (hcat : env.category c = "Po")
    (hblock : c ∉ ['!', '?', '"', '\'', '.', ',', ';', ':', '%', '*', '&', '#'])
    (hn : [n] ∈ delimiters.getD [[','], [';'], ['|'], ['\t']] ∨ n = '"' ∨ n = '\'') :
    detectDialectNormal env (u ++ c :: n :: v) delimiters = none := by
  have hp : isPotentialEscapechar env c = true := by
    simp only [isPotentialEscapechar, hcat, escBlockChars, List.contains_eq_mem]
    simp only [decide_true, Bool.true_and, Bool.not_eq_true', decide_eq_false_iff_not]
    exact hblock
  have hpair : (c, n) ∈ pairwise (u ++ c :: n :: v) := pairwise_mem.mpr ⟨u, v, rfl⟩
  have hinf : isInfixOf [n] (u ++ c :: n :: v) = true := isInfixOf_of_mem (by simp)
  have hq : ∀ d q, [n] = d ∨ [n] = q → maybeHasEscapechar env (u ++ c :: n :: v) d q = true := by
    intro d q h
    unfold maybeHasEscapechar
    rw [if_neg (by rcases h with rfl | rfl <;> simp [hinf])]
    rw [List.any_eq_true]
    exact ⟨(c, n), hpair, by rcases h with rfl | rfl <;> simp [hp]⟩
  unfold detectDialectNormal
  simp only
  change [n] ∈ delimiters.getD nfDelims ∨ n = '"' ∨ n = '\'' at hn
  generalize delimiters.getD nfDelims = ds at hn
  cases ds with
  | cons d ds =>
    rw [if_pos]
    simp only [List.any_eq_true]
    rcases hn with hn | rfl | rfl
    · exact ⟨[n], hn, ['"'], by simp [nfQuotechars], hq _ _ (.inl rfl)⟩
    · exact ⟨d, by simp, ['"'], by simp [nfQuotechars], hq _ _ (.inr rfl)⟩
    · exact ⟨d, by simp, ['\''], by simp [nfQuotechars], hq _ _ (.inr rfl)⟩
  | nil =>
    split
    · rfl
    obtain ⟨f1, f2, f3, f4, f5, f6⟩ := form4Char_category henv hp
    obtain ⟨r, hr, hm⟩ := splitFile_mem f3 f4 (show c ∈ u ++ c :: n :: v by simp)
    have hform : ∀ q : Str, q = [] ∨ q = ['\''] ∨ q = ['"'] →
        isForm4 (splitFile (u ++ c :: n :: v)) q = false := by
      intro q hq
      cases hf : isForm4 (splitFile (u ++ c :: n :: v)) q with
      | false => rfl
      | true =>
        exfalso
        simp only [isForm4, Bool.and_eq_true, List.all_eq_true] at hf
        have := hf.2 r hr
        split at this
        · simp only [Bool.and_eq_true, List.all_eq_true] at this
          have := this.2 c hm
          rw [f1] at this
          simp at this
        · rename_i hne
          simp only [Bool.and_eq_true, List.all_eq_true, isQuotedCell, decide_eq_true_eq] at this
          obtain ⟨⟨⟨hl, hh⟩, hg⟩, hin⟩ := this
          have hcq : [c] ≠ q := by
            rcases hq with rfl | rfl | rfl
            · simp
            · simpa using f6
            · simpa using f5
          have hci : c ∈ inner r := by
            match r, hl with
            | a :: b :: r, _ =>
              simp only [List.head?_cons, Option.map_some, Option.some.injEq] at hh
              simp only [inner, List.drop_succ_cons, List.drop_zero]
              have h1 : c ≠ a := by rintro rfl; exact hcq hh
              have hm' : c ∈ b :: r := by
                rcases List.mem_cons.mp hm with h | h
                · exact absurd h h1
                · exact h
              rw [List.getLast?_cons_cons, List.getLast?_eq_some_getLast (by simp)] at hg
              simp only [Option.map_some, Option.some.injEq] at hg
              rw [← List.dropLast_append_getLast (l := b :: r) (by simp)] at hm'
              rcases List.mem_append.mp hm' with h | h
              · exact h
              · simp only [List.mem_singleton] at h
                exact absurd (by rw [h]; exact hg) hcq
          have := hin c hci
          rw [f1] at this
          simp [f2] at this
    simp [formTests, nfQuotechars, hform]

example : detectDialectNormal asciiEnv "a,b\nc/,d".toList none = none ∧
    detectDialectNormal asciiEnv "a,b\nc/e,d".toList none = some (mkDialect [','] [] []) := by
  decide +kernel

end Clever.Props
