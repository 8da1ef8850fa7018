import Verif.Model.Encodings
import Verif.Proofs.Potential
import Verif.Proofs.RegexChars

/-!
# C104: candidates for other encodings and with other lists of characters
-/

namespace Clever.Spec

/-- Every character of the text is encoded and decoded to itself. -/
def Keeps (codec : CharCodec) (s : Str) : Prop := ∀ c ∈ s, codec.recode c = .ok [c]

/-- The category of the character that is decoded is in a list. -/
def CategoryIn (env : PyEnv) (codec : CharCodec) (cats : List String) (c : Char) : Prop :=
  ∃ c', codec.recode c = .ok [c'] ∧ env.category c' ∈ cats

end Clever.Spec

namespace Clever.Props

open Clever Spec

theorem unicodeCategory_ok {env : PyEnv} {codec : CharCodec} {x : Char} {s : String} :
    unicodeCategory env codec x = .ok s ↔ ∃ c, codec.recode x = .ok [c] ∧ env.category c = s := by
  unfold unicodeCategory
  cases h : codec.recode x with
  | error e => simp [bind, Except.bind]
  | ok l =>
    match l with
    | [] => simp [bind, Except.bind]
    | [c] => simp [bind, Except.bind, pure, Except.pure]
    | _ :: _ :: _ => simp [bind, Except.bind]

theorem delimitersLoop_ok {env : PyEnv} {codec : CharCodec} {ds : Option (List Str)} {bc : List String} {bs : List Str}
    {l : List Char} {D : List Str} (h : delimitersLoop env codec ds bc bs l = .ok D) (x : Str) :
    x ∈ D ↔ ∃ c ∈ l, x = [c] ∧ ∃ s, unicodeCategory env codec c = .ok s ∧ allowsDelimiter ds bc bs c s = true := by
  induction l generalizing D with
  | nil =>
    simp only [delimitersLoop, Except.ok.injEq] at h
    subst h
    simp
  | cons a l ih =>
    simp only [delimitersLoop, bind, Except.bind] at h
    split at h
    · cases h
    · rename_i s hs
      split at h
      · cases h
      · rename_i D' hD
        simp only [pure, Except.pure, Except.ok.injEq] at h
        have := ih hD
        subst h
        split
        · rename_i ha
          simp only [List.mem_cons, this]
          constructor
          · rintro (rfl | ⟨c, hc, h'⟩)
            · exact ⟨a, .inl rfl, rfl, s, hs, ha⟩
            · exact ⟨c, .inr hc, h'⟩
          · rintro ⟨c, rfl | hc, h'⟩
            · exact .inl h'.1
            · exact .inr ⟨c, hc, h'⟩
        · rename_i ha
          simp only [List.mem_cons, this]
          constructor
          · rintro ⟨c, hc, h'⟩
            exact ⟨c, .inr hc, h'⟩
          · rintro ⟨c, rfl | hc, h1, s', hs', h2⟩
            · rw [hs] at hs'
              cases hs'
              exact absurd h2 ha
            · exact ⟨c, hc, h1, s', hs', h2⟩

theorem delimitersLoop_total {env : PyEnv} {codec : CharCodec} {ds : Option (List Str)} {bc : List String} {bs : List Str}
    {l : List Char} (h : ∀ c ∈ l, ∃ s, unicodeCategory env codec c = .ok s) :
    ∃ D, delimitersLoop env codec ds bc bs l = .ok D := by
  induction l with
  | nil => exact ⟨[], rfl⟩
  | cons a l ih =>
    obtain ⟨s, hs⟩ := h a (by simp)
    obtain ⟨D, hD⟩ := ih fun c hc => h c (by simp [hc])
    simp only [delimitersLoop, bind, Except.bind, hs, hD]
    exact ⟨_, rfl⟩

theorem delimitersLoop_error {env : PyEnv} {codec : CharCodec} {ds : Option (List Str)} {bc : List String} {bs : List Str}
    {l : List Char} {e : PyExc} (h : delimitersLoop env codec ds bc bs l = .error e) :
    ∃ c ∈ l, unicodeCategory env codec c = .error e := by
  induction l with
  | nil => simp [delimitersLoop] at h
  | cons a l ih =>
    simp only [delimitersLoop, bind, Except.bind] at h
    split at h
    · rename_i e' he
      simp only [Except.error.injEq] at h
      subst h
      exact ⟨a, by simp, he⟩
    · split at h
      · rename_i e' he
        simp only [Except.error.injEq] at h
        subst h
        obtain ⟨c, hc, h⟩ := ih he
        exact ⟨c, by simp [hc], h⟩
      · cases h

theorem delimitersLoop_all {env : PyEnv} {codec : CharCodec} {ds : Option (List Str)} {bc : List String} {bs : List Str}
    {l : List Char} {D : List Str} (h : delimitersLoop env codec ds bc bs l = .ok D) :
    ∀ c ∈ l, ∃ s, unicodeCategory env codec c = .ok s := by
  induction l generalizing D with
  | nil => simp
  | cons a l ih =>
    simp only [delimitersLoop, bind, Except.bind] at h
    split at h
    · cases h
    · rename_i s hs
      split at h
      · cases h
      · rename_i D' hD
        intro c hc
        rcases List.mem_cons.1 hc with rfl | hc
        · exact ⟨s, hs⟩
        · exact ih hD c hc

/-- **C104**, delimiters: with given lists of blocked categories and characters the delimiters are the empty string and
the characters of the text that are a tab, or neither blocked nor of a blocked category; with a list of delimiters they
are the characters in this list. -/
theorem C104_delimiters (env : PyEnv) (codec : CharCodec) (ord : SetOrder) (data : Str) (bc : List String) (bs : List Str)
    (D : List Str) :
    (getDelimitersIn env codec ord data none (some bc) (some bs) = .ok D →
      ∀ x, x ∈ D ↔ x = [] ∨ ∃ c ∈ data, x = [c] ∧ (c = '\t' ∨ ([c] ∉ bs ∧ ¬ CategoryIn env codec bc c))) ∧
    ∀ l, getDelimitersIn env codec ord data (some l) (some bc) (some bs) = .ok D →
      ∀ x, x ∈ D ↔ x = [] ∨ ∃ c ∈ data, x = [c] ∧ x ∈ l := by
  have key : ∀ ds, getDelimitersIn env codec ord data ds (some bc) (some bs) = .ok D → ∀ x, x ∈ D ↔
      x = [] ∨ ∃ c ∈ data, x = [c] ∧ ∃ s, unicodeCategory env codec c = .ok s ∧ allowsDelimiter ds bc bs c s = true := by
    intro ds h x
    simp only [getDelimitersIn, bind, Except.bind, Option.getD_some] at h
    split at h
    · cases h
    · rename_i D' hD
      simp only [pure, Except.pure, Except.ok.injEq] at h
      subst h
      simp only [List.mem_append, delimitersLoop_ok hD, ord.mem_chars, List.mem_singleton]
      exact Or.comm
  have tot : ∀ ds, getDelimitersIn env codec ord data ds (some bc) (some bs) = .ok D → ∀ c ∈ data,
      ∃ s, unicodeCategory env codec c = .ok s := by
    intro ds h c hc
    simp only [getDelimitersIn, bind, Except.bind, Option.getD_some] at h
    split at h
    · cases h
    · rename_i D' hD
      exact delimitersLoop_all hD c (ord.mem_chars.2 hc)
  constructor
  · intro h x
    rw [key none h]
    refine or_congr_right (exists_congr fun c => and_congr_right fun hc => and_congr_right fun _ => ?_)
    obtain ⟨s, hs⟩ := tot none h c hc
    obtain ⟨c', hr, hcat⟩ := unicodeCategory_ok.1 hs
    constructor
    · rintro ⟨s', hs', ha⟩
      rw [hs] at hs'
      cases hs'
      simp only [allowsDelimiter, Bool.or_eq_true, decide_eq_true_eq, Bool.and_eq_true, Bool.not_eq_true',
        List.contains_eq_mem, decide_eq_false_iff_not] at ha
      refine ha.imp id fun ha => ⟨ha.1, ?_⟩
      rintro ⟨c'', h1, h2⟩
      rw [hr] at h1
      cases h1
      exact ha.2 (hcat ▸ h2)
    · intro ha
      refine ⟨s, hs, ?_⟩
      simp only [allowsDelimiter, Bool.or_eq_true, decide_eq_true_eq, Bool.and_eq_true, Bool.not_eq_true',
        List.contains_eq_mem, decide_eq_false_iff_not]
      exact ha.imp id fun ha => ⟨ha.1, fun hm => ha.2 ⟨c', hr, hcat ▸ hm⟩⟩
  · intro l h x
    rw [key (some l) h]
    refine or_congr_right (exists_congr fun c => and_congr_right fun hc => and_congr_right fun hx => ?_)
    obtain ⟨s, hs⟩ := tot (some l) h c hc
    subst hx
    constructor
    · rintro ⟨s', -, ha⟩
      simpa [allowsDelimiter] using ha
    · intro ha
      exact ⟨s, hs, by simpa [allowsDelimiter] using ha⟩

/-- **C104**, failures: `get_delimiters` succeeds if and only if every character of the text is encoded and decoded to
one character; this is needed of all characters, even if a list of delimiters is given.  Otherwise it raises the exception of one of the characters. -/
theorem C104_delimiters_fail (env : PyEnv) (codec : CharCodec) (ord : SetOrder) (data : Str) (ds : Option (List Str))
    (bc : Option (List String)) (bs : Option (List Str)) :
    ((∃ D, getDelimitersIn env codec ord data ds bc bs = .ok D) ∧ ∀ c ∈ data, ∃ c', codec.recode c = .ok [c']) ∨
    ∃ c ∈ data, (∀ c', codec.recode c ≠ .ok [c']) ∧ ∃ e, getDelimitersIn env codec ord data ds bc bs = .error e ∧
      (codec.recode c = .error e ∨ ∃ m, e = .typeError m) := by
  by_cases h : ∀ c ∈ data, ∃ c', codec.recode c = .ok [c']
  · left
    refine ⟨?_, h⟩
    obtain ⟨D, hD⟩ := delimitersLoop_total (env := env) (ds := ds) (bc := bc.getD defaultBlockCat)
      (bs := bs.getD (defaultBlockChar.map fun x => [x])) (codec := codec) (l := ord.chars data) fun c hc => by
        obtain ⟨c', hc'⟩ := h c (ord.mem_chars.1 hc)
        exact ⟨_, unicodeCategory_ok.2 ⟨c', hc', rfl⟩⟩
    simp only [getDelimitersIn, bind, Except.bind, hD]
    exact ⟨_, rfl⟩
  · right
    cases hl : delimitersLoop env codec ds (bc.getD defaultBlockCat) (bs.getD (defaultBlockChar.map fun x => [x]))
        (ord.chars data) with
    | error e =>
      obtain ⟨c, hc, he⟩ := delimitersLoop_error hl
      refine ⟨c, ord.mem_chars.1 hc, ?_, e, ?_, ?_⟩
      · intro c' hc'
        rw [unicodeCategory_ok.2 ⟨c', hc', rfl⟩] at he
        cases he
      · simp only [getDelimitersIn, bind, Except.bind, hl]
      · unfold unicodeCategory at he
        cases hr : codec.recode c with
        | error e' =>
          rw [hr] at he
          simp only [bind, Except.bind, Except.error.injEq] at he
          exact .inl (by rw [he])
        | ok l =>
          rw [hr] at he
          simp only [bind, Except.bind] at he
          split at he
          · cases he
          · simp only [Except.error.injEq] at he
            exact .inr ⟨_, he.symm⟩
    | ok D =>
      exfalso
      apply h
      intro c hc
      obtain ⟨s, hs⟩ := delimitersLoop_all hl c (ord.mem_chars.2 hc)
      obtain ⟨c', hr, -⟩ := unicodeCategory_ok.1 hs
      exact ⟨c', hr⟩

/-- **C104**, escapechars: a character is a potential escapechar if what is decoded is a single character of the category
`Po` that is not blocked.  For UTF-8 and ASCII nothing is encoded, and nothing raises. -/
theorem C104_escapechar (env : PyEnv) (codec : CharCodec) (c : Char) (bs : List Str) :
    isPotentialEscapecharIn env codec c (some bs) = .ok true ↔
      ∃ u, (if codec.direct then u = c else codec.recode c = .ok [u]) ∧ env.category u = "Po" ∧ [u] ∉ bs := by
  unfold isPotentialEscapecharIn
  cases hd : codec.direct with
  | true => simp [bind, Except.bind, pure, Except.pure]
  | false =>
    cases hr : codec.recode c with
    | error e => simp [bind, Except.bind]
    | ok l =>
      match l with
      | [] => simp [bind, Except.bind, pure, Except.pure]
      | [x] => simp [bind, Except.bind, pure, Except.pure]
      | _ :: _ :: _ => simp [bind, Except.bind, pure, Except.pure]

/-- **C104**, quotechars: the empty string and the given characters that occur in the text, whatever the sizes of the
sets. -/
theorem C104_quotechars (ord : SetOrder) (data : Str) (qs : List Char) (x : Str) :
    x ∈ getQuotechars ord data qs ↔ x = [] ∨ ∃ c ∈ data, c ∈ qs ∧ x = [c] := mem_getQuotecharsOf

theorem isPotentialEscapecharIn_keep {env : PyEnv} {codec : CharCodec} {c : Char}
    (h : codec.direct = true ∨ codec.recode c = .ok [c]) :
    isPotentialEscapecharIn env codec c = .ok (isPotentialEscapechar env c) := by
  have hb : (escBlockChars.map fun x => [x]).contains [c] = escBlockChars.contains c := by
    simp [Bool.eq_iff_iff]
  unfold isPotentialEscapecharIn isPotentialEscapechar
  rcases h with h | h
  · simp only [h, if_true, bind, Except.bind, pure, Except.pure, Option.getD_none, hb]
  · cases codec.direct <;> simp only [h, if_true, bind, Except.bind, pure, Except.pure, Option.getD_none, hb] <;> rfl

theorem escapePairs_keep {env : PyEnv} {codec : CharCodec} {l : List (Char × Char)}
    (h : ∀ p ∈ l, codec.direct = true ∨ codec.recode p.1 = .ok [p.1]) :
    escapePairs env codec l = .ok (l.filter fun p => isPotentialEscapechar env p.1) := by
  induction l with
  | nil => rfl
  | cons p l ih =>
    simp only [escapePairs, bind, Except.bind, isPotentialEscapecharIn_keep (h p (by simp)),
      ih fun q hq => h q (by simp [hq]), pure, Except.pure]
    rw [List.filter_cons]

theorem delimitersLoop_keep {env : PyEnv} {codec : CharCodec} {ds : Option (List Str)} {l : List Char}
    (h : ∀ c ∈ l, codec.recode c = .ok [c]) :
    delimitersLoop env codec ds defaultBlockCat (defaultBlockChar.map fun x => [x]) l =
      .ok ((l.filter (isDelimiter env ds)).map fun x => [x]) := by
  induction l with
  | nil => rfl
  | cons c l ih =>
    have hu : unicodeCategory env codec c = .ok (env.category c) := unicodeCategory_ok.2 ⟨c, h c (by simp), rfl⟩
    have ha : allowsDelimiter ds defaultBlockCat (defaultBlockChar.map fun x => [x]) c (env.category c) =
        isDelimiter env ds c := by
      have hb : (defaultBlockChar.map fun x => [x]).contains [c] = defaultBlockChar.contains c := by
        simp [Bool.eq_iff_iff]
      cases ds with
      | none => simp only [allowsDelimiter, isDelimiter, hb]
      | some l => rfl
    simp only [delimitersLoop, bind, Except.bind, hu, ih fun x hx => h x (by simp [hx]), pure, Except.pure, ha]
    rw [List.filter_cons]
    split <;> simp_all

/-- **C104**, the same candidates: if the encoding keeps the characters of the text, then `get_dialects` gives the same
list as for UTF-8. -/
theorem C104_same (env : PyEnv) (codec : CharCodec) (ord : SetOrder) (data : Str) (ds : Option (List Str)) (masked : Bool)
    (h1 : Keeps codec (filterUrls env data)) (h2 : codec.direct = true ∨ Keeps codec data) :
    getDialectsIn env codec ord data ds masked = .ok (getDialects env ord data ds masked) := by
  have e1 : getDelimitersIn env codec ord (filterUrls env data) ds = .ok (getDelimiters env ord (filterUrls env data) ds) := by
    simp only [getDelimitersIn, Option.getD_none, bind, Except.bind,
      delimitersLoop_keep (env := env) (ds := ds) fun c hc => h1 c (ord.mem_chars.1 hc), pure, Except.pure]
    rfl
  have e2 : escapePairs env codec (pairwise data) =
      .ok ((pairwise data).filter fun p => isPotentialEscapechar env p.1) := by
    apply escapePairs_keep
    rintro ⟨a, b⟩ hp
    refine h2.imp id fun h2 => ?_
    obtain ⟨u, v, rfl⟩ := pairwise_mem.1 hp
    exact h2 a (by simp)
  simp only [getDialectsIn, e1, e2, bind, Except.bind, pure, Except.pure, getDialects, escapeInsertions,
    List.filter_filter, Bool.and_comm]

/-- **C104**, failures of `get_dialects`: a character outside of the URLs that cannot be encoded makes it raise. -/
theorem C104_fails (env : PyEnv) (codec : CharCodec) (ord : SetOrder) (data : Str) (ds : Option (List Str)) (masked : Bool)
    (c : Char) (hc : c ∈ filterUrls env data) (e : PyExc) (he : codec.recode c = .error e) :
    ∃ e', getDialectsIn env codec ord data ds masked = .error e' := by
  rcases C104_delimiters_fail env codec ord (filterUrls env data) ds none none with ⟨-, h⟩ | ⟨_, -, -, e', h, -⟩
  · obtain ⟨c', h⟩ := h c hc
    rw [he] at h
    cases h
  · exact ⟨e', by simp only [getDialectsIn, h, bind, Except.bind]⟩

/-! Examples -/

/-- `encoding="ascii"` -/
def asciiCodec : CharCodec := ⟨true, fun c => if c.toNat < 128 then .ok [c] else .error .unicodeError⟩

/-- `encoding="latin-1"` -/
def latinCodec : CharCodec := ⟨false, fun c => if c.toNat < 256 then .ok [c] else .error .unicodeError⟩

/-- An encoding that Python does not know. -/
def unknownCodec : CharCodec := ⟨false, fun _ => .error .lookupError⟩

example : getDialectsIn asciiEnv latinCodec .forward "a,\\,é".toList =
    .ok (getDialects asciiEnv .forward "a,\\,é".toList) := by
  refine C104_same _ _ _ _ _ _ ?_ (.inr ?_)
  · intro c hc
    have : filterUrls asciiEnv "a,\\,é".toList = "a,\\,é".toList := by decide +kernel
    rw [this] at hc
    revert c
    decide
  · intro c hc
    revert c
    decide

example : getDialectsIn asciiEnv asciiCodec .forward "a,é".toList (some [[',']]) = .error .unicodeError := by
  decide +kernel

/-- In a URL the character does no harm in ASCII, but it does in encodings that are looked up for the escapechar. -/
example : (getDialectsIn asciiEnv asciiCodec .forward "a,http://a.com/é,b".toList).toOption.isSome ∧
    getDialectsIn asciiEnv latinCodec .forward "a,http://a.com/€,b".toList = .error .unicodeError := by
  decide +kernel

example : getDialectsIn asciiEnv unknownCodec .forward [] = .ok [mkDialect [] [] []] ∧
    getDialectsIn asciiEnv unknownCodec .forward ['a'] = .error .lookupError := by decide +kernel

example : getDelimitersIn asciiEnv latinCodec .forward "a,;\t.".toList none (some ["Cc", "Ll"]) (some [[',']]) =
    .ok [[';'], ['\t'], ['.'], []] := by decide +kernel

example : isPotentialEscapecharIn asciiEnv latinCodec '\\' = .ok true ∧
    isPotentialEscapecharIn asciiEnv latinCodec '\\' (some [['\\']]) = .ok false ∧
    isPotentialEscapecharIn asciiEnv latinCodec '€' = .error .unicodeError := by decide +kernel

/-- With few characters in the text the other set is gone through. -/
example : getQuotechars .forward "~'a".toList = [['~'], ['\''], []] ∧
    getQuotechars .forward "~'abcd".toList = [['\''], ['~'], []] := by decide +kernel

end Clever.Props
