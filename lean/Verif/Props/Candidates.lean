import Verif.Proofs.Potential
import Verif.Proofs.Masked
import Verif.Proofs.RegexChars

/-!
# Candidate dialects: C30 and C31
-/

namespace Clever.Spec

/-- A character that may be used as delimiter: one of the allowed ones if a list is given; otherwise a
tab, or a character that is not `. / " '`, a line break, a letter, a number, a bracket or in private
use. -/
def DelimChar (env : PyEnv) : Option (List Str) → Char → Prop
  | some allowed, c => [c] ∈ allowed
  | none, c => c = '\t' ∨ (c ≠ '.' ∧ c ≠ '/' ∧ c ≠ '"' ∧ c ≠ '\'' ∧ c ≠ '\n' ∧ c ≠ '\r' ∧
      env.category c ∉ ["Lu", "Ll", "Lt", "Lm", "Lo", "Nd", "Nl", "No", "Ps", "Pe", "Co"])

/-- A character that may be used as escapechar. -/
def EscChar (env : PyEnv) (c : Char) : Prop :=
  env.category c = "Po" ∧ c ∉ "!?\"'.,;:%*&#".toList

/-- A candidate dialect for a text, where `noUrl` is the text with its URLs replaced. -/
structure Candidate (env : PyEnv) (text noUrl : Str) (allowed : Option (List Str)) (d q e : Str) :
    Prop where
  delim : d = [] ∨ ∃ c ∈ noUrl, d = [c] ∧ DelimChar env allowed c
  quote : q = [] ∨ ∃ c ∈ noUrl, q = [c] ∧ (c = '\'' ∨ c = '"' ∨ c = '~' ∨ c = '`')
  escape : e = [] ∨ ∃ u c n v, text = u ++ c :: n :: v ∧ e = [c] ∧ EscChar env c ∧
    (d = [n] ∨ q = [n])

/-- Whether a text ends inside quotes: an unescaped quote toggles, the escape character makes the next
character ordinary. -/
def inside (q e : Str) : (escaped inq : Bool) → Str → Bool
  | _, inq, [] => inq
  | true, inq, _ :: u => inside q e false inq u
  | false, inq, c :: u =>
    if [c] = q then inside q e false (!inq) u
    else if [c] = e then inside q e true inq u
    else inside q e false inq u

/-- Every occurrence of `t` in the text is inside quotes. -/
def Masked (q e : Str) (t : Char) (data : Str) : Prop :=
  ∀ u v, data = u ++ t :: v → inside q e false false u = true

end Clever.Spec

namespace Clever.Props

open Clever

/-! ## C30 -/

theorem isDelimiter_iff (env : PyEnv) (l : Option (List Str)) (c : Char) :
    isDelimiter env l c = true ↔ Spec.DelimChar env l c := by
  cases l with
  | none =>
    simp [isDelimiter, Spec.DelimChar, defaultBlockChar, defaultBlockCat]
    grind
  | some l => simp [isDelimiter, Spec.DelimChar]

theorem isPotentialEscapechar_iff (env : PyEnv) (c : Char) :
    isPotentialEscapechar env c = true ↔ Spec.EscChar env c := by
  simp [isPotentialEscapechar, Spec.EscChar, escBlockChars]

/-- **C30**: the candidates are exactly the combinations described by `Spec.Candidate`, for every
enumeration order of the sets. -/
theorem C30_candidates_iff (env : PyEnv) (ord : SetOrder) (data : Str) (allowed : Option (List Str))
    (x : SimpleDialect) :
    x ∈ getDialects env ord data allowed ↔
      ∃ d q e, x = ⟨some d, some q, some e, false⟩ ∧
        Spec.Candidate env data (filterUrls env data) allowed d q e := by
  rw [mem_getDialects]
  constructor
  · rintro ⟨d, q, e, rfl, hd, hq, he, -⟩
    refine ⟨d, q, e, rfl, ?_, ?_, ?_⟩
    · rcases mem_getDelimiters.mp hd with h | ⟨c, hc, h, h'⟩
      · exact .inl h
      · exact .inr ⟨c, hc, h', (isDelimiter_iff ..).mp h⟩
    · rcases mem_getQuotechars.mp hq with h | ⟨c, hc, h, h'⟩
      · exact .inl h
      · exact .inr ⟨c, hc, h', by simpa [defaultQuoteChars] using h⟩
    · rcases mem_escapeInsertions.mp he with h | ⟨u, c, n, v, h1, h2, h3, h4⟩
      · exact .inl h
      · exact .inr ⟨u, c, n, v, h1, h2, (isPotentialEscapechar_iff ..).mp h3,
          h4.imp Eq.symm Eq.symm⟩
  · rintro ⟨d, q, e, rfl, hd, hq, he⟩
    refine ⟨d, q, e, rfl, mem_getDelimiters.mpr ?_, mem_getQuotechars.mpr ?_,
      mem_escapeInsertions.mpr ?_, by simp⟩
    · rcases hd with h | ⟨c, hc, h, h'⟩
      · exact .inl h
      · exact .inr ⟨c, hc, (isDelimiter_iff ..).mpr h', h⟩
    · rcases hq with h | ⟨c, hc, h, h'⟩
      · exact .inl h
      · exact .inr ⟨c, hc, by simpa [defaultQuoteChars] using h', h⟩
    · rcases he with h | ⟨u, c, n, v, h1, h2, h3, h4⟩
      · exact .inl h
      · exact .inr ⟨u, c, n, v, h1, h2, (isPotentialEscapechar_iff ..).mpr h3,
          h4.imp Eq.symm Eq.symm⟩

/-- **C30**: there are no duplicates, also if the masked dialects are removed. -/
theorem C30_nodup (env : PyEnv) (ord : SetOrder) (data : Str) (allowed : Option (List Str))
    (masked : Bool) : (getDialects env ord data allowed masked).Nodup :=
  getDialects_nodup ..

/-- **C30**: the all-empty dialect is a candidate for every text. -/
theorem C30_all_empty (env : PyEnv) (ord : SetOrder) (data : Str) (allowed : Option (List Str)) :
    (⟨some [], some [], some [], false⟩ : SimpleDialect) ∈ getDialects env ord data allowed :=
  (C30_candidates_iff ..).mpr ⟨[], [], [], rfl, .inl rfl, .inl rfl, .inl rfl⟩

/-- **C30**: with `test_masked_by_quotes` the candidates are those whose delimiter is not masked. -/
theorem C30_masked_filter (env : PyEnv) (ord : SetOrder) (data : Str) (allowed : Option (List Str))
    (d q e : Str) :
    mkDialect d q e ∈ getDialects env ord data allowed true ↔
      mkDialect d q e ∈ getDialects env ord data allowed false ∧
        maskedByQuotechar data q e d = false := by
  rw [mem_getDialects, mem_getDialects]
  constructor
  · rintro ⟨d', q', e', h, h1, h2, h3, h4⟩
    obtain ⟨rfl, rfl, rfl⟩ := mkDialect_inj h
    exact ⟨⟨d, q, e, rfl, h1, h2, h3, by simp⟩, by simpa using h4⟩
  · rintro ⟨⟨d', q', e', h, h1, h2, h3, -⟩, h4⟩
    obtain ⟨rfl, rfl, rfl⟩ := mkDialect_inj h
    exact ⟨d, q, e, rfl, h1, h2, h3, by simpa using h4⟩

/-- **C30**: the components are characters of the text itself, unless the letter `U`, which replaces
the URLs, is requested as delimiter.  (Category tables: only that `U` is an upper-case letter.) -/
theorem C30_from_text_partial (env : PyEnv) (h : env.Ascii) (ord : SetOrder) (data : Str)
    (allowed : Option (List Str)) (hU : ∀ l, allowed = some l → ['U'] ∉ l) (x : SimpleDialect)
    (hx : x ∈ getDialects env ord data allowed) :
    ∃ d q e, x = ⟨some d, some q, some e, false⟩ ∧ (∀ c ∈ d ++ q ++ e, c ∈ data) := by
  obtain ⟨d, q, e, rfl, hd, hq, he⟩ := (C30_candidates_iff ..).mp hx
  refine ⟨d, q, e, rfl, ?_⟩
  intro c hc
  simp only [List.mem_append] at hc
  rcases hc with (hc | hc) | hc
  · rcases hd with rfl | ⟨c', hc', rfl, hdc⟩
    · simp at hc
    · simp at hc
      subst hc
      rcases mem_filterUrls hc' with rfl | h'
      · exfalso
        cases allowed with
        | some l => exact hU l rfl hdc
        | none =>
          rcases hdc with h' | ⟨_, _, _, _, _, _, h'⟩
          · exact absurd h' (by decide)
          · rw [h.category _ (by decide)] at h'
            exact h' (by decide)
      · exact h'
  · rcases hq with rfl | ⟨c', hc', rfl, hqc⟩
    · simp at hc
    · simp at hc
      subst hc
      rcases mem_filterUrls hc' with rfl | h'
      · exact absurd hqc (by decide)
      · exact h'
  · rcases he with rfl | ⟨u, c', n, v, rfl, rfl, -⟩
    · simp at hc
    · simp at hc
      subst hc
      simp

/-- **C30** fails for the replacement character: with `delimiters=["U"]` a text that contains a URL has
a candidate dialect whose delimiter does not occur in the text. -/
theorem C30_placeholder_violated :
    let data := "a http://x.com".toList
    mkDialect ['U'] [] [] ∈ getDialects asciiEnv .forward data (some [['U']]) ∧ 'U' ∉ data := by
  constructor
  · rw [mem_getDialects]
    refine ⟨['U'], [], [], rfl, ?_, ?_, ?_, rfl⟩
    · exact mem_getDelimiters.mpr (.inr ⟨'U', by decide +kernel, by decide, rfl⟩)
    · exact mem_getQuotechars.mpr (.inl rfl)
    · exact mem_escapeInsertions.mpr (.inl rfl)
  · decide

/-- A case with all three components. -/
example : mkDialect [';'] ['"'] ['\\'] ∈
    getDialects asciiEnv .backward "a;\"b\\\"c\"".toList none := by
  decide +kernel

example : (getDialects asciiEnv .forward "a;b c".toList none).length = 3 := by decide +kernel

/-! ## C31 -/

/-- **C31**: what `masked_by_quotechar` computes.  Every occurrence of the tested character must be
preceded by an odd number of quotes, where only the quotes before the first escape character of the
text count. -/
theorem C31_computes (data q e : Str) (t : Char) (htq : [t] ≠ q) (heq : e ≠ q) :
    maskedByQuotechar data q e [t] = true ↔
      ∀ u v, data = u ++ t :: v →
        ((u.takeWhile (fun c => [c] ≠ e)).countP (fun c => [c] = q)) % 2 = 1 := by
  unfold maskedByQuotechar
  rw [if_neg (by simp), (maskedLoop_iff htq data).1]
  simp only [loopInside_eq heq, Bool.false_bne, decide_eq_true_eq]

theorem C31_empty (data q e : Str) : maskedByQuotechar data q e [] = false := rfl

/-- **C31** fails: the state "escaped" is never left.  In `\a","` the comma between the quotes is taken
to be outside because of the earlier escape character; in `"\"",` (with an escaped quote) the comma
after the closing quote is taken to be inside. -/
theorem C31_violated :
    (maskedByQuotechar "\\a\",\"".toList ['"'] ['\\'] [','] = false ∧
      Spec.Masked ['"'] ['\\'] ',' "\\a\",\"".toList) ∧
    (maskedByQuotechar "\"\\\"\",".toList ['"'] ['\\'] [','] = true ∧
      ¬ Spec.Masked ['"'] ['\\'] ',' "\"\\\"\",".toList) := by
  refine ⟨⟨by decide, ?_⟩, by decide, ?_⟩
  · intro u v h
    have hu : u.length = 3 := by
      have hl := congrArg List.length h
      simp at hl
      have h0 : ∀ i : Nat, (u ++ ',' :: v)[i]? = "\\a\",\"".toList[i]? := fun i => by rw [h]
      have h1 : (u ++ ',' :: v)[u.length]? = some ',' := by simp
      rw [h0] at h1
      have : u.length < 5 := by omega
      generalize u.length = n at *
      match n with
      | 0 | 1 | 2 | 4 => simp at h1
      | 3 => rfl
    have : u = "\\a\"".toList := by
      have := congrArg (List.take 3) h
      rw [← hu, List.take_left' rfl, hu] at this
      exact this.symm
    rw [this]
    decide
  · intro h
    have := h "\"\\\"\"".toList [] rfl
    exact absurd this (by decide)

theorem inside_eq_loopInside {q e : Str} (heq : e ≠ q) (u : Str)
    (h : ∀ a b, u = a ++ e ++ b → e ≠ [] → ∀ c ∈ b, [c] ≠ q) (inq : Bool) :
    Spec.inside q e false inq u = loopInside q e false inq u := by
  have noq : ∀ (b : Str) (esc inq : Bool), (∀ c ∈ b, [c] ≠ q) → Spec.inside q e esc inq b = inq := by
    intro b
    induction b with
    | nil => intros; rfl
    | cons c b ih =>
      intro esc inq hb
      have h1 := ih
      cases esc with
      | true =>
        rw [Spec.inside]
        exact ih _ _ (fun x hx => hb x (by simp [hx]))
      | false =>
        rw [Spec.inside, if_neg (hb c (by simp))]
        split
        · exact ih _ _ (fun x hx => hb x (by simp [hx]))
        · exact ih _ _ (fun x hx => hb x (by simp [hx]))
  induction u generalizing inq with
  | nil => rfl
  | cons c u ih =>
    have ih' := ih (fun a b hab => h (c :: a) b (by simp [hab]))
    rw [Spec.inside, loopInside]
    by_cases hq : [c] = q
    · rw [if_pos hq, if_pos hq, ih']
      rfl
    · rw [if_neg hq, if_neg hq]
      by_cases he : [c] = e
      · rw [if_pos he, if_pos he, loopInside_esc, noq]
        exact h [] u (by rw [← he]; rfl) (by rw [← he]; simp)
      · rw [if_neg he, if_neg he, ih']

/-- **C31**, for texts in which no quote follows an escape character (in particular if there is no
escapechar): doubled quotes are handled properly. -/
theorem C31_no_escape_partial (data q e : Str) (t : Char) (htq : [t] ≠ q) (heq : e ≠ q)
    (h : ∀ a b, data = a ++ e ++ b → e ≠ [] → ∀ c ∈ b, [c] ≠ q) :
    maskedByQuotechar data q e [t] = true ↔ Spec.Masked q e t data := by
  unfold maskedByQuotechar Spec.Masked
  rw [if_neg (by simp), (maskedLoop_iff htq data).1]
  refine forall_congr' fun u => forall_congr' fun v => ?_
  constructor
  · intro h1 huv
    rw [inside_eq_loopInside heq u (fun a b hab hne c hc => h a (b ++ t :: v) (by rw [huv, hab]; simp)
      hne c (by simp [hc]))]
    exact h1 huv
  · intro h1 huv
    rw [← inside_eq_loopInside heq u (fun a b hab hne c hc => h a (b ++ t :: v) (by rw [huv, hab]; simp)
      hne c (by simp [hc]))]
    exact h1 huv

example : maskedByQuotechar "a\"b,\"\"c,\"".toList ['"'] [] [','] = true := by decide
example : maskedByQuotechar "a\"b,\"\"c,\",".toList ['"'] [] [','] = false := by decide

end Clever.Props
