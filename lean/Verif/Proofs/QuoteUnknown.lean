import Verif.Proofs.KeptDelimiter
import Verif.Proofs.CellTypes
import Verif.Proofs.TypeLevel

/-!
# Cells that begin with a quote character have no type
-/

namespace Clever

open Spec Re Props

theorem outside_quote {c : Char} (hc : c = '"' ∨ c = '\'') : OutsideUrls c := by
  unfold OutsideUrls
  rcases hc with rfl | rfl <;> decide

theorem quote_avoids {env : PyEnv} (h : env.Ascii) {c : Char} (hc : c = '"' ∨ c = '\'') :
    (reNumber1 env).Avoids c ∧ (reNumber2 env).Avoids c ∧ (reNumber3 env).Avoids c ∧ reEmail.Avoids c ∧
      (reIpv4 env).Avoids c ∧ reUnixPath.Avoids c ∧ (reAlphanum env).Avoids c ∧ (reAlphanumQuoted env).Avoids c := by
  have hasc : c.toNat < 128 := by rcases hc with rfl | rfl <;> decide
  have hd : env.decimal c = false := decimal_of_ascii h hasc (by rcases hc with rfl | rfl <;> decide)
  have hn : env.number c = false := by rw [h.number _ hasc]; rcases hc with rfl | rfl <;> decide
  have hl : env.letter c = false := by rw [h.letter _ hasc]; rcases hc with rfl | rfl <;> decide
  have hs : specialsAllowed.contains c.toNat = false := by rcases hc with rfl | rfl <;> decide
  have hq : (specialsAllowed ++ quotedSpecialsAllowed).contains c.toNat = false := by
    rcases hc with rfl | rfl <;> decide
  have hsp : decide (c = ' ') = false := by rcases hc with rfl | rfl <;> decide
  refine ⟨?_, ?_, ?_, ?_, ?_, ?_, ?_, ?_⟩
  · rcases hc with rfl | rfl <;>
    simp [reNumber1, reNumber2, reNumber3, reThousands, reNoDot, reExp, cat, opt, plus, chr, upto, times,
      Avoids, hd, oneOf, rng]
  · rcases hc with rfl | rfl <;>
    simp [reNumber1, reNumber2, reNumber3, reThousands, reNoDot, reExp, cat, opt, plus, chr, upto, times,
      Avoids, hd, oneOf, rng]
  · rcases hc with rfl | rfl <;>
    simp [reNumber1, reNumber2, reNumber3, reThousands, reNoDot, reExp, cat, opt, plus, chr, upto, times,
      Avoids, hd, oneOf, rng]
  · rcases hc with rfl | rfl <;> simp [reEmail, cat, plus, chr, Avoids, asciiAlnum, oneOf, rng]
  · have h3 : (Re.between (.cls env.decimal) 1 3).Avoids c := avoids_between (by simpa [Avoids] using hd) 1 3
    have h4 : (Re.seq (Re.between (.cls env.decimal) 1 3) (chr '.')).Avoids c :=
      ⟨h3, by rcases hc with rfl | rfl <;> simp [chr, Avoids]⟩
    exact ⟨avoids_times h4 3, h3⟩
  · rcases hc with rfl | rfl <;> simp [reUnixPath, cat, opt, plus, chr, Avoids, asciiAlnum, oneOf, rng]
  · simp only [reAlphanum, reAlnum, cat, opt, plus, Avoids, hn, hl, hs, hsp, Bool.or_false, and_self]
  · simp only [reAlphanumQuoted, reAlnum, cat, opt, plus, Avoids, hn, hl, hq, hsp, Bool.or_false, and_self]

theorem strip_quote {env : PyEnv} (h : env.Ascii) {c : Char} (hc : c = '"' ∨ c = '\'') (sw : Bool) (w : Str) :
    ∃ w', maybeStrip env sw (c :: w) = c :: w' := by
  cases sw with
  | false => exact ⟨w, rfl⟩
  | true =>
    have hsp : env.space c = false := by
      rw [h.space c (by rcases hc with rfl | rfl <;> decide)]
      rcases hc with rfl | rfl <;> decide
    exact strip_cons_head env hsp w

theorem quote_number {env : PyEnv} (h : env.Ascii) {c : Char} (hc : c = '"' ∨ c = '\'') (sw : Bool) (w : Str) :
    isNumber env sw (c :: w) = false := by
  obtain ⟨a1, a2, a3, -⟩ := quote_avoids h hc
  obtain ⟨w', e⟩ := strip_quote h hc sw w
  have hm : c ∈ maybeStrip env sw (c :: w) := by rw [e]; simp
  unfold isNumber
  rw [if_neg (by simp)]
  simp only [runRegex, a1.fullmatch hm, a2.fullmatch hm, a3.fullmatch hm, Bool.or_self]

/-- A cell of ASCII characters that begins with a quote has no type. -/
theorem quote_type {env : PyEnv} (h : env.Ascii) {c : Char} (hc : c = '"' ∨ c = '\'') (q sw : Bool) (w : Str)
    (hw : ∀ x ∈ w, x.toNat < 128) : detectType env (c :: w) q sw = .ok none := by
  obtain ⟨-, -, -, a4, a5, a6, a7, a8⟩ := quote_avoids h hc
  have a0 := url_avoids h (outside_quote hc)
  have hasc : c.toNat < 128 := by rcases hc with rfl | rfl <;> decide
  rw [detectType_chain]
  obtain ⟨w', e⟩ := strip_quote h hc sw w
  have hw' : ∀ x ∈ w', x.toNat < 128 := by
    intro x hx
    have : x ∈ maybeStrip env sw (c :: w) := by rw [e]; simp [hx]
    rcases List.mem_cons.1 (mem_maybeStrip this) with h1 | h1
    · rw [h1]; exact hasc
    · exact hw x h1
  rw [e, firstType_chain, if_neg (by simp)]
  have hm : ∀ u, c ∈ maybeStrip env sw (c :: u) := by
    intro u
    obtain ⟨u', e⟩ := strip_quote h hc sw u
    rw [e]; simp
  have hdig : startsWithDigit env (c :: w') = false := by
    show env.digit c = false
    rw [h.digit c hasc]
    rcases hc with rfl | rfl <;> decide
  have hstart : ∀ u, startsWithDigit env (maybeStrip env sw (c :: u)) = false := by
    intro u
    obtain ⟨u', e⟩ := strip_quote h hc sw u
    rw [e]
    show env.digit c = false
    rw [h.digit c hasc]
    rcases hc with rfl | rfl <;> decide
  rw [if_neg (by simp [runRegex, a0.fullmatch (hm _)]), if_neg (by simp [runRegex, a4.fullmatch (hm _)]),
    if_neg (by simp [runRegex, a5.fullmatch (hm _)]), if_neg (by simp [quote_number h hc]),
    if_neg (by simp [isTime, hstart])]
  have hpct : isPercentage env sw (c :: w') = false := by
    unfold isPercentage
    obtain ⟨u, hu⟩ : ∃ u, rstrip1 (c :: w') '%' = c :: u := by
      unfold rstrip1
      rw [List.reverse_cons]
      have hcp : c ≠ '%' := by rcases hc with rfl | rfl <;> decide
      generalize w'.reverse = l
      induction l with
      | nil => exact ⟨[], by simp [hcp]⟩
      | cons x l ih =>
        by_cases hx : x = '%'
        · rw [List.cons_append, List.dropWhile_cons, if_pos (by simpa using hx)]; exact ih
        · rw [List.cons_append, List.dropWhile_cons, if_neg (by simpa using hx)]
          exact ⟨l.reverse ++ [x], by simp⟩
    rw [hu, quote_number h hc, Bool.and_false]
  rw [if_neg (by simp [hpct])]
  have hcur : isCurrency env sw (c :: w') = false := by
    rw [← Bool.not_eq_true, isCurrency_iff h]
    rintro ⟨x, v, n, hx, -, -, -, he⟩
    simp only [List.cons.injEq] at he
    rw [← he.1, h.currency c hasc] at hx
    rcases hc with rfl | rfl <;> exact absurd hx (by decide)
  rw [if_neg (by simp [hcur]), if_neg (by simp [runRegex, a6.fullmatch (hm _)])]
  have hnan : isNan env (c :: w') = false := by
    unfold isNan
    rw [h.lower _ (by intro x hx; rcases List.mem_cons.1 hx with rfl | hx; exact hasc; exact hw' x hx)]
    have hlow : asciiLower c ≠ 'n' := by rcases hc with rfl | rfl <;> decide
    simp [hlow]
  rw [if_neg (by simp [hnan]), if_neg (by simp [isDate, hstart]), if_neg (by simp [isDatetime, hdig])]
  have halnum : isUnicodeAlphanum env sw (c :: w') q = false := by
    unfold isUnicodeAlphanum
    cases q
    · simp [runRegex, a7.fullmatch (hm _)]
    · simp [runRegex, a8.fullmatch (hm _)]
  have hba : isBytearray (c :: w') = false := by
    unfold isBytearray
    rcases hc with rfl | rfl <;> rfl
  have hj : isJsonObj env (c :: w') = .ok false := by
    unfold isJsonObj
    rcases hc with rfl | rfl <;> simp
  rw [if_neg (by simp [halnum]), if_neg (by simp [hba]), hj]
  rfl

end Clever
