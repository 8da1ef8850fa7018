import Verif.Proofs.RowOrder
import Verif.Model.Detect

/-!
# C87: detection and the order of the rows
-/

namespace Clever.Props

open Clever Spec

/-- **C87** is false: a text of three rows, and the text with the last two rows exchanged.  Comma and semicolon have the
same score in exact arithmetic, but the floating point sum depends on the order in which the patterns are met, and the
rounding error decides. -/
theorem C87_order_violated :
    let t := "a,b,c;d;e\na;b;c;d\na,b,c,d\n".toList
    let t' := "a,b,c;d;e\na,b,c,d\na;b;c;d\n".toList
    textLines t = ["a,b,c;d;e".toList, "a;b;c;d".toList, "a,b,c,d".toList] ∧
    textLines t' = ["a,b,c;d;e".toList, "a,b,c,d".toList, "a;b;c;d".toList] ∧
    (detect asciiEnv .forward 100000 t).result = .ok (some (mkDialect [','] [] [])) ∧
    (detect asciiEnv .forward 100000 t').result = .ok (some (mkDialect [';'] [] [])) := by
  refine ⟨?_, ?_, ?_, ?_⟩ <;> decide +kernel

/-- **C87** as far as it holds, for the normal forms: if two texts have the same rows up to order, and neither has
a delimiter or quotechar after a potential escapechar, then they have the same normal form. -/
theorem C87_normal_partial (env : PyEnv) (t t' : Str) (ds : Option (List Str))
    (hrows : (splitFile t).Perm (splitFile t'))
    (he : ∀ d ∈ ds.getD nfDelims, ∀ q ∈ nfQuotechars, maybeHasEscapechar env t d q = maybeHasEscapechar env t' d q) :
    detectDialectNormal env t ds = detectDialectNormal env t' ds := by
  have hany : (ds.getD nfDelims).any (fun d => nfQuotechars.any fun q => maybeHasEscapechar env t d q) =
      (ds.getD nfDelims).any (fun d => nfQuotechars.any fun q => maybeHasEscapechar env t' d q) := by
    rw [Bool.eq_iff_iff]
    simp only [List.any_eq_true]
    constructor
    · rintro ⟨d, hd, q, hq, h⟩
      exact ⟨d, hd, q, hq, by rw [← he d hd q hq]; exact h⟩
    · rintro ⟨d, hd, q, hq, h⟩
      exact ⟨d, hd, q, hq, by rw [he d hd q hq]; exact h⟩
  unfold detectDialectNormal
  simp only
  rw [hany, find?_congr (form_perm hrows (ds.getD nfDelims))]

example : splitFile "a,b\n\"c\",d\n'e',f".toList = ["a,b".toList, "\"c\",d".toList, "'e',f".toList] ∧
    splitFile "'e',f\na,b\n\"c\",d".toList = ["'e',f".toList, "a,b".toList, "\"c\",d".toList] := by decide +kernel

/-- **C87** as far as it holds, for the consistency measure: two plain texts (no quotes, no escapes, no URLs, no NUL)
have the same non-blank lines up to order and the same characters, and no candidate delimiter splits the lines into more
than two different numbers of cells.  If a dialect, or none, is found for one, the same is found for the other. -/
theorem C87_consistency_partial (env : PyEnv) (ord : SetOrder) (cap : Option Nat) (skip : Bool) (limit limit' : Int)
    (ds : Option (List Str)) (t t' : Str) (ht : PlainText env ds t) (ht' : PlainText env ds t') (hsame : SameLines t t')
    (hchars : ∀ c, c ∈ t ↔ c ∈ t') (hl : InLong (t.length + 1)) (hl' : InLong (t'.length + 1))
    (hcells : ∀ c ∈ t, isDelimiter env ds c = true →
      (((textLines t).filter (· ≠ [])).map fun l => (splitOn c l).length).dedup.length ≤ 2)
    (r : Option SimpleDialect) (h : (consistencyDetect env ord cap skip limit t ds).1 = .ok r) :
    (consistencyDetect env ord cap skip limit' t' ds).1 = .ok r := by
  unfold consistencyDetect at h ⊢
  simp only at h ⊢
  cases hs : (computeConsistencyScores env cap skip [] (t.length + 1) t (getDialects env ord t ds)).1 with
  | error e => rw [hs] at h; cases h
  | ok s =>
    rw [scores_lines ht ht' hsame hchars hl hl' hcells s hs]
    rw [hs] at h
    simp only at h ⊢
    obtain ⟨-, hlt, hbest⟩ := best_of_run env ord cap skip t ds s hs
    have hn : (getBestDialects s).Nodup := by
      have hstr : ∀ x ∈ getBestDialects s, IsStr x := fun x hx => getDialects_isStr ((hbest x).1 hx).1
      refine List.Pairwise.imp_of_mem ?_ hlt
      rintro a b ha - hab rfl
      rw [DLt, C18_strict_total_order.1 a (hstr a ha)] at hab
      simp at hab
    have hp : ∀ x ∈ getBestDialects s, ∃ d, x = mkDialect d [] [] := by
      intro x hx
      rcases (plain_dialects ht x).1 ((hbest x).1 hx).1 with rfl | ⟨c, -, -, rfl⟩
      · exact ⟨_, rfl⟩
      · exact ⟨_, rfl⟩
    have htie := tieBreaker_plain ord (t.length + 1) (t'.length + 1) t t' _ hn hp
    generalize getBestDialects s = best at h htie
    split at h
    · exact h
    · rename_i hne
      rw [← htie]
      cases hb : tieBreaker ord (t.length + 1) t best with
      | error e => rw [hb] at h; cases h
      | ok r' => rw [hb] at h; exact h

/-- C87 as far as it holds, for the whole detector. -/
theorem C87_detect_partial (env : PyEnv) (ord : SetOrder) (skip : Bool) (limit limit' : Int) (m : DetectionMethod)
    (ds : Option (List Str)) (t t' : Str) (ht : PlainText env ds t) (ht' : PlainText env ds t') (hsame : SameLines t t')
    (hrows : (splitFile t).Perm (splitFile t'))
    (he : ∀ d ∈ ds.getD nfDelims, ∀ q ∈ nfQuotechars, maybeHasEscapechar env t d q = maybeHasEscapechar env t' d q)
    (hchars : ∀ c, c ∈ t ↔ c ∈ t') (hl : InLong (t.length + 1)) (hl' : InLong (t'.length + 1))
    (hcells : ∀ c ∈ t, isDelimiter env ds c = true →
      (((textLines t).filter (· ≠ [])).map fun l => (splitOn c l).length).dedup.length ≤ 2)
    (r : Option SimpleDialect) (h : (detect env ord limit t ds m skip).result = .ok r) :
    (detect env ord limit' t' ds m skip).result = .ok r ∧
      (detect env ord limit' t' ds m skip).method_ = (detect env ord limit t ds m skip).method_ := by
  unfold detect at h ⊢
  simp only at h ⊢
  rw [C87_normal_partial env t t' ds hrows he] at h ⊢
  by_cases hm : m = .normal ∨ m = .auto
  · rw [if_pos hm] at h ⊢
    rw [if_pos hm]
    cases hd : detectDialectNormal env t' ds with
    | some d => rw [hd] at h; exact ⟨h, rfl⟩
    | none =>
      rw [hd] at h
      exact ⟨C87_consistency_partial env ord _ skip limit limit' ds t t' ht ht' hsame hchars hl hl' hcells r h, rfl⟩
  · rw [if_neg hm] at h ⊢
    rw [if_neg hm]
    exact ⟨C87_consistency_partial env ord _ skip limit limit' ds t t' ht ht' hsame hchars hl hl' hcells r h, rfl⟩

/-- A case: three rows, of which one has another number of cells, in two orders. -/
example : let t := "a;b 1\nc;d 2\ne f\n".toList
    let t' := "e f\nc;d 2\na;b 1\n".toList
    PlainText asciiEnv none t ∧ PlainText asciiEnv none t' ∧ SameLines t t' ∧ (splitFile t).Perm (splitFile t') ∧
    (∀ c, c ∈ t ↔ c ∈ t') ∧
    (∀ d ∈ nfDelims, ∀ q ∈ nfQuotechars, maybeHasEscapechar asciiEnv t d q = maybeHasEscapechar asciiEnv t' d q) ∧
    (∀ c ∈ t, isDelimiter asciiEnv none c = true →
      (((textLines t).filter (· ≠ [])).map fun l => (splitOn c l).length).dedup.length ≤ 2) ∧
    (detect asciiEnv .forward 100000 t).result = .ok (some (mkDialect [' '] [] [])) := by
  have esc : ∀ t : Str, (∀ c ∈ t, isPotentialEscapechar asciiEnv c = false) → ∀ u c n v, t = u ++ c :: n :: v →
      isPotentialEscapechar asciiEnv c = true → isDelimiter asciiEnv none n = false := by
    intro t h u c n v ht hp
    rw [h c (by simp [ht])] at hp
    cases hp
  refine ⟨⟨by decide, by decide, by decide +kernel, by decide, esc _ (by decide +kernel), by decide +kernel⟩,
    ⟨by decide, by decide, by decide +kernel, by decide, esc _ (by decide +kernel), by decide +kernel⟩, ?_, ?_, ?_, ?_, ?_, ?_⟩
  · unfold SameLines
    decide +kernel
  · decide +kernel
  · intro c
    exact List.Perm.mem_iff (by decide)
  · decide +kernel
  · decide +kernel
  · decide +kernel

end Clever.Props
