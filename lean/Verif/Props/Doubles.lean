import Verif.Proofs.ScoreRange
import Verif.Proofs.Detect
import Verif.Props.Sizes

/-!
# C102: the scores are those of IEEE double precision

The model computes with numbers of 53 binary digits and any exponent.  The theorems say that for a text below `2 ^ 53`
characters every operation has the result that it has with doubles: nothing overflows and nothing becomes subnormal, and
every integer that is converted is a double.
-/

namespace Clever.Props

open Clever Clever.Spec

/-- The result of an operation on doubles is determined by its exact result. -/
theorem C102_unique {q x x' : ℚ} (h : Rounds q x) (h' : Rounds q x') : x = x' := h.unique h'

/-- C102: the two constants are the doubles nearest to 0.001 and to 1e-10. -/
theorem C102_constants : Rounds (1 / 1000) defaultEpsPat ∧ Rounds (1 / 10000000000) defaultEpsType := by
  constructor
  · refine fl_rounds (ge_small (z := -10) (by norm_num) ?_) (le_big ?_) <;> rw [pow2_eq] <;> norm_num
  · refine fl_rounds (ge_small (z := -34) (by norm_num) ?_) (le_big ?_) <;> rw [pow2_eq] <;> norm_num

/-- C102, the pattern score: the score of a text below `2 ^ 53` characters is the one that the loop over the row patterns
computes with doubles, and no other. -/
theorem C102_pattern_score (data : Str) (dl : SimpleDialect) (eps : ℚ) (h0 : 1 / 2 ^ 500 ≤ eps) (h1 : eps ≤ 1)
    (hlen : data.length < 2 ^ 53) (A : Str) (h : makeAbstraction data dl = .ok A) (S : ℚ) :
    patternScore data dl eps = .ok S ↔ ScoreRuns eps (splitOn 'R' A) S := by
  have hs := (makeAbstraction_size h).1
  have he : pow2 (-500) ≤ eps := by
    refine le_trans (le_of_eq ?_) h0
    rw [pow2_eq, zpow_neg, one_div]
    norm_cast
  have hr := (scoreRuns_abstraction he h1 (A := A) (by omega) (by omega)).1
  rw [patternScore, h]
  simp only [Except.ok.injEq]
  constructor
  · rintro rfl; exact hr
  · intro h'; exact hr.unique h'

theorem length_textLines (t : Str) : (textLines t).length ≤ t.length := by
  induction t with
  | nil => simp [textLines]
  | cons c t ih =>
    rw [textLines]
    split
    · simp only [List.length_cons]; omega
    · split
      · simp only [List.length_cons]; omega
      · cases h : textLines t with
        | nil => simp [consHead]
        | cons l ls => rw [h] at ih; simp only [consHead, List.length_cons] at ih ⊢; omega

theorem patternScore_range {data : Str} {d : SimpleDialect} (hlen : data.length < 2 ^ 53) {P : ℚ}
    (h : patternScore data d = .ok P) : pow2 (-606) ≤ P ∧ P ≤ pow2 53 := by
  cases hA : makeAbstraction data d with
  | error e => simp [patternScore, hA] at h
  | ok A =>
    have hs := (makeAbstraction_size hA).1
    have he : pow2 (-500) ≤ defaultEpsPat := by
      refine le_trans (pow2_mono (b := -10) (by norm_num)) ?_
      apply fl_pow2_le
      rw [pow2_eq]; norm_num
    have := (scoreRuns_abstraction he (by decide +kernel) (A := A) (by omega) (by omega)).2
    rw [patternScore, hA] at h
    simp only [Except.ok.injEq] at h
    rwa [h] at this

/-- C102, the type score: it is `eps` without cells, and otherwise the larger one of `eps` and the quotient of the two
counts, computed with doubles. -/
theorem C102_type_score (env : PyEnv) (limit : Int) (data : Str) (d : SimpleDialect) (eps : ℚ) (hlen : data.length < 2 ^ 53)
    (T : ℚ) (h : typeScore env limit data d eps = .ok T) :
    ∃ cells : List (Str × Bool), (parseStringQuoted limit d data).1.flatten = cells ∧
      ((cells = [] ∧ T = eps) ∨
        (cells ≠ [] ∧ ∃ r, Rounds
          (((cells.filter (fun c => isKnownType env c.1 c.2 = .ok true)).length : ℚ) / (cells.length : ℚ)) r ∧
          T = max eps r)) := by
  obtain ⟨cells, hc, h1⟩ := C25_type_score_value env limit data d eps T h
  refine ⟨cells, hc, ?_⟩
  rcases h1 with h1 | ⟨h1, h2⟩
  · exact Or.inl h1
  · refine Or.inr ⟨h1, _, ?_, h2⟩
    have hb := C101_parse_string_quoted limit d data
    simp only [hc] at hb
    have hn : cells.length ≤ 2 ^ 55 := by
      have e1 : (textLines data).length ≤ data.length := by
        exact length_textLines data
      have e2 : delimiterCount d.delimiter data ≤ data.length := by
        unfold delimiterCount
        repeat' split
        · omega
        · exact List.count_le_length
        · omega
      omega
    have hk := List.length_filter_le (fun c => decide (isKnownType env c.1 c.2 = .ok true)) cells
    generalize (cells.filter (fun c => isKnownType env c.1 c.2 = .ok true)).length = k at hk
    have hp : 0 < cells.length := List.length_pos_iff.2 h1
    have hp' : (0 : ℚ) < (cells.length : ℚ) := by exact_mod_cast hp
    by_cases h0 : k = 0
    · subst h0
      simp only [Nat.cast_zero, zero_div, fl_zero]
      exact rounds_zero
    · have hk1 : (1 : ℚ) ≤ (k : ℚ) := by exact_mod_cast Nat.pos_of_ne_zero h0
      apply fl_rounds
      · refine ge_small (z := -55) (by norm_num) ?_
        rw [le_div_iff₀ hp']
        have : (cells.length : ℚ) ≤ (2 : ℚ) ^ 55 := by exact_mod_cast hn
        have e : pow2 (-55) = 1 / (2 : ℚ) ^ 55 := by rw [pow2_eq]; norm_num
        rw [e]
        calc 1 / (2 : ℚ) ^ 55 * (cells.length : ℚ) ≤ 1 / (2 : ℚ) ^ 55 * (2 : ℚ) ^ 55 :=
              mul_le_mul_of_nonneg_left this (by positivity)
          _ = 1 := by norm_num
          _ ≤ k := hk1
      · refine le_big (le_trans ?_ one_le_pow2)
        rw [div_le_one hp']
        exact_mod_cast hk

theorem pureLoop_entries {pat typ : SimpleDialect → Except PyExc ℚ} {skip : Bool} :
    ∀ (ds : List SimpleDialect) (inc : Option ℚ) (l : List (SimpleDialect × ConsistencyScore)),
      pureLoop pat typ skip ds inc = .ok l →
      ∀ p ∈ l, pat p.1 = .ok p.2.P ∧ ((p.2.T = none ∧ p.2.Q = none) ∨
        ∃ T, typ p.1 = .ok T ∧ p.2.T = some T ∧ p.2.Q = some (fl (p.2.P * T)))
  | [], inc, l, h => by simp [pureLoop] at h; simp [h]
  | d :: ds, inc, l, h => by
    rw [pureLoop] at h
    cases hp : pat d with
    | error e => simp [hp] at h
    | ok P =>
      rw [hp] at h
      simp only at h
      split at h
      · cases hr : pureLoop pat typ skip ds inc with
        | error e => simp [hr, Except.map] at h
        | ok r =>
          simp only [hr, Except.map, Except.ok.injEq] at h
          subst h
          intro p hpm
          rcases List.mem_cons.mp hpm with rfl | hpm
          · exact ⟨hp, Or.inl ⟨rfl, rfl⟩⟩
          · exact pureLoop_entries ds _ r hr p hpm
      · cases ht : typ d with
        | error e => simp [ht] at h
        | ok T =>
          rw [ht] at h
          simp only at h
          cases hr : pureLoop pat typ skip ds (some (maxScore inc (fl (P * T)))) with
          | error e => simp [hr, Except.map] at h
          | ok r =>
            simp only [hr, Except.map, Except.ok.injEq] at h
            subst h
            intro p hpm
            rcases List.mem_cons.mp hpm with rfl | hpm
            · exact ⟨hp, Or.inr ⟨T, ht, rfl, rfl⟩⟩
            · exact pureLoop_entries ds _ r hr p hpm

/-- C102, the consistency score: for all candidates that are not skipped, `P * T` is computed with doubles. -/
theorem C102_consistency_score (env : PyEnv) (ord : SetOrder) (cap : Option Nat) (skip : Bool) (data : Str)
    (delimiters : Option (List Str)) (hlen : data.length < 2 ^ 53)
    (scores : List (SimpleDialect × ConsistencyScore))
    (h : (computeConsistencyScores env cap skip [] (data.length + 1) data
      (getDialects env ord data delimiters)).1 = .ok scores) :
    ∀ p ∈ scores, patternScore data p.1 = .ok p.2.P ∧ ((p.2.T = none ∧ p.2.Q = none) ∨
      ∃ T Q, typeScore env (data.length + 1) data p.1 = .ok T ∧ p.2.T = some T ∧ p.2.Q = some Q ∧
        Rounds (p.2.P * T) Q) := by
  obtain ⟨S, -, -, he⟩ := computeConsistencyScores_eq env cap skip (data.length + 1) data
    (getDialects env ord data delimiters) (fun x hx => getDialects_isStr hx) (getDialects_nodup env ord data delimiters _)
  rw [he] at h
  intro p hp
  obtain ⟨h1, h2⟩ := pureLoop_entries S none scores h p hp
  refine ⟨h1, ?_⟩
  rcases h2 with h2 | ⟨T, h2, h3, h4⟩
  · exact Or.inl h2
  · refine Or.inr ⟨T, _, h2, h3, h4, ?_⟩
    obtain ⟨p1, p2⟩ := patternScore_range hlen h1
    obtain ⟨t1, t2⟩ := C25_type_score_range env _ data p.1 defaultEpsType (by decide +kernel) T h2
    have t3 : pow2 (-34) ≤ T := by
      refine le_trans ?_ t1
      apply fl_pow2_le
      rw [pow2_eq]; norm_num
    have hP : 0 < p.2.P := lt_of_lt_of_le (pow2_pos _) p1
    apply fl_rounds
    · refine ge_small (z := -640) (by norm_num) ?_
      calc pow2 (-640) = pow2 (-606) * pow2 (-34) := by rw [← pow2_add]; norm_num
        _ ≤ p.2.P * T := mul_le_mul p1 t3 (pow2_pos _).le hP.le
    · refine le_big (le_trans ?_ p2)
      exact mul_le_of_le_one_right hP.le t2

/-- The score of a text with two row patterns, as it is computed with doubles. -/
example : ScoreRuns (1 / 1024) ["C".toList, "CDC".toList] (513 / 2048) := by
  have h : makeAbstraction "a\na,b\n".toList (dialectOf (some ',') none none) = .ok "CRCDC".toList := by decide +kernel
  have h0 : (1 : ℚ) / 2 ^ 500 ≤ 1 / 1024 := by
    rw [show (1024 : ℚ) = 2 ^ 10 by norm_num]
    exact one_div_le_one_div_of_le (by positivity) (pow_le_pow_right₀ (by norm_num) (by norm_num))
  exact (C102_pattern_score "a\na,b\n".toList (dialectOf (some ',') none none) (1 / 1024)
    h0 (by norm_num) (by decide) _ h (513 / 2048)).1 (by decide +kernel)

/-- A tie between two doubles is not resolved at random, and the numbers between doubles do have to be rounded: the sum
of `2 ^ 53` and 1 is `2 ^ 53`. -/
example : Rounds (2 ^ 53 + 1) (2 ^ 53) := by
  have h : fl (2 ^ 53 + 1) = 2 ^ 53 := by decide +kernel
  have hr : Rounds (2 ^ 53 + 1) (fl (2 ^ 53 + 1)) := by
    refine fl_rounds (ge_small (z := 0) (by norm_num) ?_) (le_trans ?_ (pow2_mono (a := 54) (by norm_num))) <;>
      rw [pow2_eq] <;> norm_num
  rwa [h] at hr

end Clever.Props
