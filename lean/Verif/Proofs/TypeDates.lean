import Verif.Proofs.TypeLevel

/-!
# Dates, and dates with times
-/

namespace Clever

open Spec

variable {env : PyEnv}

theorem splitAt1_ne (x : Char) (s : Str) : splitAt1 x s ≠ [] := by
  cases s with
  | nil => simp [splitAt1]
  | cons c s =>
    simp only [splitAt1]
    split
    · simp
    · split <;> simp

theorem splitAt1_cases (x : Char) (s : Str) :
    (x ∉ s ∧ splitAt1 x s = [s]) ∨ ∃ a b, x ∉ a ∧ s = a ++ x :: b ∧ splitAt1 x s = a :: splitAt1 x b := by
  by_cases h : x ∈ s
  · right
    obtain ⟨a, b, h1, h2⟩ := List.append_of_mem h |>.elim fun a h => h.elim fun b h =>
      (⟨s.takeWhile (· ≠ x), (s.dropWhile (· ≠ x)).tail, by
        intro hx
        have := List.all_eq_true.mp (List.all_takeWhile (p := (· ≠ x)) (l := s)) x hx
        simp at this, by
        have h3 := List.takeWhile_append_dropWhile (p := (· ≠ x)) (l := s)
        cases hd : s.dropWhile (· ≠ x) with
        | nil =>
          rw [hd, List.append_nil] at h3
          have hm : x ∈ s.takeWhile (· ≠ x) := by rw [h3, h]; simp
          have := List.all_eq_true.mp (List.all_takeWhile (p := (· ≠ x)) (l := s)) x hm
          simp at this
        | cons y t =>
          have hy := dropWhile_head hd
          have hy : y = x := by simpa using hy
          subst hy
          rw [hd] at h3
          exact h3.symm⟩ : ∃ a b, x ∉ a ∧ s = a ++ x :: b)
    exact ⟨a, b, h1, h2, by rw [h2]; exact splitAt1_append h1 b⟩
  · exact Or.inl ⟨h, splitAt1_none h⟩

theorem splitAt1_two {x : Char} {s a b : Str} :
    splitAt1 x s = [a, b] ↔ x ∉ a ∧ x ∉ b ∧ s = a ++ x :: b := by
  constructor
  · intro h
    rcases splitAt1_cases x s with ⟨-, h1⟩ | ⟨a', b', h1, h2, h3⟩
    · rw [h1] at h; simp at h
    · rw [h3] at h
      simp only [List.cons.injEq] at h
      obtain ⟨rfl, h4⟩ := h
      rcases splitAt1_cases x b' with ⟨h5, h6⟩ | ⟨a'', b'', _, _, h7⟩
      · rw [h6] at h4
        simp only [List.cons.injEq, and_true] at h4
        subst h4
        exact ⟨h1, h5, h2⟩
      · rw [h7] at h4
        simp only [List.cons.injEq] at h4
        exact absurd h4.2 (splitAt1_ne _ _)
  · rintro ⟨h1, h2, rfl⟩
    rw [splitAt1_append h1, splitAt1_none h2]

theorem splitAt1_first_two {x : Char} {s a b : Str} :
    (∃ l, splitAt1 x s = a :: b :: l) ↔ IsFirstTwo x s a b := by
  constructor
  · rintro ⟨l, h⟩
    rcases splitAt1_cases x s with ⟨-, h1⟩ | ⟨a', b', h1, h2, h3⟩
    · rw [h1] at h; simp at h
    · rw [h3] at h
      simp only [List.cons.injEq] at h
      obtain ⟨rfl, h4⟩ := h
      rcases splitAt1_cases x b' with ⟨h5, h6⟩ | ⟨a'', b'', h5, h6, h7⟩
      · rw [h6] at h4
        simp only [List.cons.injEq] at h4
        obtain ⟨rfl, -⟩ := h4
        exact ⟨h1, h5, [], Or.inl rfl, by simpa using h2⟩
      · rw [h7] at h4
        simp only [List.cons.injEq] at h4
        obtain ⟨rfl, -⟩ := h4
        exact ⟨h1, h5, x :: b'', Or.inr rfl, by rw [h2, h6]⟩
  · rintro ⟨h1, h2, r, hr, rfl⟩
    rw [splitAt1_append h1]
    rcases hr with rfl | hr
    · exact ⟨[], by rw [List.append_nil, splitAt1_none h2]⟩
    · cases r with
      | nil => cases hr
      | cons y r =>
        simp only [List.head?_cons, Option.some.injEq] at hr
        subst hr
        exact ⟨_, by rw [splitAt1_append h2]⟩

theorem isOffsetTime_iff (h : env.Ascii) (sw : Bool) (x : Char) (t : Str) :
    isOffsetTime env sw x t = true ↔
      ∃ a b, IsFirstTwo x t a b ∧ IsClock (maybeStrip env sw a) ∧ IsOffsetText (maybeStrip env sw b) := by
  have key : ∀ b, (isTime env sw b || runRegex env sw reTimeHHMM2 b || runRegex env sw reTimeHH b) = true ↔
      IsOffsetText (maybeStrip env sw b) := by
    intro b
    have e : runRegex env sw reTimeHH b = runRegex env sw reTimeHHMM2 b := rfl
    have e2 : runRegex env sw reTimeHHMM2 b = true ↔ _ := eats_hhmm2.fullmatch (maybeStrip env sw b)
    rw [e, Bool.or_assoc, Bool.or_self, Bool.or_eq_true, isTime_iff h, e2]
    rfl
  unfold isOffsetTime
  constructor
  · intro hx
    split at hx
    · rename_i a b l hs
      rw [Bool.and_eq_true, key, isTime_iff h] at hx
      exact ⟨a, b, splitAt1_first_two.1 ⟨l, hs⟩, hx.1, hx.2⟩
    · cases hx
  · rintro ⟨a, b, h1, h2, h3⟩
    obtain ⟨l, hl⟩ := splitAt1_first_two.2 h1
    rw [hl]
    simp only [Bool.and_eq_true, key, isTime_iff h]
    exact ⟨h2, h3⟩

theorem isIsoTime_iff (h : env.Ascii) (sw : Bool) (t : Str) :
    isIsoTime env sw t = true ↔ IsIsoTimeText (maybeStrip env sw) t := by
  have hz : (endsWith1 t 'Z' && isTime env sw t.dropLast) = true ↔
      ∃ u, t = u ++ ['Z'] ∧ IsClock (maybeStrip env sw u) := by
    rw [Bool.and_eq_true, isTime_iff h]
    unfold endsWith1
    rw [decide_eq_true_eq]
    constructor
    · rintro ⟨h1, h2⟩
      rcases List.eq_nil_or_concat t with rfl | ⟨l, y, rfl⟩
      · cases h1
      · simp only [List.concat_eq_append, List.getLast?_append, List.getLast?_singleton, Option.some_or,
          Option.some.injEq] at h1
        subst h1
        rw [List.concat_eq_append, List.dropLast_concat] at h2
        exact ⟨l, by simp, h2⟩
    · rintro ⟨u, rfl, h2⟩
      rw [List.dropLast_concat]
      exact ⟨by simp, h2⟩
  have mem : ∀ {x a b}, IsFirstTwo x t a b → x ∈ t := by
    rintro x a b ⟨-, -, r, -, rfl⟩; simp
  unfold isIsoTime IsIsoTimeText
  rw [← hz, ← isTime_iff h sw t, ← isOffsetTime_iff h sw '+' t, ← isOffsetTime_iff h sw '-' t]
  by_cases p1 : (endsWith1 t 'Z' && isTime env sw t.dropLast) = true
  · simp [p1]
  · rw [if_neg p1]
    by_cases p2 : isTime env sw t = true
    · simp [p2]
    · rw [if_neg p2]
      by_cases p3 : '+' ∈ t
      · rw [if_pos (by simpa using p3)]
        simp [p1, p2, p3]
      · rw [if_neg (by simpa using p3)]
        have p4 : isOffsetTime env sw '+' t = false := by
          rw [Bool.eq_false_iff, Ne, isOffsetTime_iff h]
          rintro ⟨a, b, h1, -⟩
          exact p3 (mem h1)
        by_cases p5 : '-' ∈ t
        · rw [if_pos (by simpa using p5)]
          simp [p1, p2, p3, p4]
        · rw [if_neg (by simpa using p5)]
          have p6 : isOffsetTime env sw '-' t = false := by
            rw [Bool.eq_false_iff, Ne, isOffsetTime_iff h]
            rintro ⟨a, b, h1, -⟩
            exact p5 (mem h1)
          simp [p1, p2, p3, p4, p6]

/-- The first character of a date. -/
theorem date_first (h : env.Ascii) {s : Str} (hs : IsDateText env.decimal s) :
    ∃ c t, s = c :: t ∧ env.decimal c = true := by
  obtain ⟨d, m, y, hd, hm, hy, hs⟩ := hs
  have fd : ∃ c t, d = c :: t ∧ env.decimal c = true := by
    have one : env.decimal '1' = true := by rw [h.decimal _ (by decide)]; decide
    have two : env.decimal '2' = true := by rw [h.decimal _ (by decide)]; decide
    rcases hd with (⟨n, _, _, rfl⟩ | ⟨x, z, hx, _, rfl⟩ | rfl | rfl) | ⟨n, _, _, rfl⟩
    · exact ⟨_, _, rfl, decimal_dg h (by omega)⟩
    · exact ⟨x, [z], rfl, by rcases hx with rfl | rfl; exact one; exact two⟩
    · exact ⟨_, _, rfl, decimal_dg h (by omega)⟩
    · exact ⟨_, _, rfl, decimal_dg h (by omega)⟩
    · exact ⟨_, _, rfl, decimal_dg h (by omega)⟩
  have fm : ∃ c t, m = c :: t ∧ env.decimal c = true := by
    rcases hm with ⟨n, _, _, rfl⟩ | ⟨n, _, _, rfl⟩
    · exact ⟨_, _, rfl, decimal_dg h (by omega)⟩
    · exact ⟨_, _, rfl, decimal_dg h (by omega)⟩
  have fy : ∃ c t, y = c :: t ∧ env.decimal c = true := by
    rcases hy with ⟨x, ds, hx, -, -, rfl⟩ | ⟨hl, ha⟩
    · refine ⟨x, ds, rfl, ?_⟩
      rcases hx with rfl | rfl <;> (rw [h.decimal _ (by decide)]; decide)
    · match y, hl, ha with
      | [a, b], _, ha => exact ⟨a, [b], rfl, ha a (by simp)⟩
  have app : ∀ {a b : Str}, (∃ c t, a = c :: t ∧ env.decimal c = true) →
      ∃ c t, a ++ b = c :: t ∧ env.decimal c = true := by
    rintro a b ⟨c, t, rfl, hc⟩; exact ⟨c, t ++ b, rfl, hc⟩
  rcases hs with ⟨x, -, rfl | rfl | rfl⟩ | ⟨-, -, rfl | rfl | rfl⟩ | rfl | rfl
  · exact app fm
  · exact app fd
  · exact app fy
  · exact app fm
  · exact app fd
  · exact app fy
  · exact app fy
  · exact app fy

/-- The decimal digits are digits. -/
def DecimalDigits (env : PyEnv) : Prop := ∀ c, env.decimal c = true → env.digit c = true

theorem isDate_iff (h : env.Ascii) (hd : DecimalDigits env) (sw : Bool) (cell : Str) :
    isDate env sw cell = true ↔ IsDateText env.decimal (maybeStrip env sw cell) := by
  unfold isDate runRegex
  simp only [maybeStrip_idem, Bool.and_eq_true]
  rw [(eatsG_date env).fullmatch]
  constructor
  · exact And.right
  · intro hs
    refine ⟨?_, hs⟩
    obtain ⟨c, t, hc, h1⟩ := date_first h hs
    rw [hc]
    exact hd c h1

theorem strip_head {y : Char} {m : Str} (h : env.strip (y :: m) = y :: m) : env.space y = false := by
  rw [Bool.eq_false_iff]
  intro hy
  rw [strip_cons_space env hy] at h
  have h1 : (env.strip m).length ≤ m.length := by
    unfold PyEnv.strip
    rw [List.length_reverse]
    refine Nat.le_trans (List.dropWhile_sublist _).length_le ?_
    rw [List.length_reverse]
    exact (List.dropWhile_sublist _).length_le
  rw [h] at h1
  simp at h1

theorem isDatetime_iff (h : env.Ascii) (hd : DecimalDigits env) (sw : Bool) {s : Str}
    (hs : maybeStrip env sw s = s) :
    isDatetime env sw s = true ↔ IsDatetimeText (IsDateText env.decimal) (maybeStrip env sw) s := by
  -- a text whose first part is a date begins with a digit
  have first : ∀ {a b : Str} {x : Char}, s = a ++ x :: b → IsDateText env.decimal (maybeStrip env sw a) →
      startsWithDigit env s = true := by
    intro a b x he hda
    obtain ⟨c, t, h1, h2⟩ := date_first h hda
    cases a with
    | nil => rw [show maybeStrip env sw [] = [] by cases sw <;> rfl] at h1; cases h1
    | cons y a =>
      have hy : c = y := by
        cases sw with
        | false => exact (List.cons.inj h1).1.symm
        | true =>
          have hsp : env.space y = false := by
            apply strip_head (m := a ++ x :: b)
            have : env.strip s = s := hs
            rw [he] at this
            exact this
          obtain ⟨u, hu⟩ := strip_cons_head env hsp a
          have h3 : env.strip (y :: a) = c :: t := h1
          rw [hu] at h3
          exact (List.cons.inj h3).1.symm
      subst hy
      rw [he]
      exact hd _ h2
  unfold isDatetime IsDatetimeText
  by_cases p1 : startsWithDigit env s = true
  · rw [if_neg (by simp [p1])]
    by_cases p2 : ' ' ∈ s
    · rw [if_pos (by simpa using p2)]
      constructor
      · intro hx
        split at hx
        · rename_i a b hsp
          rw [Bool.and_eq_true, isDate_iff h hd, isTime_iff h] at hx
          obtain ⟨h1, h2, h3⟩ := splitAt1_two.1 hsp
          exact Or.inl ⟨a, b, h1, h2, h3, hx⟩
        · cases hx
      · rintro (⟨a, b, h1, h2, h3, h4⟩ | ⟨h1, -⟩)
        · rw [splitAt1_two.2 ⟨h1, h2, h3⟩]
          simp only [Bool.and_eq_true, isDate_iff h hd, isTime_iff h]
          exact h4
        · exact absurd p2 h1
    · rw [if_neg (by simpa using p2)]
      constructor
      · intro hx
        split at hx
        · split at hx
          · rename_i a b hsp
            rw [Bool.and_eq_true, isDate_iff h hd, isIsoTime_iff h] at hx
            obtain ⟨h1, h2, h3⟩ := splitAt1_two.1 hsp
            exact Or.inr ⟨p2, a, b, h1, h2, h3, hx⟩
          · cases hx
        · cases hx
      · rintro (⟨a, b, h1, h2, h3, h4⟩ | ⟨-, a, b, h1, h2, h3, h4⟩)
        · exact absurd (by rw [h3]; simp) p2
        · rw [if_pos (by rw [h3]; simp), splitAt1_two.2 ⟨h1, h2, h3⟩]
          simp only [Bool.and_eq_true, isDate_iff h hd, isIsoTime_iff h]
          exact h4
  · rw [if_pos (by simp [p1])]
    constructor
    · intro hx; cases hx
    · rintro (⟨a, b, -, -, h3, h4, -⟩ | ⟨-, a, b, -, -, h3, h4, -⟩)
      · exact absurd (first h3 h4) p1
      · exact absurd (first h3 h4) p1

end Clever
