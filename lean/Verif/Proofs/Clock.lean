import Verif.Proofs.TypeChars
import Verif.Spec.Clock

/-!
# Clock times and time stamps: lemmas for C28 and C29
-/

namespace Clever

open Spec

/-- Characters of clock times. -/
def ClockChar (c : Char) : Prop := (∃ n, n < 10 ∧ c = dg n) ∨ c = ':' ∨ c = '+' ∨ c = '-'

theorem dg_clockChar {n : Nat} (h : n < 10) : ClockChar (dg n) := Or.inl ⟨n, h, rfl⟩

theorem pad2_digits {m : Nat} (h : m < 100) : ∀ c ∈ pad2 m, ∃ n, n < 10 ∧ c = dg n := by
  intro c hc
  simp only [pad2, List.mem_cons, List.not_mem_nil, or_false] at hc
  rcases hc with rfl | rfl
  · exact ⟨m / 10, by omega, rfl⟩
  · exact ⟨m % 10, by omega, rfl⟩

theorem length_pad2 (m : Nat) : (pad2 m).length = 2 := rfl

theorem dg_ascii {n : Nat} (h : n < 10) : (dg n).toNat < 128 := by rw [toNat_dg h]; omega

theorem ClockChar.ascii {c : Char} (h : ClockChar c) : c.toNat < 128 := by
  rcases h with ⟨n, hn, rfl⟩ | rfl | rfl | rfl
  · exact dg_ascii hn
  all_goals decide

theorem dg_ne {n : Nat} (h : n < 10) {c : Char} (hc : isDig c = false) : dg n ≠ c := by
  rintro rfl
  have := (isDig_iff (c := dg n)).2 ⟨n, h, rfl⟩
  rw [hc] at this; cases this

theorem ClockChar.ne {c d : Char} (h : ClockChar c) (h1 : isDig d = false) (h2 : d ≠ ':') (h3 : d ≠ '+')
    (h4 : d ≠ '-') : c ≠ d := by
  rcases h with ⟨n, hn, rfl⟩ | rfl | rfl | rfl
  · exact dg_ne hn h1
  · exact Ne.symm h2
  · exact Ne.symm h3
  · exact Ne.symm h4

/-- What is needed about clock times in what follows. -/
theorem Spec.IsPlainClock.facts {s : Str} (h : IsPlainClock s) :
    ':' ∈ s ∧ (∀ c ∈ s, (∃ n, n < 10 ∧ c = dg n) ∨ c = ':') ∧ (∃ n t, n < 10 ∧ s = dg n :: t) ∧
      (∃ n t, n < 10 ∧ s = t ++ [dg n]) ∧ s.length ≤ 8 ∧ 4 ≤ s.length := by
  rcases h with ⟨h, m, hh, hm, rfl⟩ | ⟨h, m, hh, hm, rfl⟩ | ⟨h, m, x, hh, hm, hx, rfl⟩
  · refine ⟨by simp, ?_, ⟨h, _, hh, rfl⟩, ⟨m % 10, [dg h, ':', dg (m / 10)], by omega, rfl⟩, by simp [pad2],
      by simp [pad2]⟩
    intro c hc
    simp only [List.mem_cons] at hc
    rcases hc with rfl | rfl | hc
    · exact Or.inl ⟨h, hh, rfl⟩
    · exact Or.inr rfl
    · exact Or.inl (pad2_digits (by omega) c hc)
  · refine ⟨by simp, ?_, ⟨h / 10, _, by omega, rfl⟩, ⟨m % 10, pad2 h ++ [':', dg (m / 10)], by omega, by simp [pad2]⟩,
      by simp [pad2], by simp [pad2]⟩
    intro c hc
    simp only [List.mem_cons, List.mem_append] at hc
    rcases hc with hc | rfl | hc
    · exact Or.inl (pad2_digits (by omega) c hc)
    · exact Or.inr rfl
    · exact Or.inl (pad2_digits (by omega) c hc)
  · refine ⟨by simp, ?_, ⟨h / 10, _, by omega, rfl⟩,
      ⟨x % 10, pad2 h ++ ':' :: pad2 m ++ [':', dg (x / 10)], by omega, by simp [pad2]⟩, by simp [pad2], by simp [pad2]⟩
    intro c hc
    simp only [List.mem_cons, List.mem_append] at hc
    rcases hc with (hc | rfl | hc) | rfl | hc
    · exact Or.inl (pad2_digits (by omega) c hc)
    · exact Or.inr rfl
    · exact Or.inl (pad2_digits (by omega) c hc)
    · exact Or.inr rfl
    · exact Or.inl (pad2_digits (by omega) c hc)

theorem Spec.IsClock.facts {s : Str} (h : IsClock s) :
    ':' ∈ s ∧ (∀ c ∈ s, ClockChar c) ∧ (∃ n t, n < 10 ∧ s = dg n :: t) := by
  rcases h with h | ⟨h, m, x, oh, om, g, hh, hm, hx, hoh, hom, hg, rfl⟩
  · obtain ⟨h1, h2, h3, -⟩ := h.facts
    refine ⟨h1, fun c hc => ?_, h3⟩
    rcases h2 c hc with h | h
    · exact Or.inl h
    · exact Or.inr (Or.inl h)
  · refine ⟨by simp, ?_, ⟨h / 10, _, by omega, rfl⟩⟩
    intro c hc
    simp only [List.mem_cons, List.mem_append] at hc
    rcases hc with (((hc | rfl | hc) | rfl | hc) | rfl | hc) | rfl | hc
    · exact Or.inl (pad2_digits (by omega) c hc)
    · exact Or.inr (Or.inl rfl)
    · exact Or.inl (pad2_digits (by omega) c hc)
    · exact Or.inr (Or.inl rfl)
    · exact Or.inl (pad2_digits (by omega) c hc)
    · exact Or.inr (Or.inr hg)
    · exact Or.inl (pad2_digits (by omega) c hc)
    · exact Or.inr (Or.inl rfl)
    · exact Or.inl (pad2_digits (by omega) c hc)

theorem digit_dg {env : PyEnv} (h : env.Ascii) {n : Nat} (hn : n < 10) : env.digit (dg n) = true := by
  rw [h.digit _ (dg_ascii hn)]; exact isDig_iff.2 ⟨n, hn, rfl⟩

theorem decimal_dg {env : PyEnv} (h : env.Ascii) {n : Nat} (hn : n < 10) : env.decimal (dg n) = true := by
  rw [h.decimal _ (dg_ascii hn)]; exact isDig_iff.2 ⟨n, hn, rfl⟩

theorem space_dg {env : PyEnv} (h : env.Ascii) {n : Nat} (hn : n < 10) : env.space (dg n) = false := by
  rw [h.space _ (dg_ascii hn)]
  have : dg n ≠ ' ' := dg_ne hn (by decide)
  simp only [this, decide_false, toNat_dg hn]
  simp
  omega

/-- The time test accepts exactly the clock times. -/
theorem isTime_iff {env : PyEnv} (h : env.Ascii) (sw : Bool) (cell : Str) :
    isTime env sw cell = true ↔ IsClock (maybeStrip env sw cell) := by
  unfold isTime
  simp only [runRegex, maybeStrip_idem]
  generalize maybeStrip env sw cell = s
  simp only [Bool.and_eq_true, Bool.or_eq_true, eats_hmm.fullmatch, eats_hhmm1.fullmatch, eats_hhmmss.fullmatch,
    eats_hhmmsszz.fullmatch]
  constructor
  · rintro ⟨-, (((h | ⟨h, m, -, hh, hm, rfl⟩) | h) | h) | h⟩
    · exact Or.inl (Or.inl h)
    · exact Or.inl (Or.inr (Or.inl ⟨h, m, hh, hm, rfl⟩))
    · exact Or.inl (Or.inr (Or.inl h))
    · exact Or.inl (Or.inr (Or.inr h))
    · exact Or.inr h
  · intro hc
    obtain ⟨-, -, n, t, hn, rfl⟩ := hc.facts
    refine ⟨by simp [startsWithDigit, digit_dg h hn], ?_⟩
    rcases hc with (hc | hc | hc) | hc
    · exact Or.inl (Or.inl (Or.inl (Or.inl hc)))
    · exact Or.inl (Or.inl (Or.inr hc))
    · exact Or.inl (Or.inr hc)
    · exact Or.inr hc

/-- Text of digits, colons, signs (and `T`), that starts with a digit and has a colon. -/
structure StampText (s : Str) : Prop where
  colon : ':' ∈ s
  chars : ∀ c ∈ s, ClockChar c ∨ c = 'T'
  first : ∃ n t, n < 10 ∧ s = dg n :: t
  last : ∃ n t, n < 10 ∧ s = t ++ [dg n]

theorem StampText.strip {env : PyEnv} (h : env.Ascii) {s : Str} (hs : StampText s) : env.strip s = s := by
  apply strip_of_ends
  · obtain ⟨n, t, hn, rfl⟩ := hs.first
    intro c hc
    simp only [List.head?_cons, Option.some.injEq] at hc
    subst hc; exact space_dg h hn
  · obtain ⟨n, t, hn, rfl⟩ := hs.last
    intro c hc
    simp only [List.getLast?_concat, Option.some.injEq] at hc
    subst hc; exact space_dg h hn

theorem StampText.maybeStrip {env : PyEnv} (h : env.Ascii) {s : Str} (hs : StampText s) (sw : Bool) :
    maybeStrip env sw s = s := by
  unfold Clever.maybeStrip
  rw [hs.strip h]; simp

/-- The tests that come before the time test fail for such texts. -/
theorem StampText.early {env : PyEnv} (h : env.Ascii) {s : Str} (hs : StampText s) (sw : Bool) :
    s ≠ [] ∧ runRegex env sw (reUrl env) s = false ∧ runRegex env sw reEmail s = false ∧
      runRegex env sw (reIpv4 env) s = false ∧ isNumber env sw s = false := by
  have ne : ∀ c ∈ s, ∀ d, isDig d = false → d ≠ ':' → d ≠ '+' → d ≠ '-' → d ≠ 'T' → c ≠ d := by
    intro c hc d h1 h2 h3 h4 h5
    rcases hs.chars c hc with h | rfl
    · exact h.ne h1 h2 h3 h4
    · exact Ne.symm h5
  have hn := number_avoids_colon h
  refine ⟨?_, ?_, ?_, ?_, ?_⟩
  · obtain ⟨n, t, hn, rfl⟩ := hs.first; simp
  · unfold runRegex
    rw [hs.maybeStrip h]
    refine (url_needs env).fullmatch fun c hc => ?_
    rintro (h | h)
    · exact ne c hc '.' (by decide) (by decide) (by decide) (by decide) (by decide) h
    · exact ne c hc 'l' (by decide) (by decide) (by decide) (by decide) (by decide) h
  · unfold runRegex
    rw [hs.maybeStrip h]
    exact email_needs.fullmatch fun c hc =>
      ne c hc '@' (by decide) (by decide) (by decide) (by decide) (by decide)
  · unfold runRegex
    rw [hs.maybeStrip h]
    exact (ipv4_needs env).fullmatch fun c hc =>
      ne c hc '.' (by decide) (by decide) (by decide) (by decide) (by decide)
  · unfold isNumber runRegex
    rw [hs.maybeStrip h, hn.1.fullmatch hs.colon, hn.2.1.fullmatch hs.colon, hn.2.2.fullmatch hs.colon]
    simp

theorem Spec.IsClock.last {s : Str} (h : IsClock s) : ∃ n t, n < 10 ∧ s = t ++ [dg n] := by
  rcases h with h | ⟨h, m, x, oh, om, g, hh, hm, hx, hoh, hom, hg, rfl⟩
  · exact h.facts.2.2.2.1
  · exact ⟨om % 10, pad2 h ++ ':' :: pad2 m ++ ':' :: pad2 x ++ g :: pad2 oh ++ [':', dg (om / 10)], by omega, by
      simp [pad2]⟩

theorem Spec.IsClock.stamp {s : Str} (h : IsClock s) : StampText s :=
  ⟨h.facts.1, fun c hc => Or.inl (h.facts.2.1 c hc), h.facts.2.2, h.last⟩

/-- A cell has type `time` exactly when it is a clock time. -/
theorem detectType_time_iff {env : PyEnv} (h : env.Ascii) (cell : Str) (q sw : Bool) :
    detectType env cell q sw = .ok (some "time") ↔ IsClock (maybeStrip env sw cell) := by
  have ht := isTime_iff h sw (maybeStrip env sw cell)
  rw [maybeStrip_idem] at ht
  unfold detectType
  generalize maybeStrip env sw cell = s at ht
  constructor
  · intro hd
    rw [← ht]
    simp only [typeTests, firstType] at hd
    revert hd
    cases decide (s = []) <;> cases runRegex env sw (reUrl env) s <;> cases runRegex env sw reEmail s <;>
      cases runRegex env sw (reIpv4 env) s <;> cases isNumber env sw s <;> cases isTime env sw s <;> simp
    cases isPercentage env sw s <;> cases isCurrency env sw s <;> cases runRegex env sw reUnixPath s <;>
      cases isNan env s <;> cases isDate env sw s <;> cases isDatetime env sw s <;>
      cases isUnicodeAlphanum env sw s q <;> cases isBytearray s <;> simp
    cases isJsonObj env s with
    | error e => simp
    | ok b => cases b <;> simp
  · intro hc
    obtain ⟨h1, h2, h3, h4, h5⟩ := hc.stamp.early h sw
    simp only [typeTests, firstType, h1, h2, h3, h4, h5, ht.2 hc, decide_false]

/-! ## Time stamps -/

theorem splitAt1_none {x : Char} {a : Str} (h : x ∉ a) : splitAt1 x a = [a] := by
  induction a with
  | nil => rfl
  | cons c a ih =>
    simp only [List.mem_cons, not_or] at h
    simp only [splitAt1, ih h.2, if_neg (Ne.symm h.1)]

theorem splitAt1_append {x : Char} {a : Str} (h : x ∉ a) (b : Str) :
    splitAt1 x (a ++ x :: b) = a :: splitAt1 x b := by
  induction a with
  | nil => simp [splitAt1]
  | cons c a ih =>
    simp only [List.mem_cons, not_or] at h
    simp only [List.cons_append, splitAt1, ih h.2, if_neg (Ne.symm h.1)]

theorem isoDate_chars {y m d : Nat} (hy : y < 10000) (hm : m < 100) (hd : d < 100) :
    ∀ c ∈ isoDate y m d, (∃ n, n < 10 ∧ c = dg n) ∨ c = '-' := by
  intro c hc
  simp only [isoDate, List.mem_cons, List.mem_append] at hc
  rcases hc with ((hc | hc) | rfl | hc) | rfl | hc
  · exact Or.inl (pad2_digits (by omega) c hc)
  · exact Or.inl (pad2_digits (by omega) c hc)
  · exact Or.inr rfl
  · exact Or.inl (pad2_digits (by omega) c hc)
  · exact Or.inr rfl
  · exact Or.inl (pad2_digits (by omega) c hc)

theorem isoDate_not_mem {y m d : Nat} (hy : y < 10000) (hm : m < 100) (hd : d < 100) {x : Char}
    (h1 : isDig x = false) (h2 : x ≠ '-') : x ∉ isoDate y m d := by
  intro hx
  rcases isoDate_chars hy hm hd x hx with ⟨n, hn, rfl⟩ | rfl
  · exact dg_ne hn h1 rfl
  · exact h2 rfl

theorem plain_not_mem {t : Str} (ht : IsPlainClock t) {x : Char} (h1 : isDig x = false) (h2 : x ≠ ':') : x ∉ t := by
  intro hx
  rcases ht.facts.2.1 x hx with ⟨n, hn, rfl⟩ | rfl
  · exact dg_ne hn h1 rfl
  · exact h2 rfl

theorem pad2_not_mem {m : Nat} (hm : m < 100) {x : Char} (h1 : isDig x = false) : x ∉ pad2 m := by
  intro hx
  obtain ⟨n, hn, rfl⟩ := pad2_digits hm x hx
  exact dg_ne hn h1 rfl

theorem isClock_length {s : Str} (h : IsClock s) : s.length ≤ 8 ∨ s.length = 14 := by
  rcases h with h | ⟨h, m, x, oh, om, g, hh, hm, hx, hoh, hom, hg, rfl⟩
  · exact Or.inl h.facts.2.2.2.2.1
  · right; simp [pad2]

/-- A clock time followed by a sign and some digits is a clock time only with an offset `hh:mm`. -/
theorem not_isClock_offset {t o : Str} (ht : IsPlainClock t) {g : Char} (hg : g = '+' ∨ g = '-')
    (ho : ':' ∉ o) : ¬ IsClock (t ++ g :: o) := by
  have hgm : g ∈ t ++ g :: o := by simp
  have g1 : isDig g = false := by rcases hg with rfl | rfl <;> decide
  have g2 : g ≠ ':' := by rcases hg with rfl | rfl <;> decide
  rintro (h | ⟨h, m, x, oh, om, g', hh, hm, hx, hoh, hom, hg', he⟩)
  · exact plain_not_mem h g1 g2 hgm
  · -- split both sides at the sign
    have hl : IsPlainClock (pad2 h ++ ':' :: pad2 m ++ ':' :: pad2 x) := Or.inr (Or.inr ⟨h, m, x, hh, hm, hx, rfl⟩)
    have key : ∀ (a b : Str) (u v : Str), g ∉ a → (∀ c ∈ b, c ≠ '+' ∧ c ≠ '-') → a ++ g :: u = b ++ g' :: v →
        (∀ c ∈ a, c ≠ '+' ∧ c ≠ '-') → u = v := by
      intro a
      induction a with
      | nil =>
        intro b u v _ hb e _
        cases b with
        | nil => simp at e; exact e.2
        | cons c b =>
          simp only [List.nil_append, List.cons_append, List.cons.injEq] at e
          have := hb c (by simp)
          rcases hg with rfl | rfl
          · exact absurd e.1.symm this.1
          · exact absurd e.1.symm this.2
      | cons c a ih =>
        intro b u v ha hb e hpm
        cases b with
        | nil =>
          simp only [List.nil_append, List.cons_append, List.cons.injEq] at e
          have := hpm c (by simp)
          rcases hg' with rfl | rfl
          · exact absurd e.1 this.1
          · exact absurd e.1 this.2
        | cons d b =>
          simp only [List.cons_append, List.cons.injEq] at e
          refine ih b u v (fun h => ha (by simp [h])) (fun c hc => hb c (by simp [hc])) e.2
            (fun c hc => hpm c (by simp [hc]))
    have pm : ∀ {t : Str}, IsPlainClock t → ∀ c ∈ t, c ≠ '+' ∧ c ≠ '-' := by
      intro t ht c hc
      exact ⟨fun h => plain_not_mem ht (x := '+') (by decide) (by decide) (h ▸ hc),
        fun h => plain_not_mem ht (x := '-') (by decide) (by decide) (h ▸ hc)⟩
    have := key t _ o (pad2 oh ++ ':' :: pad2 om) (plain_not_mem ht g1 g2) (pm hl) (by simpa using he) (pm ht)
    rw [this] at ho
    simp at ho

theorem stamp_offset {y m d : Nat} (hy : y < 10000) (hm : m < 100) (hd : d < 100) {t : Str} (ht : IsPlainClock t)
    {g : Char} (hg : g = '+' ∨ g = '-') {o : Str} (ho : ∀ c ∈ o, (∃ n, n < 10 ∧ c = dg n) ∨ c = ':')
    (hl : ∃ n u, n < 10 ∧ o = u ++ [dg n]) :
    StampText (isoDate y m d ++ 'T' :: (t ++ g :: o)) := by
  refine ⟨by simp [ht.facts.1], ?_, ⟨y / 100 / 10, _, by omega, rfl⟩, ?_⟩
  · intro c hc
    simp only [List.mem_append, List.mem_cons] at hc
    rcases hc with hc | rfl | hc | rfl | hc
    · rcases isoDate_chars hy hm hd c hc with h | rfl
      · exact Or.inl (Or.inl h)
      · exact Or.inl (Or.inr (Or.inr (Or.inr rfl)))
    · exact Or.inr rfl
    · rcases ht.facts.2.1 c hc with h | h
      · exact Or.inl (Or.inl h)
      · exact Or.inl (Or.inr (Or.inl h))
    · exact Or.inl (Or.inr (Or.inr hg))
    · rcases ho c hc with h | h
      · exact Or.inl (Or.inl h)
      · exact Or.inl (Or.inr (Or.inl h))
  · obtain ⟨n, u, hn, rfl⟩ := hl
    exact ⟨n, isoDate y m d ++ 'T' :: (t ++ g :: u), hn, by simp⟩

/-- The offset part of the date-time test. -/
theorem isIsoTime_offset {env : PyEnv} {sw : Bool} {t o : Str} (ht : IsPlainClock t) {g : Char}
    (hg : g = '+' ∨ g = '-') (ho : g ∉ o) (ho' : '+' ∉ o) (hz : endsWith1 (t ++ g :: o) 'Z' = false)
    (hn : isTime env sw (t ++ g :: o) = false) :
    isIsoTime env sw (t ++ g :: o) = (isTime env sw t &&
      (isTime env sw o || runRegex env sw reTimeHHMM2 o || runRegex env sw reTimeHH o)) := by
  have hgt : g ∉ t := by rcases hg with rfl | rfl <;> exact plain_not_mem ht (by decide) (by decide)
  have hs : isOffsetTime env sw g (t ++ g :: o) = (isTime env sw t &&
      (isTime env sw o || runRegex env sw reTimeHHMM2 o || runRegex env sw reTimeHH o)) := by
    unfold isOffsetTime
    rw [splitAt1_append hgt, splitAt1_none ho]
  unfold isIsoTime
  rw [hz, hn]
  rcases hg with rfl | rfl
  · have : (t ++ '+' :: o).contains '+' = true := by simp
    simp [this, hs]
  · have h1 : (t ++ '-' :: o).contains '+' = false := by
      rw [Bool.eq_false_iff]
      intro h
      simp only [List.contains_iff_mem, List.mem_append, List.mem_cons] at h
      rcases h with h | h | h
      · exact plain_not_mem ht (by decide) (by decide) h
      · revert h; decide
      · exact ho' h
    have h2 : (t ++ '-' :: o).contains '-' = true := by simp
    rw [h1, h2, hs]
    simp

/-- The date-time test for `yyyy-mm-ddT…` texts. -/
theorem isDatetime_iso {env : PyEnv} (h : env.Ascii) (sw : Bool) {y m d : Nat} (hy : y < 10000) (hm : m < 100)
    (hd : d < 100) {t : Str} (h1 : ' ' ∉ t) (h2 : 'T' ∉ t) :
    isDatetime env sw (isoDate y m d ++ 'T' :: t) =
      (isDate env sw (isoDate y m d) && isIsoTime env sw t) := by
  unfold isDatetime
  have hsd : startsWithDigit env (isoDate y m d ++ 'T' :: t) = true := by
    show env.digit (dg (y / 100 / 10)) = true
    exact digit_dg h (by omega)
  have hsp : (isoDate y m d ++ 'T' :: t).contains ' ' = false := by
    rw [Bool.eq_false_iff]
    intro hc
    simp only [List.contains_iff_mem, List.mem_append, List.mem_cons] at hc
    rcases hc with hc | hc | hc
    · exact isoDate_not_mem hy hm hd (by decide) (by decide) hc
    · revert hc; decide
    · exact h1 hc
  have hT : (isoDate y m d ++ 'T' :: t).contains 'T' = true := by simp
  rw [hsd, hsp, hT, splitAt1_append (isoDate_not_mem hy hm hd (by decide) (by decide)), splitAt1_none h2]
  simp

theorem mem_times_cls {p : Char → Bool} {n : Nat} {s : MState} {w r : Str} (h : s.rest = w ++ r)
    (hl : w.length = n) (hp : ∀ c ∈ w, p c = true) :
    (⟨w.reverse ++ s.pre, r, s.caps⟩ : MState) ∈ ((Re.cls p).times n).run s :=
  (eats_times_cls p n s _).2 ⟨w, r, ⟨hl, hp⟩, h, rfl⟩

/-- Every `yyyy-mm-dd` with a year from 1000 to 2999, a month and a day is a date. -/
theorem isDate_isoDate {env : PyEnv} (h : env.Ascii) (sw : Bool) {y m d : Nat} (hy1 : 1000 ≤ y) (hy2 : y < 3000)
    (hm1 : 1 ≤ m) (hm2 : m ≤ 12) (hd1 : 1 ≤ d) (hd2 : d ≤ 31) : isDate env sw (isoDate y m d) = true := by
  have hst : maybeStrip env sw (isoDate y m d) = isoDate y m d := by
    unfold maybeStrip
    split
    · apply strip_of_ends
      · intro c hc
        have : c = dg (y / 100 / 10) := by simpa [isoDate, pad2, eq_comm] using hc
        subst this; exact space_dg h (by omega)
      · intro c hc
        have : c = dg (d % 10) := by simpa [isoDate, pad2, eq_comm] using hc
        subst this; exact space_dg h (by omega)
    · rfl
  unfold isDate
  simp only [hst, Bool.and_eq_true]
  refine ⟨by show env.digit (dg (y / 100 / 10)) = true; exact digit_dg h (by omega), ?_⟩
  unfold runRegex
  rw [hst, fullmatch_isSome]
  have dgt : ∀ n, n < 10 → env.decimal (dg n) = true := fun n hn => decimal_dg h hn
  -- the third alternative: year, separator, month, separator, day
  have hmon : ∀ (pre r : Str) (caps), (⟨(pad2 m).reverse ++ pre, r, caps⟩ : MState) ∈
      reMonth.run ⟨pre, pad2 m ++ r, caps⟩ := by
    intro pre r caps
    unfold reMonth
    rw [mem_alt]
    by_cases h10 : m < 10
    · left
      have e1 : m / 10 = 0 := by omega
      have e2 : m % 10 = m := by omega
      rw [mem_seq]
      refine ⟨⟨dg 0 :: pre, dg m :: r, caps⟩, ?_, ?_⟩
      · rw [mem_opt, mem_chr]; left; exact ⟨dg m :: r, by simp [pad2, e1, e2]; rfl, by simp; rfl⟩
      · rw [mem_cls]
        exact ⟨dg m, r, rfl, (rng_dg (a := 1) (b := 9) (by omega) (by omega)).2 ⟨m, by omega, by omega, rfl⟩, by
          simp [pad2, e1, e2]⟩
    · right
      have e1 : m / 10 = 1 := by omega
      rw [mem_seq]
      refine ⟨⟨dg 1 :: pre, dg (m % 10) :: r, caps⟩, ?_, ?_⟩
      · rw [mem_chr]; exact ⟨dg (m % 10) :: r, by simp [pad2, e1]; rfl, by simp; rfl⟩
      · rw [mem_cls]
        exact ⟨dg (m % 10), r, rfl, (rng_dg (a := 0) (b := 2) (by omega) (by omega)).2 ⟨m % 10, by omega, by omega, rfl⟩,
          by simp [pad2, e1]⟩
  have hday : ∀ (pre r : Str) (caps), (⟨(pad2 d).reverse ++ pre, r, caps⟩ : MState) ∈
      (reDay env).run ⟨pre, pad2 d ++ r, caps⟩ := by
    intro pre r caps
    unfold reDay reDayTail
    rw [mem_alt, mem_alt]
    have hc : d / 10 = 0 ∨ (d / 10 = 1 ∨ d / 10 = 2) ∨ d / 10 = 3 := by omega
    rcases hc with e1 | e1 | e1
    · left
      have e2 : d % 10 = d := by omega
      rw [mem_seq]
      refine ⟨⟨dg 0 :: pre, dg d :: r, caps⟩, ?_, ?_⟩
      · rw [mem_opt, mem_chr]; left; exact ⟨dg d :: r, by simp [pad2, e1, e2]; rfl, by simp; rfl⟩
      · rw [mem_cls]
        exact ⟨dg d, r, rfl, (rng_dg (a := 1) (b := 9) (by omega) (by omega)).2 ⟨d, by omega, by omega, rfl⟩, by
          simp [pad2, e1, e2]⟩
    · right; left
      rw [mem_seq]
      refine ⟨⟨dg (d / 10) :: pre, dg (d % 10) :: r, caps⟩, ?_, ?_⟩
      · rw [mem_cls]
        refine ⟨dg (d / 10), dg (d % 10) :: r, rfl, ?_, rfl⟩
        rcases e1 with e1 | e1 <;> rw [e1] <;> decide
      · rw [mem_cls]; exact ⟨dg (d % 10), r, rfl, dgt _ (by omega), by simp [pad2]⟩
    · right; right
      rw [mem_seq]
      refine ⟨⟨dg 3 :: pre, dg (d % 10) :: r, caps⟩, ?_, ?_⟩
      · rw [mem_chr]; exact ⟨dg (d % 10) :: r, by simp [pad2, e1]; rfl, by simp; rfl⟩
      · rw [mem_cls]
        refine ⟨dg (d % 10), r, rfl, ?_, by simp [pad2, e1]⟩
        have : d % 10 = 0 ∨ d % 10 = 1 := by omega
        rcases this with e | e <;> rw [e] <;> decide
  let Y : Str := pad2 (y / 100) ++ pad2 (y % 100)
  let rest1 : Str := '-' :: (pad2 m ++ '-' :: (pad2 d ++ []))
  have hY : (⟨Y.reverse ++ [], rest1, []⟩ : MState) ∈ (reYear env).run ⟨[], Y ++ rest1, []⟩ := by
    unfold reYear
    rw [mem_alt, mem_seq]
    left
    refine ⟨⟨[dg (y / 100 / 10)], dg (y / 100 % 10) :: (pad2 (y % 100) ++ rest1), []⟩, ?_, ?_⟩
    · rw [mem_cls]
      refine ⟨dg (y / 100 / 10), _, rfl, ?_, rfl⟩
      have : y / 100 / 10 = 1 ∨ y / 100 / 10 = 2 := by omega
      rcases this with e | e <;> rw [e] <;> decide
    · have := mem_times_cls (p := env.decimal) (n := 3)
        (s := ⟨[dg (y / 100 / 10)], dg (y / 100 % 10) :: (pad2 (y % 100) ++ rest1), []⟩)
        (w := dg (y / 100 % 10) :: pad2 (y % 100)) (r := rest1) (by simp) (by simp [pad2]) (by
          intro c hc
          rcases List.mem_cons.1 hc with rfl | hc
          · exact dgt _ (by omega)
          · obtain ⟨n, hn, rfl⟩ := pad2_digits (by omega) c hc
            exact dgt n hn)
      simpa [Y, pad2] using this
  have hsep : oneOf "-/. ".toList '-' = true := by decide
  refine ⟨⟨(pad2 d).reverse ++ ('-' :: ((pad2 m).reverse ++ ('-' :: (Y.reverse ++ [])))), [], [(3, ['-'])]⟩, ?_, rfl⟩
  unfold reDate
  rw [any_cons, any_cons, any_cons, mem_alt, mem_alt, mem_alt]
  right; right; left
  rw [mem_seq]
  refine ⟨⟨Y.reverse ++ [], rest1, []⟩, by simpa [isoDate, Y, rest1] using hY, ?_⟩
  rw [any_cons, mem_alt]
  left
  unfold reSep
  rw [cat_cons, cat_cons, cat_cons, cat_one, mem_seq]
  refine ⟨⟨'-' :: (Y.reverse ++ []), pad2 m ++ '-' :: (pad2 d ++ []), [(3, ['-'])]⟩, ?_, ?_⟩
  · rw [mem_grp]
    refine ⟨⟨'-' :: (Y.reverse ++ []), pad2 m ++ '-' :: (pad2 d ++ []), []⟩, ?_, ?_⟩
    · rw [mem_cls]; exact ⟨'-', _, rfl, hsep, rfl⟩
    · simp [MState.between, rest1, pad2]
  · rw [mem_seq]
    refine ⟨_, hmon _ ('-' :: (pad2 d ++ [])) _, ?_⟩
    rw [mem_seq]
    refine ⟨⟨'-' :: ((pad2 m).reverse ++ ('-' :: (Y.reverse ++ []))), pad2 d ++ [], [(3, ['-'])]⟩, ?_, hday _ [] _⟩
    simp [Re.run, MState.group, MState.eat]

end Clever
