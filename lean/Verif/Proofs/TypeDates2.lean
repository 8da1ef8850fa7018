import Verif.Proofs.TypeDates

/-!
# Dates are not of another type
-/

namespace Clever

open Spec

variable {env : PyEnv}

theorem day_chars (h : env.Ascii) {d : Str} (hd : IsDay env.decimal d) : ∀ c ∈ d, env.decimal c = true := by
  have hp : ∀ {n : Nat}, n < 100 → ∀ c ∈ pad2 n, env.decimal c = true := by
    intro n hn c hc
    obtain ⟨k, hk, rfl⟩ := pad2_digits hn c hc
    exact decimal_dg h hk
  rcases hd with (⟨n, _, _, rfl⟩ | ⟨x, z, hx, hz, rfl⟩ | rfl | rfl) | ⟨n, _, _, rfl⟩
  · exact hp (by omega)
  · intro c hc
    simp only [List.mem_cons, List.not_mem_nil, or_false] at hc
    rcases hc with rfl | rfl
    · rcases hx with rfl | rfl <;> (rw [h.decimal _ (by decide)]; decide)
    · exact hz
  · exact hp (by omega)
  · exact hp (by omega)
  · intro c hc
    rw [List.mem_singleton.1 hc]; exact decimal_dg h (by omega)

theorem month_chars (h : env.Ascii) {m : Str} (hm : IsMonth m) : ∀ c ∈ m, env.decimal c = true := by
  rcases hm with ⟨n, _, _, rfl⟩ | ⟨n, _, _, rfl⟩
  · intro c hc
    obtain ⟨k, hk, rfl⟩ := pad2_digits (by omega) c hc
    exact decimal_dg h hk
  · intro c hc
    rw [List.mem_singleton.1 hc]; exact decimal_dg h (by omega)

theorem year_chars (h : env.Ascii) {y : Str} (hy : IsYear env.decimal y) : ∀ c ∈ y, env.decimal c = true := by
  rcases hy with ⟨x, ds, hx, -, ha, rfl⟩ | ⟨-, ha⟩
  · intro c hc
    rcases List.mem_cons.1 hc with rfl | hc
    · rcases hx with rfl | rfl <;> (rw [h.decimal _ (by decide)]; decide)
    · exact ha c hc
  · exact ha

/-- The characters of a date. -/
def DateChar (env : PyEnv) (c : Char) : Prop := env.decimal c = true ∨ c ∈ "-/. 年月日년월일".toList

theorem date_shape (h : env.Ascii) {s : Str} (hs : IsDateText env.decimal s) :
    (∀ c ∈ s, DateChar env c) ∧ s.countP (· = '.') ≤ 2 := by
  have hp : ∀ {l : Str}, (∀ c ∈ l, env.decimal c = true) → l.countP (· = '.') = 0 := by
    intro l hl
    have := countP_zero_of (q := fun c => decide (c = '.')) hl (by
      intro c hc
      rw [decide_eq_false_iff_not]
      rintro rfl
      rw [h.decimal _ (by decide)] at hc; exact absurd hc (by decide))
    omega
  obtain ⟨d, m, y, hd, hm, hy, hs⟩ := hs
  have cd := day_chars h hd
  have cm := month_chars h hm
  have cy := year_chars h hy
  have three : ∀ {a b c : Str} {x z : Char} {w : Str}, (∀ c ∈ a, env.decimal c = true) → (∀ c ∈ b, env.decimal c = true) →
      (∀ v ∈ c, env.decimal v = true) → x ∈ "-/. 年月日년월일".toList → z ∈ "-/. 年月日년월일".toList →
      (∀ c ∈ w, c ∈ "年月日년월일".toList) → s = a ++ x :: (b ++ z :: (c ++ w)) →
      (∀ c ∈ s, DateChar env c) ∧ s.countP (· = '.') ≤ 2 := by
    rintro a b c x z w ha hb hc hx hz hw rfl
    constructor
    · intro v hv
      simp only [List.mem_append, List.mem_cons] at hv
      have hsub : ∀ c ∈ "年月日년월일".toList, c ∈ "-/. 年月日년월일".toList := by decide
      rcases hv with hv | rfl | hv | rfl | hv | hv
      · exact Or.inl (ha v hv)
      · exact Or.inr hx
      · exact Or.inl (hb v hv)
      · exact Or.inr hz
      · exact Or.inl (hc v hv)
      · exact Or.inr (hsub v (hw v hv))
    · have hw0 : w.countP (· = '.') = 0 := by
        rw [List.countP_eq_zero]
        intro v hv
        have : ∀ c ∈ "年月日년월일".toList, ¬ (decide (c = '.') = true) := by decide
        exact this v (hw v hv)
      simp only [List.countP_append, List.countP_cons, hp ha, hp hb, hp hc, hw0]
      split <;> split <;> omega
  have nosep : ∀ {a b c : Str}, (∀ c ∈ a, env.decimal c = true) → (∀ c ∈ b, env.decimal c = true) →
      (∀ v ∈ c, env.decimal v = true) → s = a ++ (b ++ c) →
      (∀ c ∈ s, DateChar env c) ∧ s.countP (· = '.') ≤ 2 := by
    rintro a b c ha hb hc rfl
    constructor
    · intro v hv
      simp only [List.mem_append] at hv
      rcases hv with hv | hv | hv
      · exact Or.inl (ha v hv)
      · exact Or.inl (hb v hv)
      · exact Or.inl (hc v hv)
    · simp only [List.countP_append, hp ha, hp hb, hp hc]; omega
  have nil : ∀ c ∈ ([] : Str), c ∈ "年月日년월일".toList := by intro c hc; cases hc
  have hsep : ∀ c ∈ "-/. ".toList, c ∈ "-/. 年月日년월일".toList := by decide
  rcases hs with ⟨x, hx, hs | hs | hs⟩ | ⟨-, -, hs | hs | hs⟩ | hs | hs
  · exact three cm cd cy (hsep x hx) (hsep x hx) nil (by rw [hs, List.append_nil])
  · exact three cd cm cy (hsep x hx) (hsep x hx) nil (by rw [hs, List.append_nil])
  · exact three cy cm cd (hsep x hx) (hsep x hx) nil (by rw [hs, List.append_nil])
  · exact nosep cm cd cy hs
  · exact nosep cd cm cy hs
  · exact nosep cy cm cd hs
  · exact three cy cm cd (w := ['日']) (by decide) (by decide) (by decide) hs
  · exact three cy cm cd (w := ['일']) (by decide) (by decide) (by decide) hs

theorem dateChar_low (h : env.Ascii) {c : Char} (hc : DateChar env c) : low c = false := by
  rcases hc with hc | hc
  · rw [Bool.eq_false_iff]
    intro hl
    rw [low_not_decimal h hl] at hc; cases hc
  · have : ∀ c ∈ "-/. 年月日년월일".toList, low c = false := by decide
    exact this c hc

theorem dateChar_ne (h : env.Ascii) {c x : Char} (hc : DateChar env c) (hx : x.toNat < 128) (h1 : isDig x = false)
    (h2 : x ∉ "-/. 年月日년월일".toList) : c ≠ x := by
  rintro rfl
  rcases hc with hc | hc
  · rw [h.decimal _ hx, h1] at hc; cases hc
  · exact h2 hc

theorem date_not_mem (h : env.Ascii) {s : Str} (hs : IsDateText env.decimal s) {x : Char} (hx : x.toNat < 128)
    (h1 : isDig x = false) (h2 : x ∉ "-/. 年月日년월일".toList) : x ∉ s :=
  fun hm => dateChar_ne h ((date_shape h hs).1 x hm) hx h1 h2 rfl

theorem date_not_url (h : env.Ascii) {s : Str} (hs : IsDateText env.decimal s) :
    ¬ IsUrlText (wordChar env) env.decimal s := by
  intro hu
  rcases url_simple hu (date_not_mem h hs (by decide) (by decide) (by decide)) with
    ⟨p, q, hp, -, hsub⟩ | ⟨q, d, hq, rfl⟩
  · have := dateChar_low h ((date_shape h hs).1 p (hsub.subset (by simp)))
    rw [this] at hp; cases hp
  · have h1 := quad_points hq
    have h2 := (date_shape h hs).2
    rw [List.countP_append] at h2; omega

/-- A URL whose part before some `:` or `/` has no such character and no lower-case letter. -/
theorem url_prefix (h : env.Ascii) {p r : Str} {x : Char} (hs : IsUrlText (wordChar env) env.decimal (p ++ x :: r))
    (hx : x = ':' ∨ x = '/') (hp : ∀ c ∈ p, low c = false) : 3 ≤ p.countP (· = '.') := by
  obtain ⟨a, b, u, d, ha, hb, -, -, he⟩ := hs
  have first : ∀ {y : Char} {t : Str}, p ++ x :: r = y :: t → low y = true → False := by
    intro y t h1 h2
    cases p with
    | nil =>
      have := (List.cons.inj h1).1
      subst this
      rcases hx with rfl | rfl <;> exact absurd h2 (by decide)
    | cons c p =>
      have := (List.cons.inj h1).1
      subst this
      rw [hp _ (by simp)] at h2; cases h2
  -- a part without `x` is at the beginning of `p`
  have pre : ∀ {v w : Str}, x ∉ v → p ++ x :: r = v ++ w → ∃ z, p = v ++ z := by
    intro v w hv hvw
    rcases List.append_eq_append_iff.1 hvw with ⟨z, h1, h2⟩ | ⟨z, h1, -⟩
    · cases z with
      | nil => exact ⟨[], by simpa using h1.symm⟩
      | cons y z =>
        have := (List.cons.inj h2).1
        subst this
        exact absurd (by rw [h1]; simp) hv
    · exact ⟨z, h1⟩
  have xa : x.toNat < 128 := by rcases hx with rfl | rfl <;> decide
  have xd : env.decimal x = false := by rw [h.decimal _ xa]; rcases hx with rfl | rfl <;> decide
  have xw : wordChar env x = false := by rw [alnum_of_wordChar h xa]; rcases hx with rfl | rfl <;> decide
  have xl : low x = false := by rcases hx with rfl | rfl <;> decide
  rcases ha with rfl | ⟨ha, -⟩
  · rw [List.nil_append] at he
    rcases hb with hdom | ⟨p', -, rfl⟩ | ⟨q, p', hq, -, rfl⟩
    · have hxb : x ∉ b := by
        intro hm
        rcases domain_chars hdom x hm with h1 | h1 | h1 | h1
        · rw [xw] at h1; cases h1
        · rw [xl] at h1; cases h1
        · rcases hx with rfl | rfl <;> exact absurd h1 (by decide)
        · rcases hx with rfl | rfl <;> exact absurd h1 (by decide)
      obtain ⟨z, hz⟩ := pre hxb he
      obtain ⟨labels, tld, cc, -, -, ⟨h3, h4⟩, -, rfl⟩ := hdom
      match tld, h3 with
      | y :: w :: tld, _ =>
        have hy := hp y (by rw [hz]; simp)
        rw [h4 y (by simp)] at hy; cases hy
    · exact (first (t := "ocalhost".toList ++ p' ++ (u ++ d)) he (by decide)).elim
    · have hxq : x ∉ q := by
        intro hm
        rcases quad_chars hq x hm with h1 | h1
        · rw [xd] at h1; cases h1
        · rcases hx with rfl | rfl <;> exact absurd h1 (by decide)
      rw [List.append_assoc] at he
      obtain ⟨z, rfl⟩ := pre hxq he
      have := quad_points hq
      rw [List.countP_append]; omega
  · simp only [List.mem_cons, List.not_mem_nil, or_false] at ha
    rcases ha with rfl | rfl | rfl
    · exact (first (t := "ttp://".toList ++ (b ++ (u ++ d))) he (by decide)).elim
    · exact (first (t := "ttps://".toList ++ (b ++ (u ++ d))) he (by decide)).elim
    · exact (first (t := "tp://".toList ++ (b ++ (u ++ d))) he (by decide)).elim

/-- What is stripped is white space at the ends. -/
theorem maybeStrip_split (env : PyEnv) (sw : Bool) (s : Str) :
    ∃ l r, s = l ++ (maybeStrip env sw s ++ r) ∧ (∀ c ∈ l, env.space c = true) ∧ (∀ c ∈ r, env.space c = true) := by
  unfold maybeStrip
  split
  · unfold PyEnv.strip
    generalize hu : s.dropWhile env.space = u
    refine ⟨s.takeWhile env.space, (u.reverse.takeWhile env.space).reverse, ?_, ?_, ?_⟩
    · have h1 := List.takeWhile_append_dropWhile (p := env.space) (l := s)
      have h2 := congrArg List.reverse (List.takeWhile_append_dropWhile (p := env.space) (l := u.reverse))
      rw [List.reverse_append, List.reverse_reverse] at h2
      rw [h2, ← hu]
      exact h1.symm
    · intro c hc
      exact List.all_eq_true.mp (List.all_takeWhile (p := env.space) (l := s)) c hc
    · intro c hc
      exact List.all_eq_true.mp (List.all_takeWhile (p := env.space) (l := u.reverse)) c (List.mem_reverse.1 hc)
  · exact ⟨[], [], by simp, (by intro c hc; cases hc), (by intro c hc; cases hc)⟩

theorem space_low (h : env.Ascii) {c : Char} (hc : env.space c = true) : low c = false := by
  rw [Bool.eq_false_iff]
  intro hl
  rw [h.space _ (low_ascii hl)] at hc
  simp [low] at hl
  simp at hc
  rcases hc with (rfl | hc) | hc
  · simp at hl
  · omega
  · omega

theorem dg_low {n : Nat} (h : n < 10) : low (dg n) = false := by
  have : ∀ n : Fin 10, low (dg n.1) = false := by decide
  exact this ⟨n, h⟩

/-- The part of a clock time before the first colon. -/
theorem clock_prefix {s : Str} (h : IsClock s) : ∃ p r, s = p ++ ':' :: r ∧ ∀ c ∈ p, ∃ n, n < 10 ∧ c = dg n := by
  rcases h with (⟨a, b, ha, hb, rfl⟩ | ⟨a, b, ha, hb, rfl⟩ | ⟨a, b, x, ha, hb, hx, rfl⟩) |
    ⟨a, b, x, oh, om, g, ha, hb, hx, hoh, hom, hg, rfl⟩
  · exact ⟨[dg a], _, rfl, by intro c hc; exact ⟨a, ha, List.mem_singleton.1 hc⟩⟩
  · exact ⟨pad2 a, _, rfl, pad2_digits (by omega)⟩
  · exact ⟨pad2 a, _, by simp only [List.append_assoc, List.cons_append]; rfl, pad2_digits (by omega)⟩
  · exact ⟨pad2 a, _, by simp only [List.append_assoc, List.cons_append]; rfl, pad2_digits (by omega)⟩

/-- The part of the time after `T` before the first colon. -/
theorem isoTime_prefix {sw : Bool} {t : Str} (ht : IsIsoTimeText (maybeStrip env sw) t) :
    ∃ p r, t = p ++ ':' :: r ∧ ∀ c ∈ p, env.space c = true ∨ ∃ n, n < 10 ∧ c = dg n := by
  have key : ∀ {u w : Str}, t = u ++ w → IsClock (maybeStrip env sw u) →
      ∃ p r, t = p ++ ':' :: r ∧ ∀ c ∈ p, env.space c = true ∨ ∃ n, n < 10 ∧ c = dg n := by
    intro u w h1 h2
    obtain ⟨l, r, h3, h4, -⟩ := maybeStrip_split env sw u
    obtain ⟨p, r', h5, h6⟩ := clock_prefix h2
    refine ⟨l ++ p, r' ++ r ++ w, ?_, ?_⟩
    · rw [h1, h3, h5]; simp
    · intro c hc
      rcases List.mem_append.1 hc with hc | hc
      · exact Or.inl (h4 c hc)
      · exact Or.inr (h6 c hc)
  rcases ht with ⟨u, h1, h2⟩ | h2 | ⟨a, b, ⟨-, -, r, -, h1⟩, h2, -⟩ | ⟨-, a, b, ⟨-, -, r, -, h1⟩, h2, -⟩
  · exact key h1 h2
  · exact key (w := []) (by simp) h2
  · exact key h1 h2
  · exact key h1 h2

theorem datetime_colon {date : Str → Prop} {sw : Bool} {s : Str} (hs : IsDatetimeText date (maybeStrip env sw) s) :
    ':' ∈ s := by
  rcases hs with ⟨a, b, -, -, rfl, -, h1⟩ | ⟨-, a, b, -, -, rfl, -, h1⟩
  · obtain ⟨p, r, h2, -⟩ := clock_prefix h1
    have : ':' ∈ b := mem_maybeStrip (env := env) (sw := sw) (by rw [h2]; simp)
    simp [this]
  · obtain ⟨p, r, rfl, -⟩ := isoTime_prefix h1
    simp

theorem datetime_not_url (h : env.Ascii) {sw : Bool} {s : Str}
    (hs : IsDatetimeText (IsDateText env.decimal) (maybeStrip env sw) s) :
    ¬ IsUrlText (wordChar env) env.decimal s := by
  intro hu
  rcases hs with ⟨a, b, -, -, rfl, -, -⟩ | ⟨-, a, b, -, -, rfl, h1, h2⟩
  · exact url_not_mem h hu (c := ' ') (by decide) (by decide) (by decide) (by simp)
  · obtain ⟨l, r, ha, hl, hr⟩ := maybeStrip_split env sw a
    obtain ⟨p, r', hb, hp⟩ := isoTime_prefix h2
    obtain ⟨hd1, hd2⟩ := date_shape h h1
    have sp : ∀ {v : Str}, (∀ c ∈ v, env.space c = true) → v.countP (· = '.') = 0 := by
      intro v hv
      rw [List.countP_eq_zero]
      intro c hc
      rw [decide_eq_true_eq]
      rintro rfl
      have := hv _ hc
      rw [h.space _ (by decide)] at this
      exact absurd this (by decide)
    have pp : p.countP (· = '.') = 0 := by
      rw [List.countP_eq_zero]
      intro c hc
      rw [decide_eq_true_eq]
      rintro rfl
      rcases hp _ hc with h3 | ⟨n, hn, h3⟩
      · rw [h.space _ (by decide)] at h3; exact absurd h3 (by decide)
      · exact dg_ne hn (c := '.') (by decide) h3.symm
    have hcount : (a ++ 'T' :: p).countP (· = '.') ≤ 2 := by
      rw [ha]
      simp only [List.countP_append, List.countP_cons, sp hl, sp hr, pp]
      simp only [show decide ('T' = '.') = false by decide]
      simp at hd2 ⊢
      omega
    have hlow : ∀ c ∈ a ++ 'T' :: p, low c = false := by
      intro c hc
      rw [ha] at hc
      simp only [List.mem_append, List.mem_cons] at hc
      rcases hc with (hc | hc | hc) | rfl | hc
      · exact space_low h (hl c hc)
      · exact dateChar_low h (hd1 c hc)
      · exact space_low h (hr c hc)
      · decide
      · rcases hp c hc with h3 | ⟨n, hn, rfl⟩
        · exact space_low h h3
        · exact dg_low hn
    have := url_prefix h (p := a ++ 'T' :: p) (x := ':') (r := r') (by rw [hb] at hu; simpa using hu) (Or.inl rfl) hlow
    omega

/-- The tests that come before the dates fail on a text that begins with a digit. -/
theorem currency_first {sw : Bool} {c : Char} {t : Str} (hc : env.currency c = false) :
    ¬ IsCurrencyText env.currency env.reSpace env.decimal (maybeStrip env sw) (c :: t) := by
  rintro ⟨c', w, n, h1, -, -, -, h2⟩
  rw [(List.cons.inj h2).1, h1] at hc; cases hc

theorem not_nan_of_digit (h : env.Ascii) {c : Char} {t : Str} (hc : isDig c = true) (ha : ∀ x ∈ c :: t, x.toNat < 128) :
    isNan env (c :: t) = false := by
  obtain ⟨n, hn, rfl⟩ := isDig_iff.1 hc
  unfold isNan
  rw [h.lower _ ha]
  have : asciiLower (dg n) ≠ 'n' := by
    have : ∀ n : Fin 10, asciiLower (dg n.1) ≠ 'n' := by decide
    exact this ⟨n, hn⟩
  simp [this]

theorem comma_of_grouped {dig : Char → Bool} {sep radix : Char} {s : Str} (h : IsGrouped dig sep radix s) :
    sep ∈ s ∧ radix ∈ s := by
  obtain ⟨g, n, ds, -, ⟨k, v, gs, -, -, -, -, hne, hgs, rfl⟩, -, rfl⟩ := h
  refine ⟨?_, by simp⟩
  cases gs with
  | nil => exact absurd rfl hne
  | cons x gs =>
    obtain ⟨y, -, -, rfl⟩ := hgs x (by simp)
    simp

/-- A number without `e` has at most one sign. -/
theorem decimal_signs (h : env.Ascii) {s : Str} (hs : IsDecimalNumber env.decimal s) (he : ∀ c ∈ s, isE c = false) :
    s.countP (· = '-') ≤ 1 ∧ s.countP (· = ',') ≤ 1 := by
  have hp : ∀ {x : Char}, x.toNat < 128 → isDig x = false → ∀ {l : Str}, (∀ c ∈ l, env.decimal c = true) →
      l.countP (· = x) = 0 := by
    intro x h1 h2 l hl
    rw [List.countP_eq_zero]
    intro c hc
    rw [decide_eq_true_eq]
    rintro rfl
    have := hl _ hc
    rw [h.decimal _ h1, h2] at this; cases this
  have noexp : ∀ {e : Str}, (∀ c ∈ e, isE c = false) → ¬ IsExponent env.decimal e := by
    rintro _ hx ⟨x, g, ds, h1, -, -, -, rfl⟩
    have := hx x (by simp)
    rcases h1 with rfl | rfl <;> exact absurd this (by decide)
  obtain ⟨-, g, n, t, hg, hn, ht, rfl⟩ := hs
  have g1 : g.countP (· = '-') ≤ 1 ∧ g.countP (· = ',') = 0 := by rcases hg with rfl | rfl | rfl <;> decide
  have n1 : n.countP (· = '-') = 0 ∧ n.countP (· = ',') = 0 := by
    rcases hn with rfl | hn
    · decide
    · exact ⟨hp (by decide) (by decide) (whole_chars h hn), hp (by decide) (by decide) (whole_chars h hn)⟩
  have het : ∀ c ∈ t, isE c = false := fun c hc => he c (by simp [hc])
  have t1 : t.countP (· = '-') = 0 ∧ t.countP (· = ',') ≤ 1 := by
    have frac : ∀ {x : Char} {ds e : Str}, x ≠ '-' → AllIn env.decimal ds → (e = [] ∨ IsExponent env.decimal e) →
        t = x :: (ds ++ e) → t.countP (· = '-') = 0 ∧ t.countP (· = ',') ≤ 1 := by
      rintro x ds e hx hd hee rfl
      have : e = [] := by
        rcases hee with rfl | hee
        · rfl
        · exact absurd hee (noexp fun c hc => het c (by simp [hc]))
      subst this
      have d1 := hp (x := '-') (by decide) (by decide) hd
      have d2 := hp (x := ',') (by decide) (by decide) hd
      simp only [List.countP_cons, List.append_nil, d1, d2]
      refine ⟨by simp [hx], by split <;> omega⟩
    rcases ht with rfl | ⟨-, hx⟩ | ⟨ds, e, h1, -, h2, h3⟩ | ⟨ds, e, h1, -, h2, h3⟩
    · decide
    · exact absurd hx (noexp het)
    · exact frac (by decide) h1 h2 h3
    · exact frac (by decide) h1 (h2.imp id And.right) h3
  simp only [List.countP_append]
  omega

theorem isE_decimal (h : env.Ascii) {c : Char} (hc : env.decimal c = true) : isE c = false := by
  rw [Bool.eq_false_iff]
  intro hx
  simp only [isE, Bool.or_eq_true, decide_eq_true_eq] at hx
  rcases hx with rfl | rfl <;> (rw [h.decimal _ (by decide)] at hc; exact absurd hc (by decide))

/-- A date with separators is not a number. -/
theorem sepDate_not_number (h : env.Ascii) {s a b c : Str} {x : Char} (hs : IsDateText env.decimal s)
    (hx : x ∈ "-/. ".toList) (he : s = a ++ x :: (b ++ x :: c)) : ¬ IsNumberText env.decimal s := by
  intro hn
  have hm : x ∈ s := by rw [he]; simp
  have hc : ',' ∉ s := date_not_mem h hs (by decide) (by decide) (by decide)
  have hdec : IsDecimalNumber env.decimal s := by
    rcases hn with hn | hn | hn
    · exact hn
    · exact absurd (comma_of_grouped hn).1 hc
    · exact absurd (comma_of_grouped hn).2 hc
  have h2 : ∀ {y : Char}, y = x → 2 ≤ s.countP (· = y) := by
    rintro y rfl
    rw [he]
    simp only [List.countP_append, List.countP_cons]
    simp
    omega
  have : x = '-' ∨ x = '/' ∨ x = '.' ∨ x = ' ' := by simpa using hx
  rcases this with rfl | rfl | rfl | rfl
  · have h3 := h2 (y := '-') rfl
    have h4 := (decimal_signs h hdec (by
      intro c hc
      rcases (date_shape h hs).1 c hc with h5 | h5
      · exact isE_decimal h h5
      · have : ∀ c ∈ "-/. 年月日년월일".toList, isE c = false := by decide
        exact this c h5)).1
    omega
  · exact number_not_mem h hn (by decide) (by decide) (by decide) hm
  · have h3 := h2 (y := '.') rfl
    have h4 := (decimal_counts h hdec).1
    omega
  · exact number_not_mem h hn (by decide) (by decide) (by decide) hm

end Clever
