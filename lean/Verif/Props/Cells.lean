import Verif.Proofs.TypeNan

/-!
# What the types of cells are: C77 - C82

`Spec/Cells.lean` describes the texts of each type with sequences of characters, without regular expressions.
`env` has the character tables of Python; `env.Ascii` says that they have the usual values on ASCII, and the
tables are arbitrary elsewhere.
-/

namespace Clever.Props

open Spec

variable {env : PyEnv}

/-! ## C77: URLs and IPv4 addresses -/

/-- C77: the URL test accepts exactly the described texts. -/
theorem C77_url_test (env : PyEnv) (sw : Bool) (cell : Str) :
    runRegex env sw (reUrl env) cell = true ↔ IsUrlText (wordChar env) env.decimal (maybeStrip env sw cell) :=
  url_test env sw cell

/-- C77: and those cells get the type `url`. -/
theorem C77_url_type (env : PyEnv) (q sw : Bool) (cell : Str) : detectType env cell q sw = .ok (some "url") ↔
    IsUrlText (wordChar env) env.decimal (maybeStrip env sw cell) := url_type_iff

/-- C77: the IPv4 test accepts four groups of one to three digits (also numbers over 255). -/
theorem C77_ipv4_test (env : PyEnv) (sw : Bool) (cell : Str) :
    runRegex env sw (reIpv4 env) cell = true ↔ IsDottedQuad env.decimal (maybeStrip env sw cell) :=
  ipv4_test env sw cell

/-- C77 is false: no cell ever gets the type `ipv4`, because the URL test comes first and accepts all IPv4
addresses. -/
theorem C77_ipv4_violated (env : PyEnv) (q sw : Bool) (cell : Str) :
    detectType env cell q sw ≠ .ok (some "ipv4") := by
  intro h1
  obtain ⟨f, h2, h3⟩ := type_sound h1
  simp [typeTests] at h2
  subst h2
  have ht := ipv4_test env sw (maybeStrip env sw cell)
  rw [maybeStrip_idem] at ht
  have hu : detectType env cell q sw = .ok (some "url") := url_type_iff.2 (quad_url (ht.1 (by simpa using h3)))
  rw [hu] at h1
  exact absurd h1 (by decide)

/-- C77 as far as it holds: addresses get the type `url`, and so does any other dotted quad.  Missing: the type
`ipv4`. -/
theorem C77_address_partial (env : PyEnv) (q sw : Bool) (cell : Str)
    (h : IsDottedQuad env.decimal (maybeStrip env sw cell)) :
    detectType env cell q sw = .ok (some "url") ∧ isKnownType env cell q sw = .ok true := by
  have := url_type_iff (q := q).2 (quad_url h)
  refine ⟨this, ?_⟩
  unfold isKnownType
  rw [this]; rfl

example : IsDottedQuad isDig "999.0.0.1".toList :=
  ⟨"999".toList, "0".toList, "0".toList, "1".toList, by unfold AllIn; decide +kernel, by decide⟩
example : detectType asciiEnv "192.168.0.1".toList = .ok (some "url") := by decide +kernel
example : IsUrlText (wordChar asciiEnv) isDig "https://a-b.org/x?y=1".toList :=
  ⟨"https://".toList, "a-b.org".toList, "/x?y=1".toList, [], Or.inr ⟨by decide, by decide⟩,
    Or.inl ⟨["a-b.".toList], "org".toList, [], by decide,
      by intro x hx; rw [List.mem_singleton.1 hx]; exact ⟨"a-b".toList, by decide, by unfold AllIn; decide +kernel, by decide⟩,
      ⟨by decide, by unfold AllIn; decide⟩, Or.inl rfl, by decide⟩,
    Or.inr ⟨"x?y=1".toList, by unfold AllIn; decide +kernel, by decide⟩, Or.inl rfl, by decide⟩
/-- Upper case in the top-level name is not accepted. -/
example : detectType asciiEnv "https://a-b.ORG/".toList ≠ .ok (some "url") := by decide +kernel

/-! ## C78: numbers -/

/-- C78: the number test accepts exactly the described texts. -/
theorem C78_number_test (env : PyEnv) (h : env.Ascii) (sw : Bool) (cell : Str) :
    isNumber env sw cell = true ↔ IsNumberText env.decimal (maybeStrip env sw cell) := isNumber_iff h sw cell

/-- C78: and those cells get the type `number`. -/
theorem C78_number_type (env : PyEnv) (h : env.Ascii) (q sw : Bool) (cell : Str) :
    detectType env cell q sw = .ok (some "number") ↔ IsNumberText env.decimal (maybeStrip env sw cell) :=
  number_type_iff h

/-- C78 is false: a sign alone is a number. -/
theorem C78_sign_violated (env : PyEnv) (h : env.Ascii) (q sw : Bool) (c : Char) (hc : c = '+' ∨ c = '-') :
    detectType env [c] q sw = .ok (some "number") := by
  rw [C78_number_type env h]
  have : maybeStrip env sw [c] = [c] := by
    unfold maybeStrip
    split
    · have hs : env.space c = false := by
        rcases hc with rfl | rfl <;> exact space_of h (by decide) (by decide)
      exact strip_of_ends env (by intro x hx; simp at hx; subst hx; exact hs)
        (by intro x hx; simp at hx; subst hx; exact hs)
    · rfl
  rw [this]
  refine Or.inl ⟨by simp, [c], [], [], ?_, Or.inl rfl, Or.inl rfl, by simp⟩
  rcases hc with rfl | rfl
  · exact Or.inr (Or.inl rfl)
  · exact Or.inr (Or.inr rfl)

/-- C78 is false: whole numbers with two or more separated groups of thousands are not numbers. -/
theorem C78_thousands_violated (env : PyEnv) (h : env.Ascii) (q sw : Bool) (cell sign : Str) (sep : Char)
    (hsep : sep = ',' ∨ sep = '.') (n : Nat) (ds : Str) (gs : List Str) (hn : 1 ≤ n ∧ n ≤ 9)
    (hds : AllIn env.decimal ds) (hg : ∀ x ∈ gs, IsGroup env.decimal sep x) (h2 : 2 ≤ gs.length)
    (hsign : IsSign sign) (he : maybeStrip env sw cell = sign ++ dg n :: (ds ++ gs.flatten)) :
    detectType env cell q sw ≠ .ok (some "number") := by
  rw [Ne, C78_number_type env h, he]
  -- the only characters apart from digits are the sign and the separator
  have hchars : ∀ c ∈ sign ++ dg n :: (ds ++ gs.flatten), c = '+' ∨ c = '-' ∨ env.decimal c = true ∨ c = sep := by
    intro c hc
    simp only [List.mem_append, List.mem_cons] at hc
    rcases hc with hc | rfl | hc | hc
    · rcases sign_chars hsign c hc with rfl | rfl
      · exact Or.inl rfl
      · exact Or.inr (Or.inl rfl)
    · exact Or.inr (Or.inr (Or.inl (decimal_dg h (by omega))))
    · exact Or.inr (Or.inr (Or.inl (hds c hc)))
    · obtain ⟨x, hx, hc⟩ := List.mem_flatten.1 hc
      obtain ⟨y, -, hy, rfl⟩ := hg x hx
      rcases List.mem_cons.1 hc with rfl | hc
      · exact Or.inr (Or.inr (Or.inr rfl))
      · exact Or.inr (Or.inr (Or.inl (hy c hc)))
  have hdx : ∀ x : Char, x.toNat < 128 → isDig x = false → env.decimal x = false := fun x h1 h2 => by
    rw [h.decimal _ h1, h2]
  have hother : ∀ x : Char, (x = ',' ∨ x = '.') → x ∈ sign ++ dg n :: (ds ++ gs.flatten) → x = sep := by
    intro x hx hm
    rcases hchars x hm with rfl | rfl | h1 | h1
    · rcases hx with h1 | h1 <;> exact absurd h1 (by decide)
    · rcases hx with h1 | h1 <;> exact absurd h1 (by decide)
    · rcases hx with rfl | rfl <;> (rw [hdx _ (by decide) (by decide)] at h1; cases h1)
    · exact h1
  have hcount : 2 ≤ (sign ++ dg n :: (ds ++ gs.flatten)).countP (· = sep) := by
    match gs, h2 with
    | a :: b :: gs, _ =>
      obtain ⟨y, -, -, rfl⟩ := hg a (by simp)
      obtain ⟨z, -, -, rfl⟩ := hg b (by simp)
      simp only [List.countP_append, List.countP_cons, List.flatten_cons, List.cons_append]
      simp
      omega
  rintro (hd | hd | hd)
  · rcases hsep with rfl | rfl
    · have := (decimal_signs h hd (by
        intro c hc
        rcases hchars c hc with rfl | rfl | h1 | rfl
        · decide
        · decide
        · exact isE_decimal h h1
        · decide)).2
      omega
    · have := (decimal_counts h hd).1
      omega
  · have h1 := hother ',' (Or.inl rfl) (comma_of_grouped hd).1
    have h2 := hother '.' (Or.inr rfl) (comma_of_grouped hd).2
    rw [← h2] at h1; exact absurd h1 (by decide)
  · have h1 := hother ',' (Or.inl rfl) (comma_of_grouped hd).2
    have h2 := hother '.' (Or.inr rfl) (comma_of_grouped hd).1
    rw [← h2] at h1; exact absurd h1 (by decide)

/-- C78 as far as it holds: plain numerals are numbers.  Missing: whole numbers with two or more separated
thousands; and the converse fails for a sign without digits. -/
theorem C78_numeral_partial (env : PyEnv) (h : env.Ascii) (q sw : Bool) (cell sign whole frac ex : Str)
    (hs : IsSign sign) (hw : IsWhole env.decimal whole)
    (hf : frac = [] ∨ ∃ ds, AllIn env.decimal ds ∧ frac = '.' :: ds)
    (hx : ex = [] ∨ IsExponent env.decimal ex)
    (he : maybeStrip env sw cell = sign ++ (whole ++ (frac ++ ex))) :
    detectType env cell q sw = .ok (some "number") := by
  rw [C78_number_type env h, he]
  have hwne : whole ≠ [] := by
    rcases hw with rfl | ⟨n, ds, -, -, -, rfl⟩ <;> simp
  refine Or.inl ⟨?_, sign, whole, frac ++ ex, hs, Or.inr hw, ?_, rfl⟩
  · intro h0
    have := congrArg List.length h0
    simp only [List.length_append, List.length_nil] at this
    exact hwne (List.length_eq_zero_iff.1 (by omega))
  · rcases hf with rfl | ⟨ds, hds, rfl⟩
    · rcases hx with rfl | hx
      · exact Or.inl rfl
      · exact Or.inr (Or.inl ⟨hwne, hx⟩)
    · exact Or.inr (Or.inr (Or.inl ⟨ds, ex, hds, Or.inl hwne, hx, by simp⟩))

example : detectType asciiEnv "-12.5e+3".toList = .ok (some "number") := by decide +kernel
example : detectType asciiEnv "+".toList = .ok (some "number") := by decide +kernel
example : detectType asciiEnv "1,000".toList = .ok (some "number") ∧
    detectType asciiEnv "1,000,000".toList = .ok none ∧
    detectType asciiEnv "1,000,000.".toList = .ok (some "number") := by
  refine ⟨?_, ?_, ?_⟩ <;> decide +kernel
example : detectType asciiEnv "1,55e5".toList = .ok (some "number") ∧
    detectType asciiEnv "1,5e5".toList = .ok none := by
  constructor <;> decide +kernel

/-! ## C79: percentages and amounts of money -/

/-- C79: the percentage test accepts exactly a number followed by one or more percent signs. -/
theorem C79_percent_test (env : PyEnv) (h : env.Ascii) (sw : Bool) (cell : Str) :
    isPercentage env sw cell = true ↔ IsPercentText env.decimal (maybeStrip env sw) cell := isPercentage_iff h sw cell

/-- C79: and those cells get the type `percentage`. -/
theorem C79_percent_type (env : PyEnv) (h : env.Ascii) (q sw : Bool) (cell : Str) :
    detectType env cell q sw = .ok (some "percentage") ↔
      IsPercentText env.decimal (maybeStrip env sw) (maybeStrip env sw cell) := percent_type_iff h

/-- C79: the currency test accepts exactly a currency sign followed by a number, with white space between
them. -/
theorem C79_currency_test (env : PyEnv) (h : env.Ascii) (sw : Bool) (cell : Str) :
    isCurrency env sw cell = true ↔
      IsCurrencyText env.currency env.reSpace env.decimal (maybeStrip env sw) cell := isCurrency_iff h sw cell

/-- C79: and those cells get the type `currency`, if currency signs are not letters, digits or white space. -/
theorem C79_currency_type (env : PyEnv) (h : env.Ascii) (hcur : CurrencyApart env) (q sw : Bool) (cell : Str) :
    detectType env cell q sw = .ok (some "currency") ↔
      IsCurrencyText env.currency env.reSpace env.decimal (maybeStrip env sw) (maybeStrip env sw cell) :=
  currency_type_iff h hcur

/-- C79: a number with one or more percent signs is a percentage. -/
theorem C79_percent_signs (env : PyEnv) (h : env.Ascii) (q : Bool) (n : Str) (k : Nat) (hk : 1 ≤ k)
    (hn : IsNumberText env.decimal n) :
    detectType env (n ++ List.replicate k '%') q false = .ok (some "percentage") := by
  rw [C79_percent_type env h]
  refine ⟨n, k, hk, ?_, hn, rfl⟩
  intro hl
  have hm : '%' ∈ n := List.mem_of_getLast? hl
  exact number_not_mem h hn (by decide) (by decide) (by decide) hm

/-- C79 is false: two percent signs are accepted. -/
theorem C79_percent_violated (env : PyEnv) (h : env.Ascii) (q : Bool) (n : Str) (hn : IsNumberText env.decimal n) :
    detectType env (n ++ ['%', '%']) q false = .ok (some "percentage") :=
  C79_percent_signs env h q n 2 (by omega) hn

/-- C79 as far as it holds: a number followed by one percent sign is a percentage, and a percentage is nothing
else than a number with percent signs.  Missing: that there is only one sign. -/
theorem C79_percent_partial (env : PyEnv) (h : env.Ascii) (q : Bool) (n : Str) :
    (IsNumberText env.decimal n → detectType env (n ++ ['%']) q false = .ok (some "percentage")) ∧
    (detectType env n q false = .ok (some "percentage") →
      ∃ m k, 1 ≤ k ∧ IsNumberText env.decimal m ∧ n = m ++ List.replicate k '%') := by
  constructor
  · exact fun hn => C79_percent_signs env h q n 1 (by omega) hn
  · intro h1
    obtain ⟨m, k, hk, -, h2, h3⟩ := (C79_percent_type env h q false n).1 h1
    exact ⟨m, k, hk, h2, h3⟩

example : CurrencyApart asciiEnv := by
  intro c hc
  have : c = '$' := by simpa [asciiEnv] using hc
  subst this; decide
example : detectType asciiEnv "5%%%".toList = .ok (some "percentage") := by decide +kernel
example : detectType asciiEnv "$ 1,000.50".toList = .ok (some "currency") ∧
    detectType asciiEnv "1,000.50 $".toList = .ok none := by constructor <;> decide +kernel
example : IsCurrencyText (· = '$') (· = ' ') isDig id "$ 5".toList :=
  ⟨'$', [' '], ['5'], rfl, Or.inr ⟨' ', rfl, rfl⟩, by decide,
    Or.inl ⟨by decide, [], ['5'], [], Or.inl rfl, Or.inr (Or.inr ⟨5, [], by omega, by omega, by unfold AllIn; decide,
      by decide⟩), Or.inl rfl, by decide⟩, rfl⟩

/-! ## C80: dates -/

/-- C80: the date test accepts exactly the described texts. -/
theorem C80_date_test (env : PyEnv) (h : env.Ascii) (hd : DecimalDigits env) (sw : Bool) (cell : Str) :
    isDate env sw cell = true ↔ IsDateText env.decimal (maybeStrip env sw cell) := isDate_iff h hd sw cell

/-- C80: an ASCII cell gets the type `date` exactly when it is such a text and not also a number. -/
theorem C80_date_type (env : PyEnv) (h : env.Ascii) (hd : DecimalDigits env) (q sw : Bool) (cell : Str)
    (ha : ∀ c ∈ cell, c.toNat < 128) :
    detectType env cell q sw = .ok (some "date") ↔
      IsDateText env.decimal (maybeStrip env sw cell) ∧ ¬ IsNumberText env.decimal (maybeStrip env sw cell) :=
  date_type_iff h hd ha

theorem isoDate_eq (y m d : Nat) : isoDate y m d =
    (pad2 (y / 100) ++ pad2 (y % 100)) ++ '-' :: (pad2 m ++ '-' :: pad2 d) := by
  unfold isoDate; simp

theorem isoDate_ascii {y m d : Nat} (hy : y < 10000) (hm : m < 100) (hd : d < 100) :
    ∀ c ∈ isoDate y m d, c.toNat < 128 := by
  have hp : ∀ {n : Nat}, n < 100 → ∀ c ∈ pad2 n, c.toNat < 128 := by
    intro n hn c hc
    obtain ⟨k, hk, rfl⟩ := pad2_digits hn c hc
    exact dg_ascii hk
  rw [isoDate_eq]
  intro c hc
  simp only [List.mem_append, List.mem_cons] at hc
  rcases hc with (hc | hc) | rfl | hc | rfl | hc
  · exact hp (by omega) c hc
  · exact hp (by omega) c hc
  · decide
  · exact hp hm c hc
  · decide
  · exact hp hd c hc

theorem isoDate_strip (h : env.Ascii) (sw : Bool) {y m d : Nat} (hy : y < 10000) (hd : d < 100) :
    maybeStrip env sw (isoDate y m d) = isoDate y m d := by
  unfold maybeStrip
  split
  · rw [isoDate_eq]
    apply strip_of_ends
    · intro c hc
      have : c = dg (y / 100 / 10) := by simpa [pad2, eq_comm] using hc
      subst this; exact space_dg h (by omega)
    · intro c hc
      have : c = dg (d % 10) := by simpa [pad2, eq_comm] using hc
      subst this; exact space_dg h (by omega)
  · rfl

theorem isDay_pad2 (h : env.Ascii) {d : Nat} (h1 : 1 ≤ d) (h2 : d ≤ 31) : IsDay env.decimal (pad2 d) := by
  left
  by_cases d9 : d ≤ 9
  · exact Or.inl ⟨d, h1, d9, rfl⟩
  · by_cases d29 : d ≤ 29
    · refine Or.inr (Or.inl ⟨dg (d / 10), dg (d % 10), ?_, decimal_dg h (by omega), rfl⟩)
      rcases (show d / 10 = 1 ∨ d / 10 = 2 by omega) with e | e <;> rw [e]
      · exact Or.inl (by decide)
      · exact Or.inr (by decide)
    · rcases (show d = 30 ∨ d = 31 by omega) with rfl | rfl
      · exact Or.inr (Or.inr (Or.inl rfl))
      · exact Or.inr (Or.inr (Or.inr rfl))

theorem isYear_pad (h : env.Ascii) {y : Nat} (h1 : 1000 ≤ y) (h2 : y < 3000) :
    IsYear env.decimal (pad2 (y / 100) ++ pad2 (y % 100)) := by
  left
  refine ⟨dg (y / 100 / 10), dg (y / 100 % 10) :: pad2 (y % 100), ?_, by simp [pad2], ?_, rfl⟩
  · rcases (show y / 100 / 10 = 1 ∨ y / 100 / 10 = 2 by omega) with e | e <;> rw [e]
    · exact Or.inl (by decide)
    · exact Or.inr (by decide)
  · intro c hc
    rcases List.mem_cons.1 hc with rfl | hc
    · exact decimal_dg h (by omega)
    · obtain ⟨k, hk, rfl⟩ := pad2_digits (by omega) c hc
      exact decimal_dg h hk

/-- C80: dates like 2020-12-31, with 31 days in every month, get the type `date`. -/
theorem C80_iso_date (env : PyEnv) (h : env.Ascii) (hdd : DecimalDigits env) (q sw : Bool) (y m d : Nat)
    (hy1 : 1000 ≤ y) (hy2 : y < 3000) (hm1 : 1 ≤ m) (hm2 : m ≤ 12) (hd1 : 1 ≤ d) (hd2 : d ≤ 31) :
    detectType env (isoDate y m d) q sw = .ok (some "date") := by
  rw [C80_date_type env h hdd q sw _ (isoDate_ascii (by omega) (by omega) (by omega)),
    isoDate_strip h sw (by omega) (by omega)]
  have hd : IsDateText env.decimal (isoDate y m d) :=
    ⟨pad2 d, pad2 m, pad2 (y / 100) ++ pad2 (y % 100), isDay_pad2 h hd1 hd2, Or.inl ⟨m, hm1, hm2, rfl⟩,
      isYear_pad h hy1 hy2, Or.inl ⟨'-', by decide, Or.inr (Or.inr (isoDate_eq y m d))⟩⟩
  exact ⟨hd, sepDate_not_number h hd (x := '-') (by decide) (isoDate_eq y m d)⟩

/-- C80 is false: days that the month does not have are accepted. -/
theorem C80_calendar_violated (env : PyEnv) (h : env.Ascii) (hdd : DecimalDigits env) (q sw : Bool) (y : Nat)
    (hy1 : 1000 ≤ y) (hy2 : y < 3000) :
    detectType env (isoDate y 2 30) q sw = .ok (some "date") ∧ detectType env (isoDate y 4 31) q sw = .ok (some "date") :=
  ⟨C80_iso_date env h hdd q sw y 2 30 hy1 hy2 (by omega) (by omega) (by omega) (by omega),
    C80_iso_date env h hdd q sw y 4 31 hy1 hy2 (by omega) (by omega) (by omega) (by omega)⟩

/-- C80 is false: dates from the year 3000 on are not accepted. -/
theorem C80_year_violated (env : PyEnv) (h : env.Ascii) (hdd : DecimalDigits env) (q sw : Bool) (y m d : Nat)
    (hy1 : 3000 ≤ y) (hy2 : y < 10000) (hm : m < 100) (hd : d < 100) :
    detectType env (isoDate y m d) q sw ≠ .ok (some "date") := by
  rw [Ne, C80_date_type env h hdd q sw _ (isoDate_ascii (by omega) (by omega) (by omega)),
    isoDate_strip h sw (by omega) (by omega)]
  rintro ⟨⟨d', m', y', h1, h2, h3, h4⟩, -⟩
  have hasc := isoDate_ascii (y := y) (m := m) (d := d) (by omega) (by omega) (by omega)
  -- the part before the first separator is the four digits of the year
  have part : ∀ {a b : Str} {x : Char}, (∀ c ∈ a, env.decimal c = true) → env.decimal x = false →
      isoDate y m d = a ++ x :: b → a = pad2 (y / 100) ++ pad2 (y % 100) := by
    intro a b x ha hx he
    rw [isoDate_eq] at he
    rcases List.append_eq_append_iff.1 he with ⟨z, e1, e2⟩ | ⟨z, e1, e2⟩
    · cases z with
      | nil => simpa using e1
      | cons w z =>
        have e3 := (List.cons.inj e2).1
        have := ha w (by rw [e1]; simp)
        rw [← e3, h.decimal _ (by decide)] at this
        exact absurd this (by decide)
    · cases z with
      | nil => simpa using e1.symm
      | cons w z =>
        have e3 := (List.cons.inj e2).1
        have hw : w ∈ pad2 (y / 100) ++ pad2 (y % 100) := by rw [e1]; simp
        have : env.decimal w = true := by
          rcases List.mem_append.1 hw with hw | hw
          · obtain ⟨k, hk, rfl⟩ := pad2_digits (by omega) w hw; exact decimal_dg h hk
          · obtain ⟨k, hk, rfl⟩ := pad2_digits (by omega) w hw; exact decimal_dg h hk
        rw [← e3, hx] at this; cases this
  have len2d : d'.length ≤ 2 := by
    rcases h1 with (⟨_, _, _, rfl⟩ | ⟨_, _, _, _, rfl⟩ | rfl | rfl) | ⟨_, _, _, rfl⟩ <;> simp [pad2]
  have len2m : m'.length ≤ 2 := by
    rcases h2 with ⟨_, _, _, rfl⟩ | ⟨_, _, _, rfl⟩ <;> simp [pad2]
  have noty : y' ≠ pad2 (y / 100) ++ pad2 (y % 100) := by
    rintro rfl
    rcases h3 with ⟨x, ds, hx, -, -, e⟩ | ⟨e, -⟩
    · have e1 : dg (y / 100 / 10) = x := (List.cons.inj e).1
      have e2 := toNat_dg (n := y / 100 / 10) (by omega)
      rw [e1] at e2
      rcases hx with rfl | rfl
      · have e3 : ('1' : Char).toNat = 49 := by decide
        omega
      · have e3 : ('2' : Char).toNat = 50 := by decide
        omega
    · simp [pad2] at e
  have sepd : ∀ x ∈ "-/. ".toList, env.decimal x = false := by
    intro x hx
    have h5 : ∀ x ∈ "-/. ".toList, x.toNat < 128 ∧ isDig x = false := by decide
    rw [h.decimal _ (h5 x hx).1]; exact (h5 x hx).2
  have hyphen : '-' ∈ isoDate y m d := by rw [isoDate_eq]; simp
  have nodash : ∀ {a : Str}, (∀ c ∈ a, env.decimal c = true) → '-' ∉ a := by
    intro a ha hm
    have := ha _ hm
    rw [h.decimal _ (by decide)] at this
    exact absurd this (by decide)
  have cd := day_chars h h1
  have cm := month_chars h h2
  have cy := year_chars h h3
  rcases h4 with ⟨x, hx, e | e | e⟩ | ⟨-, -, e | e | e⟩ | e | e
  · have := congrArg List.length (part cm (sepd x hx) e); simp [pad2] at this; omega
  · have := congrArg List.length (part cd (sepd x hx) e); simp [pad2] at this; omega
  · exact noty (part cy (sepd x hx) e)
  · rw [e] at hyphen; simp only [List.mem_append] at hyphen
    rcases hyphen with h6 | h6 | h6
    exacts [nodash cm h6, nodash cd h6, nodash cy h6]
  · rw [e] at hyphen; simp only [List.mem_append] at hyphen
    rcases hyphen with h6 | h6 | h6
    exacts [nodash cd h6, nodash cm h6, nodash cy h6]
  · rw [e] at hyphen; simp only [List.mem_append] at hyphen
    rcases hyphen with h6 | h6 | h6
    exacts [nodash cy h6, nodash cm h6, nodash cd h6]
  · exact absurd (hasc '年' (by rw [e]; simp)) (by decide)
  · exact absurd (hasc '년' (by rw [e]; simp)) (by decide)

/-- C80 is false: dates without separators are numbers, unless they begin with zero. -/
theorem C80_compact_violated (env : PyEnv) (h : env.Ascii) (q sw : Bool) (y m d : Nat) (hy1 : 1000 ≤ y)
    (hy2 : y < 10000) (hm : m < 100) (hd : d < 100) :
    detectType env (pad2 (y / 100) ++ (pad2 (y % 100) ++ (pad2 m ++ pad2 d))) q sw = .ok (some "number") := by
  have hs : maybeStrip env sw (pad2 (y / 100) ++ (pad2 (y % 100) ++ (pad2 m ++ pad2 d))) =
      pad2 (y / 100) ++ (pad2 (y % 100) ++ (pad2 m ++ pad2 d)) := by
    unfold maybeStrip
    split
    · apply strip_of_ends
      · intro c hc
        have : c = dg (y / 100 / 10) := by simpa [pad2, eq_comm] using hc
        subst this; exact space_dg h (by omega)
      · intro c hc
        have : c = dg (d % 10) := by simpa [pad2, eq_comm] using hc
        subst this; exact space_dg h (by omega)
    · rfl
  refine C78_numeral_partial env h q sw _ [] (pad2 (y / 100) ++ (pad2 (y % 100) ++ (pad2 m ++ pad2 d))) [] []
    (Or.inl rfl) ?_ (Or.inl rfl) (Or.inl rfl) (by rw [hs]; simp)
  right
  refine ⟨y / 100 / 10, dg (y / 100 % 10) :: (pad2 (y % 100) ++ (pad2 m ++ pad2 d)), by omega, by omega, ?_, rfl⟩
  intro c hc
  simp only [List.mem_append, List.mem_cons] at hc
  rcases hc with rfl | hc | hc | hc
  · exact decimal_dg h (by omega)
  · obtain ⟨k, hk, rfl⟩ := pad2_digits (by omega) c hc; exact decimal_dg h hk
  · obtain ⟨k, hk, rfl⟩ := pad2_digits (by omega) c hc; exact decimal_dg h hk
  · obtain ⟨k, hk, rfl⟩ := pad2_digits (by omega) c hc; exact decimal_dg h hk

/-- C80 as far as it holds: a date with separators, of any of the three orders, gets the type `date`.  Missing:
years from 3000 on and dates without separators; and impossible days are accepted too. -/
theorem C80_date_partial (env : PyEnv) (h : env.Ascii) (hdd : DecimalDigits env) (q : Bool) (d m y : Str) (x : Char)
    (hd : IsDay env.decimal d) (hm : IsMonth m) (hy : IsYear env.decimal y) (hx : x ∈ "-/. ".toList) (cell : Str)
    (hcell : cell = m ++ x :: (d ++ x :: y) ∨ cell = d ++ x :: (m ++ x :: y) ∨ cell = y ++ x :: (m ++ x :: d))
    (ha : ∀ c ∈ cell, c.toNat < 128) : detectType env cell q false = .ok (some "date") := by
  rw [C80_date_type env h hdd q false cell ha]
  have hdt : IsDateText env.decimal cell := ⟨d, m, y, hd, hm, hy, Or.inl ⟨x, hx, hcell⟩⟩
  refine ⟨hdt, ?_⟩
  rcases hcell with e | e | e
  · exact sepDate_not_number h hdt hx e
  · exact sepDate_not_number h hdt hx e
  · exact sepDate_not_number h hdt hx e

example : DecimalDigits asciiEnv := fun _ h => h
example : detectType asciiEnv "31-02-2020".toList = .ok (some "date") := by decide +kernel
example : detectType asciiEnv "3000-01-01".toList ≠ .ok (some "date") := by decide +kernel
example : detectType asciiEnv "20200101".toList = .ok (some "number") ∧
    detectType asciiEnv "010120".toList = .ok (some "date") := by constructor <;> decide +kernel
/-- The separators have to be equal. -/
example : detectType asciiEnv "2020-01/02".toList ≠ .ok (some "date") := by decide +kernel
example : IsDateText isDig "1/2/99".toList :=
  ⟨"2".toList, "1".toList, "99".toList, Or.inr ⟨2, by omega, by omega, by decide⟩, Or.inr ⟨1, by omega, by omega, by decide⟩,
    Or.inr ⟨by decide, by unfold AllIn; decide⟩, Or.inl ⟨'/', by decide, Or.inl (by decide)⟩⟩

/-! ## C81: dates with times -/

/-- C81: the test for dates with times accepts exactly the described texts. -/
theorem C81_datetime_test (env : PyEnv) (h : env.Ascii) (hd : DecimalDigits env) (sw : Bool) (s : Str)
    (hs : maybeStrip env sw s = s) :
    isDatetime env sw s = true ↔ IsDatetimeText (IsDateText env.decimal) (maybeStrip env sw) s :=
  isDatetime_iff h hd sw hs

/-- C81: and an ASCII cell gets the type `datetime` exactly when it is such a text. -/
theorem C81_datetime_type (env : PyEnv) (h : env.Ascii) (hd : DecimalDigits env) (q sw : Bool) (cell : Str)
    (ha : ∀ c ∈ cell, c.toNat < 128) :
    detectType env cell q sw = .ok (some "datetime") ↔
      IsDatetimeText (IsDateText env.decimal) (maybeStrip env sw) (maybeStrip env sw cell) :=
  datetime_type_iff h hd ha

/-- C81 is false: a date with spaces as separators, followed by a time, is not accepted; nor is anything else with
two spaces. -/
theorem C81_spaces_violated (env : PyEnv) (h : env.Ascii) (hd : DecimalDigits env) (q sw : Bool) (cell a b c : Str)
    (ha : ∀ c ∈ cell, c.toNat < 128) (he : maybeStrip env sw cell = a ++ ' ' :: (b ++ ' ' :: c)) :
    detectType env cell q sw ≠ .ok (some "datetime") := by
  rw [Ne, C81_datetime_type env h hd q sw cell ha, he]
  have hcount : ∀ {u v : Str}, ' ' ∉ u → ' ' ∉ v → (u ++ ' ' :: v).countP (· = ' ') = 1 := by
    intro u v hu hv
    have e1 : u.countP (· = ' ') = 0 := by rw [List.countP_eq_zero]; intro x hx; simp; rintro rfl; exact hu hx
    have e2 : v.countP (· = ' ') = 0 := by rw [List.countP_eq_zero]; intro x hx; simp; rintro rfl; exact hv hx
    rw [List.countP_append, List.countP_cons, e1, e2]; simp
  rintro (⟨u, v, hu, hv, e, -⟩ | ⟨hn, -⟩)
  · have h1 := hcount hu hv
    rw [← e] at h1
    simp only [List.countP_append, List.countP_cons] at h1
    simp at h1
    omega
  · exact hn (by simp)

/-- C81 is false: after the offset any text is accepted that begins with the sign of the offset. -/
theorem C81_rest_violated (env : PyEnv) (h : env.Ascii) (hd : DecimalDigits env) (q : Bool) (date time offset rest : Str)
    (h1 : IsDateText env.decimal date) (h2 : IsPlainClock time) (h3 : IsOffsetText offset) (h4 : '+' ∉ offset)
    (h5 : ' ' ∉ date ∧ ' ' ∉ rest) (h6 : 'T' ∉ rest)
    (ha : ∀ c ∈ date ++ 'T' :: (time ++ '+' :: (offset ++ '+' :: rest)), c.toNat < 128) :
    detectType env (date ++ 'T' :: (time ++ '+' :: (offset ++ '+' :: rest))) q false = .ok (some "datetime") := by
  rw [C81_datetime_type env h hd q false _ ha]
  have offc : ∀ x, isDig x = false → x ∉ ":+-".toList → x ∉ offset := by
    intro x hx1 hx2
    rcases h3 with h3 | ⟨a, b, ha, hb, rfl⟩
    · exact clock_not_mem h3 hx1 hx2
    · intro hm
      rcases List.mem_append.1 hm with hm | hm
      · exact pad2_not_mem (by omega) hx1 hm
      · exact pad2_not_mem (by omega) hx1 hm
  have timec : ∀ x, isDig x = false → x ∉ ":+-".toList → x ∉ time := fun x hx1 hx2 =>
    clock_not_mem (Or.inl h2) hx1 hx2
  have plus : '+' ∉ time := plain_not_mem h2 (by decide) (by decide)
  have hTd : 'T' ∉ date := date_not_mem h h1 (by decide) (by decide) (by decide)
  refine Or.inr ⟨?_, date, time ++ '+' :: (offset ++ '+' :: rest), hTd, ?_, rfl, h1, ?_⟩
  · intro hm
    simp only [maybeStrip, if_neg (show ¬ (false = true) by decide), List.mem_append, List.mem_cons] at hm
    rcases hm with hm | hm | hm | hm | hm | hm | hm
    · exact h5.1 hm
    · exact absurd hm (by decide)
    · exact timec _ (by decide) (by decide) hm
    · exact absurd hm (by decide)
    · exact offc _ (by decide) (by decide) hm
    · exact absurd hm (by decide)
    · exact h5.2 hm
  · intro hm
    simp only [List.mem_append, List.mem_cons] at hm
    rcases hm with hm | hm | hm | hm | hm
    · exact timec _ (by decide) (by decide) hm
    · exact absurd hm (by decide)
    · exact offc _ (by decide) (by decide) hm
    · exact absurd hm (by decide)
    · exact h6 hm
  · exact Or.inr (Or.inr (Or.inl ⟨time, offset, ⟨plus, h4, '+' :: rest, Or.inr rfl, rfl⟩, Or.inl h2, h3⟩))

/-- C81 as far as it holds: a date without spaces, a space and a clock time give the type `datetime`; so do a date,
`T` and a clock time, also with `Z`.  Missing: dates with spaces; and too much is accepted after an offset. -/
theorem C81_datetime_partial (env : PyEnv) (h : env.Ascii) (hd : DecimalDigits env) (q : Bool) (date time : Str)
    (h1 : IsDateText env.decimal date) (h2 : ' ' ∉ date) (h3 : IsClock time) (ha : ∀ c ∈ date, c.toNat < 128) :
    detectType env (date ++ ' ' :: time) q false = .ok (some "datetime") ∧
    detectType env (date ++ 'T' :: time) q false = .ok (some "datetime") ∧
    detectType env (date ++ 'T' :: (time ++ ['Z'])) q false = .ok (some "datetime") := by
  have hat : ∀ c ∈ time, c.toNat < 128 := by
    intro c hc
    rcases clock_chars h3 c hc with ⟨n, hn, rfl⟩ | h4
    · exact dg_ascii hn
    · have : ∀ c ∈ ":+-".toList, c.toNat < 128 := by decide
      exact this c h4
  have hTd : 'T' ∉ date := date_not_mem h h1 (by decide) (by decide) (by decide)
  have tm : ∀ x, isDig x = false → x ∉ ":+-".toList → x ∉ time := fun x hx1 hx2 => clock_not_mem h3 hx1 hx2
  have hs := tm ' ' (by decide) (by decide)
  have ht := tm 'T' (by decide) (by decide)
  refine ⟨?_, ?_, ?_⟩
  · rw [C81_datetime_type env h hd q false]
    · exact Or.inl ⟨date, time, h2, hs, rfl, h1, h3⟩
    · intro c hc
      simp only [List.mem_append, List.mem_cons] at hc
      rcases hc with hc | rfl | hc
      exacts [ha c hc, by decide, hat c hc]
  · rw [C81_datetime_type env h hd q false]
    · refine Or.inr ⟨?_, date, time, hTd, ht, rfl, h1, Or.inr (Or.inl h3)⟩
      simp only [maybeStrip, if_neg (show ¬ (false = true) by decide), List.mem_append, List.mem_cons]
      rintro (h4 | h4 | h4)
      exacts [h2 h4, absurd h4 (by decide), hs h4]
    · intro c hc
      simp only [List.mem_append, List.mem_cons] at hc
      rcases hc with hc | rfl | hc
      exacts [ha c hc, by decide, hat c hc]
  · rw [C81_datetime_type env h hd q false]
    · refine Or.inr ⟨?_, date, time ++ ['Z'], hTd, ?_, rfl, h1, Or.inl ⟨time, rfl, h3⟩⟩
      · simp only [maybeStrip, if_neg (show ¬ (false = true) by decide), List.mem_append, List.mem_cons,
          List.not_mem_nil, or_false]
        rintro (h4 | h4 | h4 | h4)
        exacts [h2 h4, absurd h4 (by decide), hs h4, absurd h4 (by decide)]
      · simp only [List.mem_append, List.mem_cons, List.not_mem_nil, or_false]
        rintro (h4 | h4)
        exacts [ht h4, absurd h4 (by decide)]
    · intro c hc
      simp only [List.mem_append, List.mem_cons, List.not_mem_nil, or_false] at hc
      rcases hc with hc | rfl | hc | rfl
      exacts [ha c hc, by decide, hat c hc, by decide]

example : detectType asciiEnv "2020 01 02 12:30".toList = .ok none ∧
    detectType asciiEnv "2020 01 02".toList = .ok (some "date") := by constructor <;> decide +kernel
example : detectType asciiEnv "2020-01-02T12:30+01:00+{any@thing}".toList = .ok (some "datetime") := by decide +kernel
example : detectType asciiEnv "1/2/99 9:05".toList = .ok (some "datetime") := by decide +kernel

/-! ## C82: e-mail addresses, paths, missing values and words -/

/-- C82: e-mail addresses. -/
theorem C82_email_type (env : PyEnv) (h : env.Ascii) (q sw : Bool) (cell : Str) :
    detectType env cell q sw = .ok (some "email") ↔ IsEmailText (maybeStrip env sw cell) := email_type_iff h

/-- C82: paths. -/
theorem C82_path_type (env : PyEnv) (h : env.Ascii) (q sw : Bool) (cell : Str) :
    detectType env cell q sw = .ok (some "unix_path") ↔ IsPathText (maybeStrip env sw cell) := path_type_iff h

/-- C82: missing values, for ASCII cells. -/
theorem C82_nan_type (env : PyEnv) (h : env.Ascii) (q sw : Bool) (cell : Str) (ha : ∀ c ∈ cell, c.toNat < 128) :
    detectType env cell q sw = .ok (some "nan") ↔ IsNanText (maybeStrip env sw cell) := nan_type_iff h ha

/-- C82: the test for words, for ASCII cells. -/
theorem C82_word_test (env : PyEnv) (h : env.Ascii) (q sw : Bool) (cell : Str) (ha : ∀ c ∈ cell, c.toNat < 128) :
    isUnicodeAlphanum env sw cell q = true ↔ IsWordText q (maybeStrip env sw cell) := isUnicodeAlphanum_iff h sw q ha

/-- C82: the test for words, for cells in any script. -/
theorem C82_script_word_test (env : PyEnv) (q sw : Bool) (cell : Str) :
    isUnicodeAlphanum env sw cell q = true ↔ IsScriptWord env.number env.letter q (maybeStrip env sw cell) := by
  have h1 : isUnicodeAlphanum env sw cell q = ((reAlnum env (if q then specialsAllowed ++ quotedSpecialsAllowed else
      specialsAllowed)).fullmatch (maybeStrip env sw cell)).isSome := by
    cases q <;> rfl
  rw [h1, (eats_alnum env _).fullmatch]
  unfold IsScriptWord
  refine and_congr Iff.rfl (forall_congr' fun c => imp_congr Iff.rfl ?_)
  have m1 : specialsAllowed = wordMarks.map Char.toNat := by decide +kernel
  have m2 : quotedSpecialsAllowed = commas.map Char.toNat := by decide +kernel
  have inj : ∀ l : Str, c.toNat ∈ l.map Char.toNat ↔ c ∈ l := fun l => by
    rw [List.mem_map]
    exact ⟨fun ⟨x, hx, he⟩ => by rwa [← Char.toNat_inj.1 he], fun hx => ⟨c, hx, rfl⟩⟩
  cases q
  · simp only [wordBody, m1, Bool.or_eq_true, decide_eq_true_eq, List.contains_iff_mem, inj, Bool.false_eq_true, if_false,
      false_and, or_false, or_assoc]
  · simp only [wordBody, m1, m2, Bool.or_eq_true, decide_eq_true_eq, List.contains_iff_mem, if_true, List.mem_append, inj,
      true_and, or_assoc]

/-- A concrete case, with only the ASCII letters as letters. -/
example :
    let env := { asciiEnv with letter := fun c => isLow c || isUpp c }
    isUnicodeAlphanum env true "a？ b。".toList false = true ∧ isUnicodeAlphanum env true "a，b".toList true = true ∧
      isUnicodeAlphanum env true "a，b".toList false = false := by
  decide +kernel

/-- C82: cells of ASCII words have a known type. -/
theorem C82_word_known (env : PyEnv) (h : env.Ascii) (q sw : Bool) (cell : Str) (ha : ∀ c ∈ cell, c.toNat < 128)
    (hw : IsWordText q (maybeStrip env sw cell)) : isKnownType env cell q sw = .ok true := by
  have ht := isUnicodeAlphanum_iff h sw q (cell := maybeStrip env sw cell) (fun c hc => ha c (mem_maybeStrip hc))
  rw [maybeStrip_idem] at ht
  unfold isKnownType
  rw [detectType_chain, firstType_chain, if_neg hw.1]
  by_cases p0 : runRegex env sw (reUrl env) (maybeStrip env sw cell) = true
  · rw [if_pos p0]; rfl
  rw [if_neg p0]
  by_cases p1 : runRegex env sw reEmail (maybeStrip env sw cell) = true
  · rw [if_pos p1]; rfl
  rw [if_neg p1]
  by_cases p2 : runRegex env sw (reIpv4 env) (maybeStrip env sw cell) = true
  · rw [if_pos p2]; rfl
  rw [if_neg p2]
  by_cases p3 : isNumber env sw (maybeStrip env sw cell) = true
  · rw [if_pos p3]; rfl
  rw [if_neg p3]
  by_cases p4 : isTime env sw (maybeStrip env sw cell) = true
  · rw [if_pos p4]; rfl
  rw [if_neg p4]
  by_cases p5 : isPercentage env sw (maybeStrip env sw cell) = true
  · rw [if_pos p5]; rfl
  rw [if_neg p5]
  by_cases p6 : isCurrency env sw (maybeStrip env sw cell) = true
  · rw [if_pos p6]; rfl
  rw [if_neg p6]
  by_cases p7 : runRegex env sw reUnixPath (maybeStrip env sw cell) = true
  · rw [if_pos p7]; rfl
  rw [if_neg p7]
  by_cases p8 : isNan env (maybeStrip env sw cell) = true
  · rw [if_pos p8]; rfl
  rw [if_neg p8]
  by_cases p9 : isDate env sw (maybeStrip env sw cell) = true
  · rw [if_pos p9]; rfl
  rw [if_neg p9]
  by_cases p10 : isDatetime env sw (maybeStrip env sw cell) = true
  · rw [if_pos p10]; rfl
  rw [if_neg p10]
  rw [if_pos (ht.2 hw)]; rfl

/-- C82: cells of ASCII words get the type `unicode_alphanum`, unless they get one of the others that come
before it. -/
theorem C82_word_type (env : PyEnv) (h : env.Ascii) (q sw : Bool) (cell : Str) (ha : ∀ c ∈ cell, c.toNat < 128) :
    detectType env cell q sw = .ok (some "unicode_alphanum") ↔
      IsWordText q (maybeStrip env sw cell) ∧
      ∀ t ∈ ["url", "email", "ipv4", "number", "time", "percentage", "currency", "unix_path", "nan", "date", "datetime"],
        detectType env cell q sw ≠ .ok (some t) := by
  have ht := isUnicodeAlphanum_iff h sw q (cell := maybeStrip env sw cell) (fun c hc => ha c (mem_maybeStrip hc))
  rw [maybeStrip_idem] at ht
  constructor
  · intro h1
    refine ⟨?_, ?_⟩
    · obtain ⟨f, h2, h3⟩ := type_sound h1
      simp [typeTests] at h2
      subst h2
      exact ht.1 (by simpa using h3)
    · rw [h1]; decide
  · rintro ⟨hw, hn⟩
    have hne : maybeStrip env sw cell ≠ [] := hw.1
    by_cases p0 : runRegex env sw (reUrl env) (maybeStrip env sw cell) = true
    · exact absurd (by rw [detectType_chain, firstType_chain, if_neg hne, if_pos p0]) (hn "url" (by decide))
    by_cases p1 : runRegex env sw reEmail (maybeStrip env sw cell) = true
    · exact absurd (by rw [detectType_chain, firstType_chain, if_neg hne, if_neg p0, if_pos p1]) (hn "email" (by decide))
    by_cases p2 : runRegex env sw (reIpv4 env) (maybeStrip env sw cell) = true
    · exact absurd (by rw [detectType_chain, firstType_chain, if_neg hne, if_neg p0, if_neg p1, if_pos p2]) (hn "ipv4" (by decide))
    by_cases p3 : isNumber env sw (maybeStrip env sw cell) = true
    · exact absurd (by rw [detectType_chain, firstType_chain, if_neg hne, if_neg p0, if_neg p1, if_neg p2, if_pos p3]) (hn "number" (by decide))
    by_cases p4 : isTime env sw (maybeStrip env sw cell) = true
    · exact absurd (by rw [detectType_chain, firstType_chain, if_neg hne, if_neg p0, if_neg p1, if_neg p2, if_neg p3, if_pos p4]) (hn "time" (by decide))
    by_cases p5 : isPercentage env sw (maybeStrip env sw cell) = true
    · exact absurd (by rw [detectType_chain, firstType_chain, if_neg hne, if_neg p0, if_neg p1, if_neg p2, if_neg p3, if_neg p4, if_pos p5]) (hn "percentage" (by decide))
    by_cases p6 : isCurrency env sw (maybeStrip env sw cell) = true
    · exact absurd (by rw [detectType_chain, firstType_chain, if_neg hne, if_neg p0, if_neg p1, if_neg p2, if_neg p3, if_neg p4, if_neg p5, if_pos p6]) (hn "currency" (by decide))
    by_cases p7 : runRegex env sw reUnixPath (maybeStrip env sw cell) = true
    · exact absurd (by rw [detectType_chain, firstType_chain, if_neg hne, if_neg p0, if_neg p1, if_neg p2, if_neg p3, if_neg p4, if_neg p5, if_neg p6, if_pos p7]) (hn "unix_path" (by decide))
    by_cases p8 : isNan env (maybeStrip env sw cell) = true
    · exact absurd (by rw [detectType_chain, firstType_chain, if_neg hne, if_neg p0, if_neg p1, if_neg p2, if_neg p3, if_neg p4, if_neg p5, if_neg p6, if_neg p7, if_pos p8]) (hn "nan" (by decide))
    by_cases p9 : isDate env sw (maybeStrip env sw cell) = true
    · exact absurd (by rw [detectType_chain, firstType_chain, if_neg hne, if_neg p0, if_neg p1, if_neg p2, if_neg p3, if_neg p4, if_neg p5, if_neg p6, if_neg p7, if_neg p8, if_pos p9]) (hn "date" (by decide))
    by_cases p10 : isDatetime env sw (maybeStrip env sw cell) = true
    · exact absurd (by rw [detectType_chain, firstType_chain, if_neg hne, if_neg p0, if_neg p1, if_neg p2, if_neg p3, if_neg p4, if_neg p5, if_neg p6, if_neg p7, if_neg p8, if_neg p9, if_pos p10]) (hn "datetime" (by decide))
    rw [detectType_chain, firstType_chain, if_neg hne, if_neg p0, if_neg p1, if_neg p2, if_neg p3, if_neg p4, if_neg p5, if_neg p6, if_neg p7, if_neg p8, if_neg p9, if_neg p10, if_pos (ht.2 hw)]

example : detectType asciiEnv "john.doe+x@mail.example.org".toList = .ok (some "email") := by decide +kernel
example : detectType asciiEnv "~/data/file_1.csv".toList = .ok (some "unix_path") := by decide +kernel
example : IsNanText "N/a".toList := ⟨"n/a".toList, by decide, by
  refine ⟨Or.inr (by decide), Or.inl rfl, Or.inl rfl, trivial⟩⟩
example : detectType asciiEnv "Hello (world)?".toList = .ok (some "unicode_alphanum") ∧
    detectType asciiEnv "a, b".toList = .ok none ∧ detectType asciiEnv "a, b".toList true = .ok (some "unicode_alphanum") := by
  refine ⟨?_, ?_, ?_⟩ <;> decide +kernel

end Clever.Props
