import Verif.Proofs.TypeDates2

/-!
# Types of whole cells
-/

namespace Clever

open Spec

variable {env : PyEnv}

theorem type_sound {sw q : Bool} {cell : Str} {n : String} (h : detectType env cell q sw = .ok (some n)) :
    ∃ f, (n, f) ∈ typeTests env sw ∧ f (maybeStrip env sw cell) q = .ok true := firstType_sound h

theorem asciiLower_eq {c d : Char} (hc : c.toNat < 128) (hd : d ∈ "na/".toList) : asciiLower c = d ↔ SameLetter c d := by
  have key : ∀ n : Fin 128, ∀ d ∈ "na/".toList, decide (asciiLower (Char.ofNat n.1) = d) =
      (decide (Char.ofNat n.1 = d) || (low d && decide ((Char.ofNat n.1).toNat + 32 = d.toNat))) := by decide +kernel
  have := key ⟨c.toNat, hc⟩ d hd
  simp only [Char.ofNat_toNat] at this
  unfold SameLetter
  rw [← decide_eq_true_iff (p := asciiLower c = d), this]
  simp

theorem map_lower_eq {s t : Str} (hs : ∀ c ∈ s, c.toNat < 128) (ht : ∀ d ∈ t, d ∈ "na/".toList) :
    s.map asciiLower = t ↔ SameLetters s t := by
  induction s generalizing t with
  | nil => cases t <;> simp [SameLetters]
  | cons c s ih =>
    cases t with
    | nil => simp [SameLetters]
    | cons d t =>
      rw [List.map_cons, List.cons.injEq, SameLetters, asciiLower_eq (hs c (by simp)) (ht d (by simp)),
        ih (fun c hc => hs c (by simp [hc])) (fun d hd => ht d (by simp [hd]))]

theorem isNan_iff (h : env.Ascii) {s : Str} (hs : ∀ c ∈ s, c.toNat < 128) : isNan env s = true ↔ IsNanText s := by
  unfold isNan
  simp only [h.lower s hs, Bool.or_eq_true, decide_eq_true_eq]
  rw [map_lower_eq hs (by decide), map_lower_eq hs (by decide), map_lower_eq hs (by decide)]
  unfold IsNanText
  simp only [List.mem_cons, List.not_mem_nil, or_false, exists_eq_or_imp, exists_eq_left]
  tauto

theorem nan_chars {s : Str} (h : IsNanText s) :
    (∃ c t, s = c :: t ∧ (c = 'n' ∨ c = 'N')) ∧ ∀ c ∈ s, c ∈ "naNA/".toList := by
  have one : ∀ {c d : Char}, SameLetter c d → d ∈ "na/".toList → c ∈ "naNA/".toList := by
    intro c d h hd
    rcases h with rfl | ⟨h1, h2⟩
    · have : ∀ d ∈ "na/".toList, d ∈ "naNA/".toList := by decide
      exact this c hd
    · have : d = 'n' ∨ d = 'a' ∨ d = '/' := by simpa using hd
      rcases this with rfl | rfl | rfl
      · have hc : c = 'N' := by rw [← Char.ofNat_toNat c, show c.toNat = 78 by simp at h2; omega]
        subst hc; decide
      · have hc : c = 'A' := by rw [← Char.ofNat_toNat c, show c.toNat = 65 by simp at h2; omega]
        subst hc; decide
      · exact absurd h1 (by decide)
  have all : ∀ {s t : Str}, SameLetters s t → (∀ d ∈ t, d ∈ "na/".toList) → ∀ c ∈ s, c ∈ "naNA/".toList := by
    intro s
    induction s with
    | nil => intro t _ _ c hc; cases hc
    | cons x s ih =>
      intro t h ht c hc
      cases t with
      | nil => exact h.elim
      | cons d t =>
        rcases List.mem_cons.1 hc with rfl | hc
        · exact one h.1 (ht _ (by simp))
        · exact ih h.2 (fun d hd => ht d (by simp [hd])) c hc
  obtain ⟨t, ht, h⟩ := h
  have hall : ∀ t ∈ ["n/a".toList, "na".toList, "nan".toList], ∀ d ∈ t, d ∈ "na/".toList := by decide
  refine ⟨?_, all h (hall t ht)⟩
  have hh : ∀ t ∈ ["n/a".toList, "na".toList, "nan".toList], ∃ u, t = 'n' :: u := by
    intro t ht
    simp only [List.mem_cons, List.not_mem_nil, or_false] at ht
    rcases ht with rfl | rfl | rfl
    · exact ⟨['/', 'a'], by decide⟩
    · exact ⟨['a'], by decide⟩
    · exact ⟨['a', 'n'], by decide⟩
  obtain ⟨u, rfl⟩ := hh t ht
  cases s with
  | nil => exact h.elim
  | cons c s =>
    refine ⟨c, s, rfl, ?_⟩
    rcases h.1 with rfl | ⟨-, h3⟩
    · exact Or.inl rfl
    · right
      rw [← Char.ofNat_toNat c, show c.toNat = 78 by simp at h3; omega]

theorem url_type_iff {q sw : Bool} {cell : Str} : detectType env cell q sw = .ok (some "url") ↔
    IsUrlText (wordChar env) env.decimal (maybeStrip env sw cell) := by
  have ht := url_test env sw (maybeStrip env sw cell)
  rw [maybeStrip_idem] at ht
  constructor
  · intro h1
    obtain ⟨f, h2, h3⟩ := type_sound h1
    simp [typeTests] at h2
    subst h2
    exact ht.1 (by simpa using h3)
  · intro h1
    rw [detectType_chain, firstType_chain, if_neg, if_pos (ht.2 h1)]
    rintro h2
    rw [h2] at h1
    obtain ⟨a, b, c, d, -, hb, -, -, he⟩ := h1
    have := host_ne hb
    have hb0 : b = [] := by
      have := congrArg List.length he
      simp only [List.length_nil, List.length_append] at this
      exact List.length_eq_zero_iff.1 (by omega)
    exact this hb0

theorem number_type_iff (h : env.Ascii) {q sw : Bool} {cell : Str} : detectType env cell q sw = .ok (some "number") ↔
    IsNumberText env.decimal (maybeStrip env sw cell) := by
  have ht := isNumber_iff h sw (maybeStrip env sw cell)
  rw [maybeStrip_idem] at ht
  constructor
  · intro h1
    obtain ⟨f, h2, h3⟩ := type_sound h1
    simp [typeTests] at h2
    subst h2
    exact ht.1 (by simpa using h3)
  · intro h1
    have hu := number_not_url h h1
    rw [detectType_chain, firstType_chain, if_neg, if_neg, if_neg, if_neg, if_pos (ht.2 h1)]
    · rw [ipv4_test, maybeStrip_idem]; exact fun hq => hu (quad_url hq)
    · rw [email_test, maybeStrip_idem]
      exact fun he => number_not_mem h h1 (by decide) (by decide) (by decide) (email_at he)
    · rw [url_test, maybeStrip_idem]; exact hu
    · intro h2
      rw [h2] at h1
      obtain ⟨c, t, h3, -⟩ := number_first h1
      cases h3

theorem email_type_iff (h : env.Ascii) {q sw : Bool} {cell : Str} : detectType env cell q sw = .ok (some "email") ↔
    IsEmailText (maybeStrip env sw cell) := by
  have ht := email_test env sw (maybeStrip env sw cell)
  rw [maybeStrip_idem] at ht
  constructor
  · intro h1
    obtain ⟨f, h2, h3⟩ := type_sound h1
    simp [typeTests] at h2
    subst h2
    exact ht.1 (by simpa using h3)
  · intro h1
    rw [detectType_chain, firstType_chain, if_neg, if_neg, if_pos (ht.2 h1)]
    · rw [url_test, maybeStrip_idem]; exact email_not_url h h1
    · intro h2
      rw [h2] at h1
      exact absurd (email_at h1) (by simp)

theorem space_of {x : Char} (h : env.Ascii) (h1 : x.toNat < 128) (h2 : 33 ≤ x.toNat) : env.space x = false := by
  rw [h.space _ h1]
  simp only [Bool.or_eq_false_iff, Bool.and_eq_false_iff, decide_eq_false_iff_not]
  refine ⟨⟨?_, ?_⟩, ?_⟩
  · rintro rfl; simp at h2
  · right; omega
  · right; omega

theorem percent_type_iff (h : env.Ascii) {q sw : Bool} {cell : Str} :
    detectType env cell q sw = .ok (some "percentage") ↔
      IsPercentText env.decimal (maybeStrip env sw) (maybeStrip env sw cell) := by
  have ht := isPercentage_iff h sw (maybeStrip env sw cell)
  constructor
  · intro h1
    obtain ⟨f, h2, h3⟩ := type_sound h1
    simp [typeTests] at h2
    subst h2
    exact ht.1 (by simpa using h3)
  · intro h1
    have hm := percent_mem h1
    have nm : ∀ {c : Char}, c.toNat < 128 → isDig c = false → c ∉ "+-.,eE%".toList → 33 ≤ c.toNat →
        c ∉ maybeStrip env sw cell := fun h2 h3 h4 h5 => percent_not_mem h h1 h2 h3 h4 (space_of h h2 h5)
    have hu : ¬ IsUrlText (wordChar env) env.decimal (maybeStrip env sw cell) := fun hu =>
      nm (by decide) (by decide) (by decide) (by decide) (url_percent h hu hm)
    rw [detectType_chain, firstType_chain, if_neg, if_neg, if_neg, if_neg, if_neg, if_neg, if_pos (ht.2 h1)]
    · rw [isTime_iff h, maybeStrip_idem]
      exact fun hc => clock_not_mem hc (by decide) (by decide) hm
    · rw [isNumber_iff h, maybeStrip_idem]
      exact fun hc => number_not_mem h hc (by decide) (by decide) (by decide) hm
    · rw [ipv4_test, maybeStrip_idem]; exact fun hq => hu (quad_url hq)
    · rw [email_test, maybeStrip_idem]
      exact fun he => nm (by decide) (by decide) (by decide) (by decide) (email_at he)
    · rw [url_test, maybeStrip_idem]; exact hu
    · intro h2; rw [h2] at hm; cases hm

/-- A currency sign is not a letter, a digit or white space. -/
def CurrencyApart (env : PyEnv) : Prop := ∀ c, env.currency c = true →
  env.letter c = false ∧ env.number c = false ∧ env.decimal c = false ∧ env.space c = false

theorem currency_not_in (h : env.Ascii) {c : Char} (hc : env.currency c = true) {l : Str}
    (hl : ∀ x ∈ l, x.toNat < 128 ∧ x ≠ '$') : c ∉ l := by
  intro hm
  have := hl c hm
  rw [h.currency _ this.1] at hc
  exact this.2 (by simpa using hc)

theorem currency_not_alnum (h : env.Ascii) {c : Char} (hc : env.currency c = true) : alnum c = false := by
  rw [Bool.eq_false_iff]
  intro ha
  have h1 : c.toNat < 128 := by
    simp only [alnum, low, Bool.or_eq_true, Bool.and_eq_true, decide_eq_true_eq] at ha; omega
  rw [h.currency _ h1] at hc
  have : c = '$' := by simpa using hc
  subst this; exact absurd ha (by decide)

theorem currency_type_iff (h : env.Ascii) (hcur : CurrencyApart env) {q sw : Bool} {cell : Str} :
    detectType env cell q sw = .ok (some "currency") ↔
      IsCurrencyText env.currency env.reSpace env.decimal (maybeStrip env sw) (maybeStrip env sw cell) := by
  have ht := isCurrency_iff h sw (maybeStrip env sw cell)
  constructor
  · intro h1
    obtain ⟨f, h2, h3⟩ := type_sound h1
    simp [typeTests] at h2
    subst h2
    exact ht.1 (by simpa using h3)
  · intro h1
    obtain ⟨c, w, n, hc, -, -, -, he⟩ := id h1
    obtain ⟨c1, c2, c3, c4⟩ := hcur c hc
    have hm : c ∈ maybeStrip env sw cell := by rw [he]; simp
    have hal := currency_not_alnum h hc
    have hlow : low c = false := by simp only [alnum, Bool.or_eq_false_iff] at hal; exact hal.1.1
    have hw : wordChar env c = false := by unfold wordChar; rw [c1, c2]; rfl
    have hu : ¬ IsUrlText (wordChar env) env.decimal (maybeStrip env sw cell) := by
      intro hu
      rcases url_chars hu c hm with h2 | h2 | h2 | h2
      · rw [hw] at h2; cases h2
      · rw [c3] at h2; cases h2
      · rw [hlow] at h2; cases h2
      · exact currency_not_in h hc (by decide) h2
    rw [detectType_chain, firstType_chain, if_neg, if_neg, if_neg, if_neg, if_neg, if_neg, if_neg, if_pos (ht.2 h1)]
    · rw [isPercentage_iff h]
      intro hp
      rcases percent_chars h hp c hm with h2 | h2 | h2
      · rw [c3] at h2; cases h2
      · exact currency_not_in h hc (by decide) h2
      · rw [c4] at h2; cases h2
    · rw [isTime_iff h, maybeStrip_idem]
      intro hk
      rcases clock_chars hk c hm with ⟨k, hk, rfl⟩ | h2
      · rw [decimal_dg h hk] at c3; cases c3
      · exact currency_not_in h hc (by decide) h2
    · rw [isNumber_iff h, maybeStrip_idem]
      intro hn
      rcases number_chars h hn c hm with h2 | h2
      · rw [c3] at h2; cases h2
      · exact currency_not_in h hc (by decide) h2
    · rw [ipv4_test, maybeStrip_idem]; exact fun hq => hu (quad_url hq)
    · rw [email_test, maybeStrip_idem]
      intro hx
      rcases email_chars hx c hm with h2 | h2
      · rw [hal] at h2; cases h2
      · exact currency_not_in h hc (by decide) h2
    · rw [url_test, maybeStrip_idem]; exact hu
    · intro h2; rw [h2] at hm; cases hm

theorem path_type_iff (h : env.Ascii) {q sw : Bool} {cell : Str} :
    detectType env cell q sw = .ok (some "unix_path") ↔ IsPathText (maybeStrip env sw cell) := by
  have ht := path_test env sw (maybeStrip env sw cell)
  rw [maybeStrip_idem] at ht
  constructor
  · intro h1
    obtain ⟨f, h2, h3⟩ := type_sound h1
    simp [typeTests] at h2
    subst h2
    exact ht.1 (by simpa using h3)
  · intro h1
    obtain ⟨c, t, hct, hc, hm⟩ := path_ne h1
    have hu := path_not_url h h1
    rw [detectType_chain, firstType_chain, if_neg, if_neg, if_neg, if_neg, if_neg, if_neg, if_neg, if_neg,
      if_pos (ht.2 h1)]
    · rw [isCurrency_iff h, hct]
      apply currency_first
      rcases hc with rfl | rfl | rfl <;> (rw [h.currency _ (by decide)]; decide)
    · rw [isPercentage_iff h]
      exact fun hp => percent_not_mem h hp (c := '/') (by decide) (by decide) (by decide)
        (space_of h (by decide) (by decide)) hm
    · rw [isTime_iff h, maybeStrip_idem]
      exact fun hk => clock_not_mem hk (by decide) (by decide) hm
    · rw [isNumber_iff h, maybeStrip_idem]
      exact fun hn => number_not_mem h hn (by decide) (by decide) (by decide) hm
    · rw [ipv4_test, maybeStrip_idem]; exact fun hq => hu (quad_url hq)
    · rw [email_test, maybeStrip_idem]
      intro hx
      rcases email_chars hx '/' hm with h2 | h2 <;> exact absurd h2 (by decide)
    · rw [url_test, maybeStrip_idem]; exact hu
    · intro h2; rw [h2] at hm; cases hm

theorem nan_type_iff (h : env.Ascii) {q sw : Bool} {cell : Str} (ha : ∀ c ∈ cell, c.toNat < 128) :
    detectType env cell q sw = .ok (some "nan") ↔ IsNanText (maybeStrip env sw cell) := by
  have ha' : ∀ c ∈ maybeStrip env sw cell, c.toNat < 128 := fun c hc => ha c (mem_maybeStrip hc)
  have ht := isNan_iff h ha'
  constructor
  · intro h1
    obtain ⟨f, h2, h3⟩ := type_sound h1
    simp [typeTests] at h2
    subst h2
    exact ht.1 (by simpa using h3)
  · intro h1
    obtain ⟨⟨c, t, hct, hc⟩, hall⟩ := nan_chars h1
    have hm : c ∈ maybeStrip env sw cell := by rw [hct]; simp
    have hsp : env.space c = false := by rcases hc with rfl | rfl <;> exact space_of h (by decide) (by decide)
    have nm : ∀ {x : Char}, x ∉ "naNA/".toList → x ∉ maybeStrip env sw cell := fun h2 h3 => h2 (hall _ h3)
    have hu : ¬ IsUrlText (wordChar env) env.decimal (maybeStrip env sw cell) := by
      intro hu
      obtain ⟨a, b, p, d, -, hb, -, -, he⟩ := hu
      have hsub : ∀ x ∈ b, x ∈ maybeStrip env sw cell := fun x hx => by rw [he]; simp [hx]
      rcases hb with ⟨labels, tld, cc, hne, hl, -, -, rfl⟩ | ⟨p', -, rfl⟩ | ⟨q', p', ⟨x, y, z, w, -, rfl⟩, -, rfl⟩
      · cases labels with
        | nil => exact hne rfl
        | cons x labels =>
          obtain ⟨l, -, -, rfl⟩ := hl x (by simp)
          exact nm (x := '.') (by decide) (hsub '.' (by simp))
      · exact nm (x := 'l') (by decide) (hsub 'l' (by simp))
      · exact nm (x := '.') (by decide) (hsub '.' (by simp))
    rw [detectType_chain, firstType_chain, if_neg, if_neg, if_neg, if_neg, if_neg, if_neg, if_neg, if_neg, if_neg,
      if_pos (ht.2 h1)]
    · rw [path_test, maybeStrip_idem]
      intro hp
      obtain ⟨x, u, hxu, hx, -⟩ := path_ne hp
      rw [hct] at hxu
      rw [(List.cons.inj hxu).1] at hc
      rcases hx with rfl | rfl | rfl <;> rcases hc with h2 | h2 <;> exact absurd h2 (by decide)
    · rw [isCurrency_iff h, hct]
      apply currency_first
      rcases hc with rfl | rfl <;> (rw [h.currency _ (by decide)]; decide)
    · rw [isPercentage_iff h]
      exact fun hp => nm (by decide) (percent_mem hp)
    · rw [isTime_iff h, maybeStrip_idem]
      intro hk
      obtain ⟨p, r, hpr, -⟩ := clock_prefix hk
      exact nm (x := ':') (by decide) (by rw [hpr]; simp)
    · rw [isNumber_iff h, maybeStrip_idem]
      rcases hc with rfl | rfl
      · exact fun hn => number_not_mem h hn (by decide) (by decide) (by decide) hm
      · exact fun hn => number_not_mem h hn (by decide) (by decide) (by decide) hm
    · rw [ipv4_test, maybeStrip_idem]; exact fun hq => hu (quad_url hq)
    · rw [email_test, maybeStrip_idem]
      exact fun hx => nm (by decide) (email_at hx)
    · rw [url_test, maybeStrip_idem]; exact hu
    · intro h2; rw [h2] at hm; cases hm

/-- The tests before the date tests on an ASCII text that begins with a digit. -/
theorem dated (h : env.Ascii) {sw : Bool} {s : Str} (hst : maybeStrip env sw s = s) (ha : ∀ c ∈ s, c.toNat < 128)
    {c : Char} {t : Str} (hct : s = c :: t) (hc : env.decimal c = true) :
    isCurrency env sw s = false ∧ runRegex env sw reUnixPath s = false ∧ isNan env s = false := by
  have hdig : isDig c = true := by rw [← h.decimal _ (ha c (by simp [hct]))]; exact hc
  obtain ⟨n, hn, rfl⟩ := isDig_iff.1 hdig
  refine ⟨?_, ?_, ?_⟩
  · rw [Bool.eq_false_iff, Ne, isCurrency_iff h, hct]
    apply currency_first
    rw [h.currency _ (dg_ascii hn)]
    have : dg n ≠ '$' := dg_ne hn (by decide)
    simpa using this
  · rw [Bool.eq_false_iff, Ne, path_test, hst]
    intro hp
    obtain ⟨x, u, hxu, hx, -⟩ := path_ne hp
    rw [hct] at hxu
    rw [← (List.cons.inj hxu).1] at hx
    rcases hx with h2 | h2 | h2 <;> exact dg_ne hn (by decide) h2
  · rw [hct] at ha ⊢
    exact not_nan_of_digit h hdig ha

theorem date_type_iff (h : env.Ascii) (hd : DecimalDigits env) {q sw : Bool} {cell : Str}
    (ha : ∀ c ∈ cell, c.toNat < 128) :
    detectType env cell q sw = .ok (some "date") ↔
      IsDateText env.decimal (maybeStrip env sw cell) ∧ ¬ IsNumberText env.decimal (maybeStrip env sw cell) := by
  have ha' : ∀ c ∈ maybeStrip env sw cell, c.toNat < 128 := fun c hc => ha c (mem_maybeStrip hc)
  have ht := isDate_iff h hd sw (maybeStrip env sw cell)
  rw [maybeStrip_idem] at ht
  constructor
  · intro h1
    refine ⟨?_, ?_⟩
    · obtain ⟨f, h2, h3⟩ := type_sound h1
      simp [typeTests] at h2
      subst h2
      exact ht.1 (by simpa using h3)
    · intro h2
      rw [(number_type_iff h).2 h2] at h1
      exact absurd h1 (by decide)
  · rintro ⟨h1, hnn⟩
    obtain ⟨c, t, hct, hc⟩ := date_first h h1
    obtain ⟨d1, d2, d3⟩ := dated h (maybeStrip_idem env sw cell) ha' hct hc
    have hu := date_not_url h h1
    rw [detectType_chain, firstType_chain, if_neg, if_neg, if_neg, if_neg, if_neg, if_neg, if_neg,
      if_neg (by simp [d1]), if_neg (by simp [d2]), if_neg (by simp [d3]), if_pos (ht.2 h1)]
    · rw [isPercentage_iff h]
      exact fun hp => date_not_mem h h1 (by decide) (by decide) (by decide) (percent_mem hp)
    · rw [isTime_iff h, maybeStrip_idem]
      intro hk
      obtain ⟨p, r, hpr, -⟩ := clock_prefix hk
      exact date_not_mem h h1 (x := ':') (by decide) (by decide) (by decide) (by rw [hpr]; simp)
    · rw [isNumber_iff h, maybeStrip_idem]; exact hnn
    · rw [ipv4_test, maybeStrip_idem]; exact fun hq => hu (quad_url hq)
    · rw [email_test, maybeStrip_idem]
      exact fun hx => date_not_mem h h1 (by decide) (by decide) (by decide) (email_at hx)
    · rw [url_test, maybeStrip_idem]; exact hu
    · intro h2; rw [hct] at h2; cases h2

theorem datetime_first (h : env.Ascii) {sw : Bool} {s : Str} (hst : maybeStrip env sw s = s)
    (hs : IsDatetimeText (IsDateText env.decimal) (maybeStrip env sw) s) : ∃ c t, s = c :: t ∧ env.decimal c = true := by
  have first : ∀ {a b : Str} {x : Char}, s = a ++ x :: b → IsDateText env.decimal (maybeStrip env sw a) →
      ∃ c t, s = c :: t ∧ env.decimal c = true := by
    intro a b x he hda
    obtain ⟨c, t, h1, h2⟩ := date_first h hda
    cases a with
    | nil => rw [show maybeStrip env sw [] = [] by cases sw <;> rfl] at h1; cases h1
    | cons y a =>
      have hy : c = y := by
        cases sw with
        | false => exact (List.cons.inj h1).1.symm
        | true =>
          have hsp : env.space y = false := by
            apply strip_head (m := a ++ x :: b)
            have : env.strip s = s := hst
            rw [he] at this
            exact this
          obtain ⟨u, hu⟩ := strip_cons_head env hsp a
          have h3 : env.strip (y :: a) = c :: t := h1
          rw [hu] at h3
          exact (List.cons.inj h3).1.symm
      subst hy
      exact ⟨c, _, he, h2⟩
  rcases hs with ⟨a, b, -, -, h3, h4, -⟩ | ⟨-, a, b, -, -, h3, h4, -⟩
  · exact first h3 h4
  · exact first h3 h4

theorem datetime_type_iff (h : env.Ascii) (hd : DecimalDigits env) {q sw : Bool} {cell : Str}
    (ha : ∀ c ∈ cell, c.toNat < 128) :
    detectType env cell q sw = .ok (some "datetime") ↔
      IsDatetimeText (IsDateText env.decimal) (maybeStrip env sw) (maybeStrip env sw cell) := by
  have ha' : ∀ c ∈ maybeStrip env sw cell, c.toNat < 128 := fun c hc => ha c (mem_maybeStrip hc)
  have hst := maybeStrip_idem env sw cell
  have ht := isDatetime_iff h hd sw hst
  constructor
  · intro h1
    obtain ⟨f, h2, h3⟩ := type_sound h1
    simp [typeTests] at h2
    subst h2
    exact ht.1 (by simpa using h3)
  · intro h1
    obtain ⟨c, t, hct, hc⟩ := datetime_first h hst h1
    obtain ⟨d1, d2, d3⟩ := dated h hst ha' hct hc
    have hu := datetime_not_url h h1
    have hcol := datetime_colon h1
    rw [detectType_chain, firstType_chain, if_neg, if_neg, if_neg, if_neg, if_neg, if_neg, if_neg,
      if_neg (by simp [d1]), if_neg (by simp [d2]), if_neg (by simp [d3]), if_neg, if_pos (ht.2 h1)]
    · rw [isDate_iff h hd, hst]
      exact fun hx => date_not_mem h hx (by decide) (by decide) (by decide) hcol
    · rw [isPercentage_iff h]
      exact fun hp => percent_not_mem h hp (c := ':') (by decide) (by decide) (by decide)
        (space_of h (by decide) (by decide)) hcol
    · rw [isTime_iff h, hst]
      intro hk
      rcases h1 with ⟨a, b, -, -, he, -, -⟩ | ⟨-, a, b, -, -, he, -, -⟩
      · exact clock_not_mem hk (c := ' ') (by decide) (by decide) (by rw [he]; simp)
      · exact clock_not_mem hk (c := 'T') (by decide) (by decide) (by rw [he]; simp)
    · rw [isNumber_iff h, hst]
      exact fun hn => number_not_mem h hn (by decide) (by decide) (by decide) hcol
    · rw [ipv4_test, hst]; exact fun hq => hu (quad_url hq)
    · rw [email_test, hst]
      intro hx
      rcases email_chars hx ':' hcol with h2 | h2 <;> exact absurd h2 (by decide)
    · rw [url_test, hst]; exact hu
    · intro h2; rw [hct] at h2; cases h2

end Clever
