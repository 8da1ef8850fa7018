import Verif.Proofs.CellTypes

/-!
# Texts that belong to only one of the types
-/

namespace Clever

open Spec

variable {env : PyEnv}

theorem alnum_of_wordChar (h : env.Ascii) {c : Char} (hc : c.toNat < 128) :
    wordChar env c = alnum c := by
  unfold wordChar
  rw [h.letter _ hc, h.number _ hc]
  have hk : ∀ n : Fin 128, (isLow (Char.ofNat n.1) || isUpp (Char.ofNat n.1) || isDig (Char.ofNat n.1)) =
      alnum (Char.ofNat n.1) := by decide +kernel
  have := hk ⟨c.toNat, hc⟩
  simpa only [Char.ofNat_toNat] using this

theorem low_ascii {c : Char} (h : low c = true) : c.toNat < 128 := by
  simp [low] at h; omega

theorem low_not_decimal (h : env.Ascii) {c : Char} (hc : low c = true) : env.decimal c = false := by
  rw [h.decimal _ (low_ascii hc)]
  simp [low] at hc
  rw [Bool.eq_false_iff]
  intro hd
  obtain ⟨n, hn, rfl⟩ := isDig_iff.1 hd
  rw [toNat_dg hn] at hc; omega

/-! ### Characters of URLs -/

/-- The classes of characters that occur in a URL. -/
def UrlChar (env : PyEnv) (c : Char) : Prop :=
  wordChar env c = true ∨ env.decimal c = true ∨ low c = true ∨ c ∈ "-.:/_()~?=&%#".toList

theorem quad_chars {dig : Char → Bool} {s : Str} (h : IsDottedQuad dig s) : ∀ c ∈ s, dig c = true ∨ c = '.' := by
  obtain ⟨a, b, x, d, h, rfl⟩ := h
  intro c hc
  simp only [List.mem_append, List.mem_cons] at hc
  rcases hc with hc | rfl | hc | rfl | hc | rfl | hc
  · exact Or.inl ((h a (by simp)).2.2 c hc)
  · exact Or.inr rfl
  · exact Or.inl ((h b (by simp)).2.2 c hc)
  · exact Or.inr rfl
  · exact Or.inl ((h x (by simp)).2.2 c hc)
  · exact Or.inr rfl
  · exact Or.inl ((h d (by simp)).2.2 c hc)

theorem port_chars {dig : Char → Bool} {s : Str} (h : IsPort dig s) : ∀ c ∈ s, dig c = true ∨ c = ':' := by
  rcases h with rfl | ⟨ds, -, -, h, rfl⟩
  · intro c hc; cases hc
  · intro c hc
    rcases List.mem_cons.1 hc with rfl | hc
    · exact Or.inr rfl
    · exact Or.inl (h c hc)

theorem domain_chars {wrd : Char → Bool} {s : Str} (h : IsDomain wrd s) :
    ∀ c ∈ s, wrd c = true ∨ low c = true ∨ c = '-' ∨ c = '.' := by
  obtain ⟨labels, tld, cc, -, h1, ⟨-, h2⟩, h3, rfl⟩ := h
  intro c hc
  rcases List.mem_append.1 hc with hc | hc
  · obtain ⟨x, hx, hc⟩ := List.mem_flatten.1 hc
    obtain ⟨l, -, h4, rfl⟩ := h1 x hx
    rcases List.mem_append.1 hc with hc | hc
    · have := h4 c hc
      simp only [Bool.or_eq_true, decide_eq_true_eq] at this
      rcases this with h | h
      · exact Or.inl h
      · exact Or.inr (Or.inr (Or.inl h))
    · exact Or.inr (Or.inr (Or.inr (by simpa using hc)))
  · rcases List.mem_append.1 hc with hc | hc
    · exact Or.inr (Or.inl (h2 c hc))
    · rcases h3 with rfl | ⟨l, -, -, h4, rfl⟩
      · cases hc
      · rcases List.mem_cons.1 hc with rfl | hc
        · exact Or.inr (Or.inr (Or.inr rfl))
        · exact Or.inr (Or.inl (h4 c hc))

theorem host_chars {wrd dig : Char → Bool} {s : Str} (h : IsHost wrd dig s) :
    ∀ c ∈ s, wrd c = true ∨ dig c = true ∨ low c = true ∨ c = '-' ∨ c = '.' ∨ c = ':' := by
  intro c hc
  rcases h with h | ⟨p, hp, rfl⟩ | ⟨q, p, hq, hp, rfl⟩
  · rcases domain_chars h c hc with h | h | h | h
    · exact Or.inl h
    · exact Or.inr (Or.inr (Or.inl h))
    · exact Or.inr (Or.inr (Or.inr (Or.inl h)))
    · exact Or.inr (Or.inr (Or.inr (Or.inr (Or.inl h))))
  · rcases List.mem_append.1 hc with hc | hc
    · have hl : ∀ c ∈ "localhost".toList, low c = true := by decide
      exact Or.inr (Or.inr (Or.inl (hl c hc)))
    · rcases port_chars hp c hc with h | h
      · exact Or.inr (Or.inl h)
      · exact Or.inr (Or.inr (Or.inr (Or.inr (Or.inr h))))
  · rcases List.mem_append.1 hc with hc | hc
    · rcases quad_chars hq c hc with h | h
      · exact Or.inr (Or.inl h)
      · exact Or.inr (Or.inr (Or.inr (Or.inr (Or.inl h))))
    · rcases port_chars hp c hc with h | h
      · exact Or.inr (Or.inl h)
      · exact Or.inr (Or.inr (Or.inr (Or.inr (Or.inr h))))

theorem scheme_chars {a : Str} (h : a ∈ ["http://".toList, "https://".toList, "ftp://".toList]) :
    ∀ c ∈ a, low c = true ∨ c = ':' ∨ c = '/' := by
  have : ∀ a ∈ ["http://".toList, "https://".toList, "ftp://".toList], ∀ c ∈ a, low c = true ∨ c = ':' ∨ c = '/' := by
    decide
  exact this a h

theorem url_chars {s : Str} (h : IsUrlText (wordChar env) env.decimal s) : ∀ c ∈ s, UrlChar env c := by
  obtain ⟨a, b, p, d, ha, hb, hp, hd, rfl⟩ := h
  have lit : ∀ {c : Char}, c = '-' ∨ c = '.' ∨ c = ':' ∨ c = '/' → UrlChar env c := by
    rintro c (rfl | rfl | rfl | rfl) <;> exact Or.inr (Or.inr (Or.inr (by decide)))
  intro c hc
  rcases List.mem_append.1 hc with hc | hc
  · rcases ha with rfl | ⟨ha, -⟩
    · cases hc
    · rcases scheme_chars ha c hc with h | h | h
      · exact Or.inr (Or.inr (Or.inl h))
      · exact lit (by tauto)
      · exact lit (by tauto)
  · rcases List.mem_append.1 hc with hc | hc
    · rcases host_chars hb c hc with h | h | h | h | h | h
      · exact Or.inl h
      · exact Or.inr (Or.inl h)
      · exact Or.inr (Or.inr (Or.inl h))
      all_goals exact lit (by tauto)
    · rcases List.mem_append.1 hc with hc | hc
      · rcases hp with rfl | ⟨l, hl, rfl⟩
        · cases hc
        · rcases List.mem_cons.1 hc with rfl | hc
          · exact lit (by tauto)
          · have := hl c hc
            simp only [Bool.or_eq_true] at this
            rcases this with h | h
            · exact Or.inl h
            · have hsub : ∀ c ∈ "_/()~?=&%-#.:".toList, c ∈ "-.:/_()~?=&%#".toList := by decide
              exact Or.inr (Or.inr (Or.inr (hsub c (by simpa using h))))
      · rcases hd with rfl | ⟨l, -, hl, rfl⟩
        · cases hc
        · rcases List.mem_cons.1 hc with rfl | hc
          · exact lit (by tauto)
          · exact Or.inr (Or.inr (Or.inl (hl c hc)))

/-- An ASCII character that is not a letter, a digit or one of some marks does not occur in a URL. -/
theorem url_not_mem (h : env.Ascii) {s : Str} (hs : IsUrlText (wordChar env) env.decimal s) {c : Char}
    (hc : c.toNat < 128) (h1 : alnum c = false) (h2 : c ∉ "-.:/_()~?=&%#".toList) : c ∉ s := by
  intro hm
  rcases url_chars hs c hm with hu | hu | hu | hu
  · rw [alnum_of_wordChar h hc, h1] at hu; cases hu
  · rw [h.decimal _ hc] at hu
    obtain ⟨n, hn, rfl⟩ := isDig_iff.1 hu
    have := toNat_dg hn
    simp [alnum, this] at h1
    omega
  · simp only [alnum, Bool.or_eq_false_iff] at h1; rw [h1.1.1] at hu; cases hu
  · exact h2 hu

/-- Percent signs are only in the path of a URL. -/
theorem url_percent (h : env.Ascii) {s : Str} (hs : IsUrlText (wordChar env) env.decimal s) (hm : '%' ∈ s) :
    '/' ∈ s := by
  obtain ⟨a, b, p, d, ha, hb, hp, hd, rfl⟩ := hs
  have hw : wordChar env '%' = false := by rw [alnum_of_wordChar h (by decide)]; decide
  have hdg : env.decimal '%' = false := by rw [h.decimal _ (by decide)]; decide
  rcases List.mem_append.1 hm with hm | hm
  · rcases ha with rfl | ⟨ha, -⟩
    · cases hm
    · rcases scheme_chars ha _ hm with h | h | h <;> exact absurd h (by decide)
  · rcases List.mem_append.1 hm with hm | hm
    · rcases host_chars hb _ hm with h | h | h | h | h | h
      · rw [hw] at h; cases h
      · rw [hdg] at h; cases h
      all_goals exact absurd h (by decide)
    · rcases List.mem_append.1 hm with hm | hm
      · rcases hp with rfl | ⟨l, hl, rfl⟩
        · cases hm
        · simp
      · rcases hd with rfl | ⟨l, -, hl, rfl⟩
        · cases hm
        · rcases List.mem_cons.1 hm with h | h
          · exact absurd h (by decide)
          · exact absurd (hl _ h) (by decide)

/-- A URL without `:` has two lower-case letters or begins with a dotted quad. -/
theorem url_simple {wrd dig : Char → Bool} {s : Str} (hs : IsUrlText wrd dig s) (h1 : ':' ∉ s) :
    (∃ p q, low p = true ∧ low q = true ∧ [p, q].Sublist s) ∨ (∃ q d, IsDottedQuad dig q ∧ s = q ++ d) := by
  obtain ⟨a, b, p, d, ha, hb, hp, hd, rfl⟩ := hs
  have ha : a = [] := by
    rcases ha with rfl | ⟨ha, -⟩
    · rfl
    · exfalso; apply h1
      have : ∀ a ∈ ["http://".toList, "https://".toList, "ftp://".toList], ':' ∈ a := by decide
      simp [this a ha]
  subst ha
  rw [List.nil_append] at *
  rcases hb with ⟨labels, tld, cc, -, -, ⟨h3, h4⟩, -, rfl⟩ | ⟨p', -, rfl⟩ | ⟨q, p', hq, hp', rfl⟩
  · left
    match tld, h3 with
    | x :: y :: tld, _ =>
      refine ⟨x, y, h4 x (by simp), h4 y (by simp), ?_⟩
      have hs : [x, y].Sublist (x :: y :: tld) := (((List.nil_sublist tld).cons₂ y).cons₂ x)
      have h5 : (x :: y :: tld).Sublist (labels.flatten ++ ((x :: y :: tld) ++ cc)) :=
        (List.sublist_append_left _ cc).trans (List.sublist_append_right labels.flatten _)
      exact (hs.trans h5).trans (List.sublist_append_left _ _)
  · left
    refine ⟨'l', 'o', by decide, by decide, ?_⟩
    have hs : ['l', 'o'].Sublist "localhost".toList := by decide
    rw [List.append_assoc]
    exact hs.trans (List.sublist_append_left _ _)
  · right
    rcases hp' with rfl | ⟨ds, -, -, -, rfl⟩
    · exact ⟨q, p ++ d, hq, by simp⟩
    · exact absurd (by simp) h1

theorem quad_url {dig wrd : Char → Bool} {s : Str} (h : IsDottedQuad dig s) : IsUrlText wrd dig s :=
  ⟨[], s, [], [], Or.inl rfl, Or.inr (Or.inr ⟨s, [], h, Or.inl rfl, by simp⟩), Or.inl rfl, Or.inl rfl, by simp⟩

theorem count_append_le {p : Char → Bool} {a b : Str} {m n : Nat} (ha : a.countP p ≤ m) (hb : b.countP p ≤ n) :
    (a ++ b).countP p ≤ m + n := by rw [List.countP_append]; omega

/-- A dotted quad has three points. -/
theorem quad_points {dig : Char → Bool} {s : Str} (h : IsDottedQuad dig s) : 3 ≤ s.countP (· = '.') := by
  obtain ⟨a, b, c, d, -, rfl⟩ := h
  simp only [List.countP_append, List.countP_cons]
  simp
  omega

/-! ### Characters of numbers -/

theorem sign_chars {g : Str} (h : IsSign g) : ∀ c ∈ g, c = '+' ∨ c = '-' := by
  rcases h with rfl | rfl | rfl <;> simp

theorem exponent_chars {dig : Char → Bool} {s : Str} (h : IsExponent dig s) :
    ∀ c ∈ s, dig c = true ∨ c ∈ "+-.,eE".toList := by
  obtain ⟨e, g, ds, he, hg, -, hd, rfl⟩ := h
  intro c hc
  simp only [List.mem_cons, List.mem_append] at hc
  rcases hc with rfl | hc | hc
  · right; rcases he with rfl | rfl <;> decide
  · right; rcases sign_chars hg c hc with rfl | rfl <;> decide
  · exact Or.inl (hd c hc)

theorem dg_dig (h : env.Ascii) {n : Nat} (hn : n ≤ 9) : env.decimal (dg n) = true := decimal_dg h (by omega)

theorem groups_chars (h : env.Ascii) {sep : Char} {s : Str} (hs : IsGroups env.decimal sep s) :
    ∀ c ∈ s, env.decimal c = true ∨ c = sep := by
  obtain ⟨n, ds, gs, -, h2, -, h3, -, h4, rfl⟩ := hs
  intro c hc
  simp only [List.mem_cons, List.mem_append] at hc
  rcases hc with rfl | hc | hc
  · exact Or.inl (dg_dig h h2)
  · exact Or.inl (h3 c hc)
  · obtain ⟨x, hx, hc⟩ := List.mem_flatten.1 hc
    obtain ⟨y, -, h5, rfl⟩ := h4 x hx
    rcases List.mem_cons.1 hc with rfl | hc
    · exact Or.inr rfl
    · exact Or.inl (h5 c hc)

theorem whole_chars (h : env.Ascii) {n : Str} (hn : IsWhole env.decimal n) : ∀ c ∈ n, env.decimal c = true := by
  rcases hn with rfl | ⟨k, ds, _, h2, h3, rfl⟩
  · intro c hc
    have : c = '0' := by simpa using hc
    subst this; rw [h.decimal _ (by decide)]; decide
  · intro c hc
    rcases List.mem_cons.1 hc with rfl | hc
    · exact dg_dig h h2
    · exact h3 c hc

theorem number_chars (h : env.Ascii) {s : Str} (hs : IsNumberText env.decimal s) :
    ∀ c ∈ s, env.decimal c = true ∨ c ∈ "+-.,eE".toList := by
  have grp : ∀ {sep radix : Char}, sep ∈ "+-.,eE".toList → radix ∈ "+-.,eE".toList → IsGrouped env.decimal sep radix s →
      ∀ c ∈ s, env.decimal c = true ∨ c ∈ "+-.,eE".toList := by
    rintro sep radix h1 h2 ⟨g, n, ds, hg, hn, hd, rfl⟩ c hc
    simp only [List.mem_cons, List.mem_append] at hc
    rcases hc with hc | hc | rfl | hc
    · right; rcases sign_chars hg c hc with rfl | rfl <;> decide
    · rcases groups_chars h hn c hc with h | rfl
      · exact Or.inl h
      · exact Or.inr h1
    · exact Or.inr h2
    · exact Or.inl (hd c hc)
  rcases hs with ⟨-, g, n, t, hg, hn, ht, rfl⟩ | hs | hs
  · intro c hc
    simp only [List.mem_append] at hc
    rcases hc with hc | hc | hc
    · right; rcases sign_chars hg c hc with rfl | rfl <;> decide
    · rcases hn with rfl | hn
      · cases hc
      · exact Or.inl (whole_chars h hn c hc)
    · have frac : ∀ {x : Char} {ds e : Str}, x ∈ "+-.,eE".toList → AllIn env.decimal ds →
          (e = [] ∨ IsExponent env.decimal e) → c ∈ x :: (ds ++ e) → env.decimal c = true ∨ c ∈ "+-.,eE".toList := by
        rintro x ds e hx h1 h2 hc
        simp only [List.mem_cons, List.mem_append] at hc
        rcases hc with rfl | hc | hc
        · exact Or.inr hx
        · exact Or.inl (h1 c hc)
        · rcases h2 with rfl | h2
          · cases hc
          · exact exponent_chars h2 c hc
      rcases ht with rfl | ⟨-, he⟩ | ⟨ds, e, h1, -, h2, rfl⟩ | ⟨ds, e, h1, -, h2, rfl⟩
      · cases hc
      · exact exponent_chars he c hc
      · exact frac (by decide) h1 h2 hc
      · exact frac (by decide) h1 (h2.imp id And.right) hc
  · exact grp (by decide) (by decide) hs
  · exact grp (by decide) (by decide) hs

theorem number_not_mem (h : env.Ascii) {s : Str} (hs : IsNumberText env.decimal s) {c : Char} (hc : c.toNat < 128)
    (h1 : isDig c = false) (h2 : c ∉ "+-.,eE".toList) : c ∉ s := by
  intro hm
  rcases number_chars h hs c hm with hd | hd
  · rw [h.decimal _ hc, h1] at hd; cases hd
  · exact h2 hd

/-- The letters `e` and `E`. -/
def isE (c : Char) : Bool := c = 'e' || c = 'E'

theorem countP_zero_of {p q : Char → Bool} {s : Str} (h : ∀ c ∈ s, p c = true) (hpq : ∀ c, p c = true → q c = false) :
    s.countP q ≤ 0 := by
  rw [Nat.le_zero, List.countP_eq_zero]
  intro c hc; simp [hpq c (h c hc)]

/-- A number that is not separated into thousands has at most one point and at most one `e`. -/
theorem decimal_counts (h : env.Ascii) {s : Str} (hs : IsDecimalNumber env.decimal s) :
    s.countP (· = '.') ≤ 1 ∧ s.countP isE ≤ 1 := by
  have hp : ∀ c, env.decimal c = true → decide (c = '.') = false := by
    intro c hc
    rw [decide_eq_false_iff_not]
    rintro rfl
    rw [h.decimal _ (by decide)] at hc; exact absurd hc (by decide)
  have he : ∀ c, env.decimal c = true → isE c = false := by
    intro c hc
    rw [Bool.eq_false_iff]
    intro hx
    simp only [isE, Bool.or_eq_true, decide_eq_true_eq] at hx
    rcases hx with rfl | rfl <;> (rw [h.decimal _ (by decide)] at hc; exact absurd hc (by decide))
  have sign : ∀ {g : Str}, IsSign g → g.countP (· = '.') ≤ 0 ∧ g.countP isE ≤ 0 := by
    rintro g (rfl | rfl | rfl) <;> decide
  have expo : ∀ {e : Str}, IsExponent env.decimal e → e.countP (· = '.') ≤ 0 ∧ e.countP isE ≤ 1 := by
    rintro _ ⟨x, g, ds, hx, hg, -, hd, rfl⟩
    have s1 := sign hg
    have d1 := countP_zero_of hd hp
    have d2 := countP_zero_of hd he
    simp only [List.countP_cons, List.countP_append]
    have x1 : (if decide (x = '.') = true then 1 else 0) = 0 := by rcases hx with rfl | rfl <;> decide
    have x2 : (if isE x = true then 1 else 0) ≤ 1 := by split <;> omega
    constructor
    · rw [x1]; omega
    · omega
  obtain ⟨-, g, n, t, hg, hn, ht, rfl⟩ := hs
  have s1 := sign hg
  have n1 : n.countP (· = '.') ≤ 0 ∧ n.countP isE ≤ 0 := by
    rcases hn with rfl | hn
    · decide
    · exact ⟨countP_zero_of (whole_chars h hn) hp, countP_zero_of (whole_chars h hn) he⟩
  have t1 : t.countP (· = '.') ≤ 1 ∧ t.countP isE ≤ 1 := by
    have frac : ∀ {x : Char} {ds e : Str}, isE x = false → AllIn env.decimal ds →
        (e = [] ∨ IsExponent env.decimal e) → (x :: (ds ++ e)).countP (· = '.') ≤ 1 ∧ (x :: (ds ++ e)).countP isE ≤ 1 := by
      intro x ds e hx hd hee
      have d1 := countP_zero_of hd hp
      have d2 := countP_zero_of hd he
      have e1 : e.countP (· = '.') ≤ 0 ∧ e.countP isE ≤ 1 := by
        rcases hee with rfl | hee
        · simp
        · exact expo hee
      simp only [List.countP_cons, List.countP_append, hx]
      constructor
      · split <;> omega
      · simp; omega
    rcases ht with rfl | ⟨-, hx⟩ | ⟨ds, e, h1, -, h2, rfl⟩ | ⟨ds, e, h1, -, h2, rfl⟩
    · simp
    · exact ⟨by have := (expo hx).1; omega, (expo hx).2⟩
    · exact frac (by decide) h1 h2
    · exact frac (by decide) h1 (h2.imp id And.right)
  simp only [List.countP_append]
  omega

/-- A number is not a URL. -/
theorem number_not_url (h : env.Ascii) {s : Str} (hs : IsNumberText env.decimal s) :
    ¬ IsUrlText (wordChar env) env.decimal s := by
  intro hu
  have hcomma : ',' ∉ s := url_not_mem h hu (by decide) (by decide) (by decide)
  have hdec : IsDecimalNumber env.decimal s := by
    rcases hs with hs | ⟨g, n, ds, -, ⟨k, v, gs, -, -, -, -, hne, hgs, rfl⟩, -, rfl⟩ | ⟨g, n, ds, -, -, -, rfl⟩
    · exact hs
    · exfalso; apply hcomma
      cases gs with
      | nil => exact absurd rfl hne
      | cons x gs =>
        obtain ⟨y, -, -, rfl⟩ := hgs x (by simp)
        simp
    · exact absurd (by simp) hcomma
  have hcnt := decimal_counts h hdec
  rcases url_simple hu (number_not_mem h hs (by decide) (by decide) (by decide)) with ⟨p, q, hp, hq, hsub⟩ | ⟨q, d, hq, rfl⟩
  · have he : ∀ c, low c = true → c ∈ s → isE c = true := by
      intro c hc hm
      rcases number_chars h hs c hm with hd | hd
      · rw [low_not_decimal h hc] at hd; cases hd
      · have : ∀ c ∈ "+-.,eE".toList, low c = true → isE c = true := by decide
        exact this c hd hc
    have h2 := hsub.countP_le (p := isE)
    have hpE := he p hp (hsub.subset (by simp))
    have hqE := he q hq (hsub.subset (by simp))
    simp only [List.countP_cons, List.countP_nil, hpE, hqE, if_true] at h2
    omega
  · have h3 := quad_points hq
    have h4 := hcnt.1
    rw [List.countP_append] at h4
    omega

theorem email_at {s : Str} (h : IsEmailText s) : '@' ∈ s := by
  obtain ⟨a, b, c, -, -, -, -, -, -, rfl⟩ := h; simp

end Clever
