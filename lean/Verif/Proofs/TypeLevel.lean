import Verif.Proofs.TypeExclusion

/-!
# Which texts get which type
-/

namespace Clever

open Spec

variable {env : PyEnv}

theorem detectType_chain (env : PyEnv) (sw q : Bool) (cell : Str) :
    detectType env cell q sw = firstType (maybeStrip env sw cell) q (typeTests env sw) := rfl

theorem firstType_sound {s : Str} {q : Bool} {n : String} :
    ∀ {l : List (String × (Str → Bool → Except PyExc Bool))}, firstType s q l = .ok (some n) →
      ∃ f, (n, f) ∈ l ∧ f s q = .ok true
  | [], h => by simp [firstType] at h
  | (m, f) :: l, h => by
    simp only [firstType] at h
    split at h
    · cases h
    · rename_i hf
      simp only [Except.ok.injEq, Option.some.injEq] at h
      exact ⟨f, by simp [h], hf⟩
    · obtain ⟨g, h1, h2⟩ := firstType_sound h
      exact ⟨g, by simp [h1], h2⟩

theorem url_test (env : PyEnv) (sw : Bool) (cell : Str) :
    runRegex env sw (reUrl env) cell = true ↔ IsUrlText (wordChar env) env.decimal (maybeStrip env sw cell) :=
  url_iff env _

theorem email_test (env : PyEnv) (sw : Bool) (cell : Str) :
    runRegex env sw reEmail cell = true ↔ IsEmailText (maybeStrip env sw cell) := email_iff _

theorem ipv4_test (env : PyEnv) (sw : Bool) (cell : Str) :
    runRegex env sw (reIpv4 env) cell = true ↔ IsDottedQuad env.decimal (maybeStrip env sw cell) :=
  (eats_ipv4 env).fullmatch _

theorem path_test (env : PyEnv) (sw : Bool) (cell : Str) :
    runRegex env sw reUnixPath cell = true ↔ IsPathText (maybeStrip env sw cell) := eats_unixPath.fullmatch _

theorem path_ne {s : Str} (h : IsPathText s) : ∃ c t, s = c :: t ∧ (c = '~' ∨ c = '.' ∨ c = '/') ∧ '/' ∈ s := by
  obtain ⟨a, names, z, ha, hne, hn, -, rfl⟩ := h
  cases names with
  | nil => exact absurd rfl hne
  | cons x names =>
    obtain ⟨l, -, -, rfl⟩ := hn x (by simp)
    rcases ha with rfl | rfl | rfl
    · exact ⟨'/', _, rfl, by simp, by simp⟩
    · exact ⟨'~', _, rfl, by simp, by simp⟩
    · exact ⟨'.', _, rfl, by simp, by simp⟩

theorem path_chars {s : Str} (h : IsPathText s) : ∀ c ∈ s, alnum c = true ∨ c ∈ "~.-_/".toList := by
  obtain ⟨a, names, z, ha, -, hn, hz, rfl⟩ := h
  intro c hc
  simp only [List.mem_append] at hc
  rcases hc with hc | hc | hc
  · right; rcases ha with rfl | rfl | rfl
    · cases hc
    · rw [List.mem_singleton.1 hc]; decide
    · rw [List.mem_singleton.1 hc]; decide
  · obtain ⟨x, hx, hc⟩ := List.mem_flatten.1 hc
    obtain ⟨l, -, hl, rfl⟩ := hn x hx
    rcases List.mem_cons.1 hc with rfl | hc
    · right; decide
    · have := hl c hc
      simp only [Bool.or_eq_true] at this
      rcases this with h | h
      · exact Or.inl h
      · have hsub : ∀ c ∈ ".-_".toList, c ∈ "~.-_/".toList := by decide
        exact Or.inr (hsub c (by simpa using h))
  · right; rcases hz with rfl | rfl
    · cases hc
    · rw [List.mem_singleton.1 hc]; decide

theorem email_chars {s : Str} (h : IsEmailText s) : ∀ c ∈ s, alnum c = true ∨ c ∈ "_.+-@".toList := by
  obtain ⟨a, b, x, -, ha, -, hb, -, hx, rfl⟩ := h
  intro c hc
  simp only [List.mem_append, List.mem_cons] at hc
  rcases hc with hc | rfl | hc | rfl | hc
  · have := ha c hc
    simp only [Bool.or_eq_true] at this
    rcases this with h | h
    · exact Or.inl h
    · have hsub : ∀ c ∈ "_.+-".toList, c ∈ "_.+-@".toList := by decide
      exact Or.inr (hsub c (by simpa using h))
  · right; decide
  · have := hb c hc
    simp only [Bool.or_eq_true, decide_eq_true_eq] at this
    rcases this with h | rfl
    · exact Or.inl h
    · right; decide
  · right; decide
  · have := hx c hc
    simp only [Bool.or_eq_true] at this
    rcases this with h | h
    · exact Or.inl h
    · have hsub : ∀ c ∈ "-.".toList, c ∈ "_.+-@".toList := by decide
      exact Or.inr (hsub c (by simpa using h))

/-- The first character of a URL is in a label, or a digit. -/
theorem url_first (h : env.Ascii) {c : Char} {t : Str} (hs : IsUrlText (wordChar env) env.decimal (c :: t)) :
    c ≠ '/' ∧ c ≠ '.' ∧ c ≠ '~' := by
  have good : ∀ {x : Char}, wordChar env x = true ∨ x = '-' ∨ env.decimal x = true ∨ low x = true →
      x ≠ '/' ∧ x ≠ '.' ∧ x ≠ '~' := by
    intro x hx
    have hw : ∀ {y : Char}, y.toNat < 128 → alnum y = false → isDig y = false → y ≠ '-' → x ≠ y := by
      rintro y h1 h2 h3 h4 rfl
      rcases hx with hx | hx | hx | hx
      · rw [alnum_of_wordChar h h1, h2] at hx; cases hx
      · exact h4 hx
      · rw [h.decimal _ h1, h3] at hx; cases hx
      · simp only [alnum, Bool.or_eq_false_iff] at h2; rw [h2.1.1] at hx; cases hx
    exact ⟨hw (by decide) (by decide) (by decide) (by decide), hw (by decide) (by decide) (by decide) (by decide),
      hw (by decide) (by decide) (by decide) (by decide)⟩
  obtain ⟨a, b, p, d, ha, hb, -, -, he⟩ := hs
  rcases ha with rfl | ⟨ha, -⟩
  · rw [List.nil_append] at he
    rcases hb with ⟨labels, tld, cc, hne, hl, -, -, rfl⟩ | ⟨p', -, rfl⟩ | ⟨q, p', ⟨x, y, z, w, hq, rfl⟩, -, rfl⟩
    · cases labels with
      | nil => exact absurd rfl hne
      | cons x labels =>
        obtain ⟨l, h1, h2, rfl⟩ := hl x (by simp)
        cases l with
        | nil => exact absurd rfl h1
        | cons y l =>
          simp only [List.flatten_cons, List.cons_append, List.cons.injEq] at he
          have := h2 y (by simp)
          simp only [Bool.or_eq_true, decide_eq_true_eq] at this
          rw [he.1]
          exact good (by tauto)
    · have hc := (List.cons.inj he).1
      rw [hc]; decide
    · have := hq x (by simp)
      cases x with
      | nil => simp at this
      | cons y x =>
        simp only [List.cons_append, List.cons.injEq] at he
        rw [he.1]
        exact good (Or.inr (Or.inr (Or.inl (this.2.2 y (by simp)))))
  · simp only [List.mem_cons, List.not_mem_nil, or_false] at ha
    rcases ha with rfl | rfl | rfl
    all_goals
      have hc := (List.cons.inj he).1
      rw [hc]; decide

theorem path_not_url (h : env.Ascii) {s : Str} (hs : IsPathText s) : ¬ IsUrlText (wordChar env) env.decimal s := by
  obtain ⟨c, t, rfl, hc, -⟩ := path_ne hs
  intro hu
  have := url_first h hu
  rcases hc with rfl | rfl | rfl <;> simp at this

theorem email_not_url (h : env.Ascii) {s : Str} (hs : IsEmailText s) :
    ¬ IsUrlText (wordChar env) env.decimal s :=
  fun hu => url_not_mem h hu (by decide) (by decide) (by decide) (email_at hs)

theorem clock_chars {s : Str} (h : IsClock s) : ∀ c ∈ s, (∃ n, n < 10 ∧ c = dg n) ∨ c ∈ ":+-".toList := by
  have hp : ∀ {n : Nat}, n < 60 → ∀ c ∈ pad2 n, ∃ n, n < 10 ∧ c = dg n := by
    intro n hn c hc
    simp only [pad2, List.mem_cons, List.not_mem_nil, or_false] at hc
    rcases hc with rfl | rfl
    · exact ⟨_, by omega, rfl⟩
    · exact ⟨_, by omega, rfl⟩
  have hcol : ':' ∈ ":+-".toList := by decide
  rcases h with (⟨a, b, ha, hb, rfl⟩ | ⟨a, b, ha, hb, rfl⟩ | ⟨a, b, x, ha, hb, hx, rfl⟩) |
    ⟨a, b, x, oh, om, g, ha, hb, hx, hoh, hom, hg, rfl⟩
  all_goals
    intro c hc
    simp only [List.mem_append, List.mem_cons] at hc
  · rcases hc with rfl | rfl | hc
    · exact Or.inl ⟨a, ha, rfl⟩
    · exact Or.inr hcol
    · exact Or.inl (hp hb c hc)
  · rcases hc with hc | rfl | hc
    · exact Or.inl (hp (by omega) c hc)
    · exact Or.inr hcol
    · exact Or.inl (hp hb c hc)
  · rcases hc with (hc | rfl | hc) | rfl | hc
    · exact Or.inl (hp (by omega) c hc)
    · exact Or.inr hcol
    · exact Or.inl (hp hb c hc)
    · exact Or.inr hcol
    · exact Or.inl (hp hx c hc)
  · rcases hc with (((hc | rfl | hc) | rfl | hc) | rfl | hc) | rfl | hc
    · exact Or.inl (hp (by omega) c hc)
    · exact Or.inr hcol
    · exact Or.inl (hp hb c hc)
    · exact Or.inr hcol
    · exact Or.inl (hp hx c hc)
    · right; rcases hg with rfl | rfl <;> decide
    · exact Or.inl (hp (by omega) c hc)
    · exact Or.inr hcol
    · exact Or.inl (hp hom c hc)

theorem clock_not_mem {s : Str} (hs : IsClock s) {c : Char} (h1 : isDig c = false) (h2 : c ∉ ":+-".toList) : c ∉ s := by
  intro hm
  rcases clock_chars hs c hm with h | h
  · rw [isDig_iff.2 h] at h1; cases h1
  · exact h2 h

/-- Every character that is not white space survives the stripping. -/
theorem mem_maybeStrip_of {sw : Bool} {s : Str} {c : Char} (hm : c ∈ s) (hc : env.space c = false) :
    c ∈ maybeStrip env sw s := by
  unfold maybeStrip
  split
  · unfold PyEnv.strip
    have key : ∀ l : Str, c ∈ l → c ∈ l.dropWhile env.space := by
      intro l hl
      induction l with
      | nil => cases hl
      | cons x l ih =>
        rw [List.dropWhile_cons]
        split
        · rename_i hx
          rcases List.mem_cons.1 hl with rfl | hl
          · rw [hc] at hx; cases hx
          · exact ih hl
        · exact hl
    rw [List.mem_reverse]
    exact key _ (List.mem_reverse.2 (key _ hm))
  · exact hm

/-- The characters of a percentage. -/
theorem percent_chars (h : env.Ascii) {sw : Bool} {s : Str} (hs : IsPercentText env.decimal (maybeStrip env sw) s) :
    ∀ c ∈ s, env.decimal c = true ∨ c ∈ "+-.,eE%".toList ∨ env.space c = true := by
  obtain ⟨n, k, -, -, hn, rfl⟩ := hs
  intro c hc
  rcases List.mem_append.1 hc with hc | hc
  · by_cases hsp : env.space c = true
    · exact Or.inr (Or.inr hsp)
    · have hsub : ∀ c ∈ "+-.,eE".toList, c ∈ "+-.,eE%".toList := by decide
      rcases number_chars h hn c (mem_maybeStrip_of hc (by simpa using hsp)) with h | h
      · exact Or.inl h
      · exact Or.inr (Or.inl (hsub c h))
  · right; left
    rw [(List.mem_replicate.1 hc).2]; decide

theorem percent_mem {sw : Bool} {s : Str} (hs : IsPercentText env.decimal (maybeStrip env sw) s) : '%' ∈ s := by
  obtain ⟨n, k, hk, -, -, rfl⟩ := hs
  exact List.mem_append_right _ (List.mem_replicate.2 ⟨by omega, rfl⟩)

theorem percent_not_mem (h : env.Ascii) {sw : Bool} {s : Str}
    (hs : IsPercentText env.decimal (maybeStrip env sw) s) {c : Char} (hc : c.toNat < 128) (h1 : isDig c = false)
    (h2 : c ∉ "+-.,eE%".toList) (h3 : env.space c = false) : c ∉ s := by
  intro hm
  rcases percent_chars h hs c hm with hd | hd | hd
  · rw [h.decimal _ hc, h1] at hd; cases hd
  · exact h2 hd
  · rw [h3] at hd; cases hd

end Clever
