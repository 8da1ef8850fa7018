import Verif.Proofs.Dates

/-!
# Which type a cell gets
-/

namespace Clever

open Spec

/-! ## Percentages, currencies and words -/

theorem rstrip1_replicate {n : Str} {k : Nat} {x : Char} (h : n.getLast? ≠ some x) :
    rstrip1 (n ++ List.replicate k x) x = n := by
  unfold rstrip1
  have h1 : (n ++ List.replicate k x).reverse = List.replicate k x ++ n.reverse := by simp
  rw [h1, dropWhile_append_all (by intro c hc; simpa using (List.mem_replicate.1 hc).2)]
  rcases List.eq_nil_or_concat n with rfl | ⟨l, y, rfl⟩
  · rfl
  · have hy : y ≠ x := by simpa using h
    simp [hy]

theorem rstrip1_split (s : Str) (x : Char) :
    ∃ k, s = rstrip1 s x ++ List.replicate k x ∧ (rstrip1 s x).getLast? ≠ some x := by
  unfold rstrip1
  refine ⟨(s.reverse.takeWhile (· = x)).length, ?_, ?_⟩
  · have h1 : s.reverse.takeWhile (· = x) = List.replicate (s.reverse.takeWhile (· = x)).length x := by
      apply List.eq_replicate_iff.2
      exact ⟨rfl, fun c hc => by simpa using List.all_eq_true.mp (List.all_takeWhile (p := (· = x)) (l := s.reverse)) c hc⟩
    have h2 := List.takeWhile_append_dropWhile (p := fun c => decide (c = x)) (l := s.reverse)
    have h3 := congrArg List.reverse h2
    rw [List.reverse_reverse, List.reverse_append] at h3
    rw [h1, List.reverse_replicate] at h3
    exact h3.symm
  · intro h
    rw [List.getLast?_reverse] at h
    cases hd : s.reverse.dropWhile (· = x) with
    | nil => rw [hd] at h; cases h
    | cons c t =>
      rw [hd] at h
      simp only [List.head?_cons, Option.some.injEq] at h
      have := dropWhile_head hd
      simp [h] at this

theorem isPercentage_iff {env : PyEnv} (h : env.Ascii) (sw : Bool) (cell : Str) :
    isPercentage env sw cell = true ↔ IsPercentText env.decimal (maybeStrip env sw) cell := by
  unfold isPercentage endsWith1
  simp only [Bool.and_eq_true, decide_eq_true_eq, isNumber_iff h]
  constructor
  · rintro ⟨h1, h2⟩
    obtain ⟨k, h3, h4⟩ := rstrip1_split cell '%'
    refine ⟨rstrip1 cell '%', k, ?_, h4, h2, h3⟩
    rcases Nat.eq_zero_or_pos k with rfl | hk
    · simp only [List.replicate_zero, List.append_nil] at h3
      rw [← h3] at h4
      exact absurd h1 h4
    · exact hk
  · rintro ⟨n, k, hk, h1, h2, rfl⟩
    rw [rstrip1_replicate h1]
    refine ⟨?_, h2⟩
    obtain ⟨j, rfl⟩ : ∃ j, k = j + 1 := ⟨k - 1, by omega⟩
    rw [List.replicate_succ', ← List.append_assoc, List.getLast?_concat]

/-- The last part of the currency pattern: the rest of the line. -/
def reLine : Re := .grp 1 (.star (.cls (fun c => c ≠ '\n')))

theorem line_find (s : MState) :
    (reLine.run s).find? (fun t => t.rest = []) =
      if '\n' ∈ s.rest then none else some ⟨s.rest.reverse ++ s.pre, [], (1, s.rest) :: s.caps⟩ := by
  have hmem : ∀ t, t ∈ reLine.run s → t.rest = [] →
      '\n' ∉ s.rest ∧ t = ⟨s.rest.reverse ++ s.pre, [], (1, s.rest) :: s.caps⟩ := by
    intro t ht h0
    obtain ⟨u, hu, rfl⟩ := mem_grp.1 ht
    obtain ⟨w, r, h1, h2, rfl⟩ := (eats_star_cls _ _ _).1 hu
    simp only at h0; subst h0
    rw [List.append_nil] at h2
    subst h2
    refine ⟨fun hn => by simpa using h1 _ hn, ?_⟩
    simp [MState.between]
  split
  · rename_i hn
    rw [List.find?_eq_none]
    intro t ht h0
    exact (hmem t ht (by simpa using h0)).1 hn
  · rename_i hn
    have hex : (⟨s.rest.reverse ++ s.pre, [], (1, s.rest) :: s.caps⟩ : MState) ∈ reLine.run s := by
      refine mem_grp.2 ⟨⟨s.rest.reverse ++ s.pre, [], s.caps⟩, (eats_star_cls _ _ _).2 ⟨s.rest, [], ?_, by simp, rfl⟩, ?_⟩
      · intro c hc
        have : c ≠ '\n' := fun h => hn (h ▸ hc)
        simpa using this
      · simp [MState.between]
    cases hf : (reLine.run s).find? (fun t => t.rest = []) with
    | none =>
      rw [List.find?_eq_none] at hf
      exact absurd (hf _ hex) (by simp)
    | some t =>
      have h1 := List.mem_of_find?_eq_some hf
      have h2 := List.find?_some hf
      rw [(hmem t h1 (by simpa using h2)).2]

theorem find?_flatMap_two {α β : Type} (f : α → List β) (p : β → Bool) (a b : α) :
    (([a] ++ [b]).flatMap f).find? p = ((f a).find? p).or ((f b).find? p) := by
  simp [List.find?_append]

/-- What the group of the currency pattern holds. -/
theorem currency_group (env : PyEnv) (c : Char) (r : Str) :
    ((reCurrency env).fullmatch (c :: r)).map (fun m => m.group 1) =
      if env.currency c = false then none
      else match r with
        | [] => some (some [])
        | y :: m => if env.reSpace y = true ∧ '\n' ∉ m then some (some m)
            else if '\n' ∈ r then none else some (some r) := by
  have e : reCurrency env = .seq (.cls env.currency) (.seq (Re.opt (.cls env.reSpace)) reLine) := rfl
  unfold Re.fullmatch
  rw [e]
  simp only [Re.run]
  cases hc : env.currency c
  · simp
  · simp only [if_true, List.flatMap_cons, List.flatMap_nil, List.append_nil, Bool.true_eq_false, if_false]
    show Option.map _ (List.find? _ ((((Re.cls env.reSpace).run (⟨[c], r, []⟩ : MState)) ++
      [(⟨[c], r, []⟩ : MState)]).flatMap reLine.run)) = _
    cases r with
    | nil =>
      simp [Re.run, line_find, MState.group]
    | cons y m =>
      cases hy : env.reSpace y
      · simp only [Re.run, hy, if_false, List.nil_append, List.flatMap_cons, List.flatMap_nil, List.append_nil,
          line_find, Bool.false_eq_true, false_and]
        split <;> simp [MState.group]
      · have hr : (Re.cls env.reSpace).run ⟨[c], y :: m, []⟩ = [⟨[y, c], m, []⟩] := by simp [Re.run, hy]
        rw [hr, find?_flatMap_two, line_find, line_find]
        by_cases hm : '\n' ∈ m
        · simp [hm]
        · simp [hm, hy, MState.group]

theorem isCurrency_cons (env : PyEnv) (sw : Bool) (c : Char) (r : Str) :
    isCurrency env sw (c :: r) = true ↔ env.currency c = true ∧
      (∃ n, ((n = r ∧ (∀ y m, r = y :: m → env.reSpace y = true → '\n' ∈ m)) ∨
        ∃ x, env.reSpace x = true ∧ r = x :: n) ∧ '\n' ∉ n ∧ isNumber env sw n = true) := by
  have h := currency_group env c r
  unfold isCurrency
  cases hm : (reCurrency env).fullmatch (c :: r) with
  | none =>
    rw [hm] at h
    simp only [Option.map_none, Bool.false_eq_true, false_iff] at h ⊢
    rintro ⟨h1, n, h2, h3, h4⟩
    rw [if_neg (by simp [h1])] at h
    cases r with
    | nil => simp at h
    | cons y m =>
      simp only at h
      split at h
      · cases h
      · rename_i hy
        split at h
        · rename_i hn
          rcases h2 with ⟨rfl, h2⟩ | ⟨x, hx, h5⟩
          · exact h3 hn
          · injection h5 with h5 h6; subst h5; subst h6
            exact hy ⟨hx, h3⟩
        · cases h
  | some mm =>
    rw [hm] at h
    simp only [Option.map_some] at h
    cases hc : env.currency c
    · rw [if_pos hc] at h; cases h
    · rw [if_neg (by simp [hc])] at h
      simp only [true_and]
      cases r with
      | nil =>
        simp only [Option.some.injEq] at h
        rw [h]
        simp only
        constructor
        · intro hn; exact ⟨[], Or.inl ⟨rfl, by intro y m h; cases h⟩, by simp, hn⟩
        · rintro ⟨n, ⟨rfl, -⟩ | ⟨x, -, h⟩, -, hn⟩
          · exact hn
          · cases h
      | cons y m =>
        simp only at h
        split at h
        · rename_i hy
          simp only [Option.some.injEq] at h
          rw [h]
          simp only
          constructor
          · intro hn; exact ⟨m, Or.inr ⟨y, hy.1, rfl⟩, hy.2, hn⟩
          · rintro ⟨n, ⟨rfl, h1⟩ | ⟨x, -, h1⟩, -, hn⟩
            · exact absurd (h1 y m rfl hy.1) hy.2
            · injection h1 with h1 h2; subst h2; exact hn
        · rename_i hy
          split at h
          · cases h
          · rename_i hnl
            simp only [Option.some.injEq] at h
            rw [h]
            simp only
            constructor
            · intro hn
              refine ⟨y :: m, Or.inl ⟨rfl, ?_⟩, hnl, hn⟩
              intro y' m' h1 h2
              injection h1 with h1 h3; subst h1; subst h3
              by_contra h4
              exact hy ⟨h2, h4⟩
            · rintro ⟨n, ⟨rfl, -⟩ | ⟨x, hx, h1⟩, h2, hn⟩
              · exact hn
              · injection h1 with h1 h3; subst h1; subst h3
                exact absurd ⟨hx, h2⟩ hy

/-- The first character of a number. -/
theorem number_first {dig : Char → Bool} {s : Str} (h : IsNumberText dig s) :
    ∃ c t, s = c :: t ∧ (c ∈ "+-.,".toList ∨ ∃ n, n < 10 ∧ c = dg n) := by
  have hg : ∀ {g r : Str}, IsSign g → (∃ c t, r = c :: t ∧ (c ∈ "+-.,".toList ∨ ∃ n, n < 10 ∧ c = dg n)) →
      ∃ c t, g ++ r = c :: t ∧ (c ∈ "+-.,".toList ∨ ∃ n, n < 10 ∧ c = dg n) := by
    rintro g r (rfl | rfl | rfl) h
    · exact h
    · exact ⟨'+', r, rfl, Or.inl (by decide)⟩
    · exact ⟨'-', r, rfl, Or.inl (by decide)⟩
  rcases h with ⟨hne, g, n, t, h1, h2, h3, rfl⟩ | ⟨g, n, ds, h1, ⟨k, v, gs, h2, h3, -, -, -, -, rfl⟩, -, rfl⟩ |
    ⟨g, n, ds, h1, ⟨k, v, gs, h2, h3, -, -, -, -, rfl⟩, -, rfl⟩
  · rcases h2 with rfl | h2
    · rcases h3 with rfl | ⟨h3, -⟩ | ⟨ds, e, -, -, -, rfl⟩ | ⟨ds, e, -, -, -, rfl⟩
      · rcases h1 with rfl | rfl | rfl
        · exact absurd rfl hne
        · exact ⟨'+', [], rfl, Or.inl (by decide)⟩
        · exact ⟨'-', [], rfl, Or.inl (by decide)⟩
      · exact absurd rfl h3
      · exact hg h1 ⟨'.', ds ++ e, rfl, Or.inl (by decide)⟩
      · exact hg h1 ⟨',', ds ++ e, rfl, Or.inl (by decide)⟩
    · apply hg h1
      rcases h2 with rfl | ⟨k, ds, h4, h5, -, rfl⟩
      · exact ⟨'0', t, rfl, Or.inr ⟨0, by omega, by decide⟩⟩
      · exact ⟨dg k, ds ++ t, rfl, Or.inr ⟨k, by omega, rfl⟩⟩
  · exact hg h1 ⟨dg k, _, rfl, Or.inr ⟨k, by omega, rfl⟩⟩
  · exact hg h1 ⟨dg k, _, rfl, Or.inr ⟨k, by omega, rfl⟩⟩

theorem number_first_space {env : PyEnv} (h : env.Ascii) {c : Char}
    (hc : c ∈ "+-.,".toList ∨ ∃ n, n < 10 ∧ c = dg n) : env.reSpace c = false := by
  rcases hc with hc | ⟨n, hn, rfl⟩
  · have : c = '+' ∨ c = '-' ∨ c = '.' ∨ c = ',' := by simpa using hc
    rcases this with rfl | rfl | rfl | rfl <;> (rw [h.reSpace _ (by decide)]; decide)
  · rw [h.reSpace _ (dg_ascii hn)]
    have h1 : dg n ≠ ' ' := dg_ne hn (by decide)
    simp only [h1, decide_false, toNat_dg hn, Bool.false_or]
    simp; omega

theorem strip_cons_space (env : PyEnv) {y : Char} (h : env.space y = true) (m : Str) :
    env.strip (y :: m) = env.strip m := by
  unfold PyEnv.strip
  rw [List.dropWhile_cons, if_pos h]

theorem strip_cons_head (env : PyEnv) {y : Char} (h : env.space y = false) (m : Str) :
    ∃ t, env.strip (y :: m) = y :: t := by
  unfold PyEnv.strip
  rw [dropWhile_of_head h, List.reverse_cons]
  generalize m.reverse = l
  induction l with
  | nil => exact ⟨[], by simp [h]⟩
  | cons c l ih =>
    by_cases hc : env.space c = true
    · rw [List.cons_append, List.dropWhile_cons, if_pos hc]; exact ih
    · rw [List.cons_append, List.dropWhile_cons, if_neg hc]
      exact ⟨l.reverse ++ [c], by simp⟩

/-- The currency test accepts exactly the currency texts. -/
theorem isCurrency_iff {env : PyEnv} (h : env.Ascii) (sw : Bool) (cell : Str) :
    isCurrency env sw cell = true ↔
      IsCurrencyText env.currency env.reSpace env.decimal (maybeStrip env sw) cell := by
  cases cell with
  | nil =>
    constructor
    · intro hc; exact absurd hc (by unfold isCurrency; simp [Re.fullmatch, reCurrency, Re.cat, Re.run])
    · rintro ⟨c, w, n, -, -, -, -, h⟩; cases h
  | cons c r =>
    rw [isCurrency_cons]
    simp only [isNumber_iff h]
    constructor
    · rintro ⟨hc, n, h1, h2, h3⟩
      rcases h1 with ⟨rfl, -⟩ | ⟨x, hx, rfl⟩
      · exact ⟨c, [], n, hc, Or.inl rfl, h2, h3, rfl⟩
      · exact ⟨c, [x], n, hc, Or.inr ⟨x, hx, rfl⟩, h2, h3, rfl⟩
    · rintro ⟨c', w, n, hc, hw, h2, h3, h4⟩
      injection h4 with h4 h5
      subst h4
      refine ⟨hc, ?_⟩
      rcases hw with rfl | ⟨x, hx, rfl⟩
      · rw [List.nil_append] at h5
        subst h5
        by_cases hy : ∃ y m, r = y :: m ∧ env.reSpace y = true
        · obtain ⟨y, m, rfl, hy⟩ := hy
          refine ⟨m, Or.inr ⟨y, hy, rfl⟩, fun hm => h2 (List.mem_cons_of_mem _ hm), ?_⟩
          -- the white space is removed by `strip`
          unfold maybeStrip at h3 ⊢
          cases sw
          · obtain ⟨z, t, hz, hz2⟩ := number_first h3
            simp only [Bool.false_eq_true, if_false] at hz
            injection hz with hz
            subst hz
            rw [number_first_space h hz2] at hy; cases hy
          · simp only [if_true] at h3 ⊢
            cases hs : env.space y
            · obtain ⟨t, ht⟩ := strip_cons_head env hs m
              obtain ⟨z, t', hz, hz2⟩ := number_first h3
              rw [ht] at hz
              injection hz with hz
              subst hz
              rw [number_first_space h hz2] at hy; cases hy
            · rwa [strip_cons_space env hs] at h3
        · refine ⟨r, Or.inl ⟨rfl, ?_⟩, h2, h3⟩
          intro y m h6 h7
          exact absurd ⟨y, m, h6, h7⟩ hy
      · exact ⟨n, Or.inr ⟨x, hx, h5⟩, h2, h3⟩

/-! ## Words -/

/-- The characters of the alphanumeric patterns. -/
def wordBody (env : PyEnv) (specials : List Nat) (c : Char) : Bool :=
  env.number c || env.letter c || c = ' ' || specials.contains c.toNat

theorem eats_alnum (env : PyEnv) (specials : List Nat) :
    Eats (reAlnum env specials) (fun w => w ≠ [] ∧ ∀ c ∈ w, wordBody env specials c = true) := by
  have e : reAlnum env specials = .alt
      (.seq (Re.opt (.cls env.number)) (.seq (Re.plus (.cls env.letter)) (.star (.cls (wordBody env specials)))))
      (.seq (Re.opt (.cls env.letter)) (Re.plus (.cls (wordBody env specials)))) := rfl
  rw [e]
  have hn : ∀ c, env.number c = true → wordBody env specials c = true := by
    intro c hc; simp [wordBody, hc]
  have hl : ∀ c, env.letter c = true → wordBody env specials c = true := by
    intro c hc; simp [wordBody, hc]
  refine (((eats_cls _).opt.seq ((eats_plus_cls _).seq (eats_star_cls _))).alt
    ((eats_cls _).opt.seq (eats_plus_cls _))).congr fun w => ?_
  constructor
  · rintro (⟨a, _, rfl, ha, b, d, rfl, ⟨hb0, hb⟩, hd⟩ | ⟨a, b, rfl, ha, hb0, hb⟩)
    · refine ⟨by simp [hb0], ?_⟩
      intro c hc
      rcases List.mem_append.1 hc with hc | hc
      · rcases ha with ⟨x, rfl, hx⟩ | rfl
        · rw [List.mem_singleton] at hc; subst hc; exact hn _ hx
        · cases hc
      · rcases List.mem_append.1 hc with hc | hc
        · exact hl _ (hb _ hc)
        · exact hd _ hc
    · refine ⟨by simp [hb0], ?_⟩
      intro c hc
      rcases List.mem_append.1 hc with hc | hc
      · rcases ha with ⟨x, rfl, hx⟩ | rfl
        · rw [List.mem_singleton] at hc; subst hc; exact hl _ hx
        · cases hc
      · exact hb _ hc
  · rintro ⟨h1, h2⟩
    exact Or.inr ⟨[], w, rfl, Or.inr rfl, h1, h2⟩

theorem wordBody_ascii {env : PyEnv} (h : env.Ascii) {c : Char} (hc : c.toNat < 128) (q : Bool) :
    wordBody env (if q then specialsAllowed ++ quotedSpecialsAllowed else specialsAllowed) c = true ↔
      (alnum c = true ∨ c ∈ " -_.()?!".toList ∨ (q = true ∧ c = ',')) := by
  unfold wordBody
  rw [h.number _ hc, h.letter _ hc]
  have hk : ∀ n : Fin 128, ∀ q : Bool, (isDig (Char.ofNat n.1) || (isLow (Char.ofNat n.1) || isUpp (Char.ofNat n.1)) ||
      Char.ofNat n.1 = ' ' || (if q then specialsAllowed ++ quotedSpecialsAllowed else specialsAllowed).contains
        (Char.ofNat n.1).toNat) = true ↔ (alnum (Char.ofNat n.1) = true ∨ Char.ofNat n.1 ∈ " -_.()?!".toList ∨
          (q = true ∧ Char.ofNat n.1 = ',')) := by
    decide +kernel
  have := hk ⟨c.toNat, hc⟩ q
  simpa only [Char.ofNat_toNat] using this

/-- For an ASCII cell the alphanumeric test accepts exactly the word texts. -/
theorem isUnicodeAlphanum_iff {env : PyEnv} (h : env.Ascii) (sw q : Bool) {cell : Str}
    (hc : ∀ c ∈ cell, c.toNat < 128) :
    isUnicodeAlphanum env sw cell q = true ↔ IsWordText q (maybeStrip env sw cell) := by
  have h1 : isUnicodeAlphanum env sw cell q = ((reAlnum env (if q then specialsAllowed ++ quotedSpecialsAllowed else
      specialsAllowed)).fullmatch (maybeStrip env sw cell)).isSome := by
    cases q <;> rfl
  rw [h1, (eats_alnum env _).fullmatch]
  unfold IsWordText
  refine and_congr Iff.rfl ?_
  constructor
  · intro h2 c h3; exact (wordBody_ascii h (hc c (mem_maybeStrip h3)) q).1 (h2 c h3)
  · intro h2 c h3; exact (wordBody_ascii h (hc c (mem_maybeStrip h3)) q).2 (h2 c h3)

/-! ## The order of the tests -/

theorem firstType_pure {s : Str} {q : Bool} {n : String} {b : Str → Bool → Bool}
    {rest : List (String × (Str → Bool → Except PyExc Bool))} :
    firstType s q ((n, fun c q => .ok (b c q)) :: rest) =
      if b s q = true then .ok (some n) else firstType s q rest := by
  simp only [firstType]
  cases b s q <;> rfl

/-- `detectType` as a chain of tests. -/
theorem firstType_chain (env : PyEnv) (sw q : Bool) (s : Str) :
    firstType s q (typeTests env sw) =
      if s = [] then .ok (some "empty")
      else if runRegex env sw (reUrl env) s = true then .ok (some "url")
      else if runRegex env sw reEmail s = true then .ok (some "email")
      else if runRegex env sw (reIpv4 env) s = true then .ok (some "ipv4")
      else if isNumber env sw s = true then .ok (some "number")
      else if isTime env sw s = true then .ok (some "time")
      else if isPercentage env sw s = true then .ok (some "percentage")
      else if isCurrency env sw s = true then .ok (some "currency")
      else if runRegex env sw reUnixPath s = true then .ok (some "unix_path")
      else if isNan env s = true then .ok (some "nan")
      else if isDate env sw s = true then .ok (some "date")
      else if isDatetime env sw s = true then .ok (some "datetime")
      else if isUnicodeAlphanum env sw s q = true then .ok (some "unicode_alphanum")
      else if isBytearray s = true then .ok (some "bytearray")
      else (isJsonObj env s).map (fun b => if b then some "json" else none) := by
  unfold typeTests
  rw [firstType_pure (b := fun c _ => decide (c = [])), firstType_pure (b := fun c _ => runRegex env sw (reUrl env) c),
    firstType_pure (b := fun c _ => runRegex env sw reEmail c),
    firstType_pure (b := fun c _ => runRegex env sw (reIpv4 env) c),
    firstType_pure (b := fun c _ => isNumber env sw c), firstType_pure (b := fun c _ => isTime env sw c),
    firstType_pure (b := fun c _ => isPercentage env sw c), firstType_pure (b := fun c _ => isCurrency env sw c),
    firstType_pure (b := fun c _ => runRegex env sw reUnixPath c), firstType_pure (b := fun c _ => isNan env c),
    firstType_pure (b := fun c _ => isDate env sw c), firstType_pure (b := fun c _ => isDatetime env sw c),
    firstType_pure (b := fun c q => isUnicodeAlphanum env sw c q), firstType_pure (b := fun c _ => isBytearray c)]
  have hj : firstType s q [("json", fun c _ => isJsonObj env c)] =
      (isJsonObj env s).map (fun b => if b then some "json" else none) := by
    simp only [firstType]
    cases isJsonObj env s with
    | error e => rfl
    | ok b => cases b <;> rfl
  rw [hj]
  simp only [decide_eq_true_eq]

end Clever
