import Verif.Proofs.JsonGrammar
import Verif.Proofs.TypeNan
import Verif.Proofs.DetectErrors

/-!
# Cells with JSON objects, and cells of any known type
-/

namespace Clever

open Spec

variable {env : PyEnv}

/-- A text that begins with a brace passes none of the tests before the last, except possibly `is_nan`. -/
theorem brace_tests (h : env.Ascii) {sw q : Bool} {s t : Str} (hs : s = '{' :: t) (hst : maybeStrip env sw s = s) :
    firstType s q (typeTests env sw) =
      if isNan env s = true then .ok (some "nan")
      else (isJsonObj env s).map (fun b => if b then some "json" else none) := by
  have hmem : '{' ∈ s := by rw [hs]; simp
  obtain ⟨v1, v2, v3, v4, v5⟩ := brace_avoids h
  have dig : startsWithDigit env s = false := by
    rw [hs]
    simp only [startsWithDigit]
    rw [h.digit _ (by decide)]; decide
  have hu : ¬ IsUrlText (wordChar env) env.decimal s := fun hu =>
    url_not_mem h hu (c := '{') (by decide) (by decide) (by decide) hmem
  have hfalse : ∀ {b : Bool}, b = false → ¬ b = true := by intro b hb; simp [hb]
  have e5 : isTime env sw s = false := by unfold isTime; simp only [hst, dig, Bool.false_and]
  have e10 : isDate env sw s = false := by unfold isDate; simp only [hst, dig, Bool.false_and]
  have e11 : isDatetime env sw s = false := by unfold isDatetime; simp [dig]
  have e12 : isUnicodeAlphanum env sw s q = false := by
    unfold isUnicodeAlphanum runRegex
    rw [hst, v4.fullmatch hmem, v5.fullmatch hmem]
    simp
  have e13 : isBytearray s = false := by
    unfold isBytearray
    simp [hs]
  have e8 : ¬ runRegex env sw reUnixPath s = true := by
    rw [path_test, hst]
    intro hp
    rcases path_chars hp _ hmem with h2 | h2 <;> exact absurd h2 (by decide)
  have e7 : ¬ isCurrency env sw s = true := by
    rw [isCurrency_iff h, hs]
    exact currency_first (by rw [h.currency _ (by decide)]; decide)
  have e6 : ¬ isPercentage env sw s = true := by
    rw [isPercentage_iff h]
    exact fun hp => percent_not_mem h hp (c := '{') (by decide) (by decide) (by decide)
      (space_of h (by decide) (by decide)) hmem
  have e4 : ¬ isNumber env sw s = true := by
    rw [isNumber_iff h, hst]
    exact fun hn => number_not_mem h hn (by decide) (by decide) (by decide) hmem
  have e3 : ¬ runRegex env sw (reIpv4 env) s = true := by
    rw [ipv4_test, hst]; exact fun hq => hu (quad_url hq)
  have e2 : ¬ runRegex env sw reEmail s = true := by
    rw [email_test, hst]
    intro hx
    rcases email_chars hx _ hmem with h2 | h2 <;> exact absurd h2 (by decide)
  have e1 : ¬ runRegex env sw (reUrl env) s = true := by rw [url_test, hst]; exact hu
  rw [firstType_chain, if_neg (by rw [hs]; simp), if_neg e1, if_neg e2, if_neg e3, if_neg e4, if_neg (hfalse e5),
    if_neg e6, if_neg e7, if_neg e8, if_neg (hfalse e10), if_neg (hfalse e11), if_neg (hfalse e12), if_neg (hfalse e13)]

/-- A value that begins with a brace ends with one. -/
theorem object_ends {W : List Str} (hW : W ⊆ pythonWords) {lim d : Nat} {s : Str} (h : IsJson W lim .value d s)
    (h1 : s.head? = some '{') : s.getLast? = some '}' := by
  cases h with
  | word hw =>
    have := hW hw
    simp only [pythonWords, jsonWords, List.cons_append, List.nil_append, List.mem_cons, List.not_mem_nil, or_false] at this
    rcases this with rfl | rfl | rfl | rfl | rfl | rfl <;> exact absurd h1 (by decide)
  | number hn =>
    obtain ⟨g, n, f, e, hg, hn, -, -, -, rfl⟩ := hn
    obtain ⟨c, t, rfl, hc⟩ := isWhole_head hn
    rcases hg with rfl | rfl
    · simp at h1; subst h1; exact absurd hc (by decide)
    · simp at h1
  | string hs =>
    obtain ⟨cs, -, rfl⟩ := hs
    simp at h1
  | emptyArray => simp at h1
  | array => simp at h1
  | emptyObject => rw [← List.cons_append, List.getLast?_append]; rfl
  | object => rw [← List.cons_append, List.getLast?_append]; rfl

theorem space_end {a : Str} (h : IsJsonSpace a) {c : Char} (hc : c = '{' ∨ c = '}') : c ∉ a := by
  intro hm
  rcases hc with rfl | rfl <;> rcases h _ hm with h2 | h2 | h2 | h2 <;> exact absurd h2 (by decide)

theorem isJsonObj_iff (s : Str) : isJsonObj env s = .ok true ↔
    s.head? = some '{' ∧ IsJson pythonWords env.maxStrDigits .value env.jsonDepth s := by
  have key : isJsonObj env s = .ok true ↔ (s.head? = some '{' ∧ s.getLast? = some '}') ∧ jsonLoads env s = .ok () := by
    unfold isJsonObj endsWith1
    by_cases hb : s.head? = some '{' ∧ s.getLast? = some '}'
    · rw [if_neg (by simp [hb.1, hb.2])]
      have := jsonLoads_fuel env s
      constructor
      · intro h
        refine ⟨hb, ?_⟩
        split at h
        · assumption
        all_goals cases h
      · intro h
        rw [h.2]
    · rw [if_pos (by rw [not_and_or] at hb; simpa using hb)]
      constructor
      · intro h; cases h
      · intro h; exact absurd h.1 hb
  rw [key, jsonLoads_iff]
  constructor
  · rintro ⟨⟨h1, h2⟩, a, v, b, ha, hv, hb, rfl⟩
    have ea : a = [] := by
      cases a with
      | nil => rfl
      | cons c a =>
        simp at h1
        exact absurd (by simp [h1]) (space_end ha (c := '{') (Or.inl rfl))
    have eb : b = [] := by
      rcases List.eq_nil_or_concat b with rfl | ⟨b', c, rfl⟩
      · rfl
      · rw [List.concat_eq_append] at h2 hb
        simp [List.getLast?_append] at h2
        exact absurd (by simp [h2]) (space_end hb (c := '}') (Or.inr rfl))
    subst ea; subst eb
    rw [List.nil_append, List.append_nil] at h1 ⊢
    exact ⟨h1, hv⟩
  · rintro ⟨h1, hv⟩
    exact ⟨⟨h1, object_ends (fun _ h => h) hv h1⟩, [], s, [], noSpace, hv, noSpace, by simp⟩

theorem head_brace {s : Str} (h : s.head? = some '{') : ∃ t, s = '{' :: t := by
  cases s with
  | nil => cases h
  | cons c t => simp at h; exact ⟨t, by rw [h]⟩

theorem json_type_iff (h : env.Ascii) {q sw : Bool} {cell : Str} (hn : detectType env cell q sw ≠ .ok (some "nan")) :
    detectType env cell q sw = .ok (some "json") ↔
      (maybeStrip env sw cell).head? = some '{' ∧
      IsJson pythonWords env.maxStrDigits .value env.jsonDepth (maybeStrip env sw cell) := by
  rw [← isJsonObj_iff]
  constructor
  · intro h1
    obtain ⟨f, h2, h3⟩ := type_sound h1
    simp [typeTests] at h2
    subst h2
    exact h3
  · intro h1
    obtain ⟨t, ht⟩ := head_brace ((isJsonObj_iff _).1 h1).1
    rw [detectType_chain, brace_tests h ht (maybeStrip_idem env sw cell)] at hn ⊢
    split at hn
    · exact absurd rfl hn
    · rename_i hf
      rw [if_neg hf, h1]
      rfl

/-! ## Limits -/

/-- With narrower limits the parser accepts the same, or stops because of a limit. -/
theorem jNumber_limits {env' : PyEnv} (h0 : env'.maxStrDigits = 0) {s r : Str} (h : jNumber env' s = .ok r) :
    jNumber env s = .ok r ∨ jNumber env s = .error .intLimit := by
  unfold jNumber at h ⊢
  split at h
  · cases h
  · rename_i ds rest _
    simp only [h0, ne_eq, not_true_eq_false, false_and, if_false] at h
    simp only []
    split at h
    · rename_i hf; rw [if_pos hf]; exact Or.inl h
    · rename_i hf
      rw [if_neg hf]
      split
      · exact Or.inr rfl
      · exact Or.inl h

theorem jScalar_limits {env' : PyEnv} (h0 : env'.maxStrDigits = 0) {s r : Str} (h : jScalar env' s = .ok r) :
    jScalar env s = .ok r ∨ jScalar env s = .error .intLimit := by
  unfold jScalar at h ⊢
  repeat' (split at h)
  all_goals first
    | exact jNumber_limits h0 h
    | exact Or.inl h

theorem jParse_limits {env' : PyEnv} (h0 : env'.maxStrDigits = 0) : ∀ n,
    (∀ d d' s r, jValue env' n d' s = .ok r →
      jValue env n d s = .ok r ∨ jValue env n d s = .error .intLimit ∨ jValue env n d s = .error .recursion) ∧
    (∀ d d' s r, jMembers env' n d' s = .ok r →
      jMembers env n d s = .ok r ∨ jMembers env n d s = .error .intLimit ∨ jMembers env n d s = .error .recursion) ∧
    (∀ d d' s r, jElements env' n d' s = .ok r →
      jElements env n d s = .ok r ∨ jElements env n d s = .error .intLimit ∨
        jElements env n d s = .error .recursion) := by
  intro n
  induction n with
  | zero => simp [jValue, jMembers, jElements]
  | succ n ih =>
    obtain ⟨ih1, ih2, ih3⟩ := ih
    refine ⟨fun d d' s r h => ?_, fun d d' s r h => ?_, fun d d' s r h => ?_⟩
    · cases s with
      | nil => simp [jValue] at h
      | cons c rest =>
        simp only [jValue] at h ⊢
        split at h
        · rename_i hc; rw [if_pos hc]; exact Or.inl h
        rename_i hc1
        rw [if_neg hc1]
        split at h
        · rename_i hc; rw [if_pos hc]
          cases d with
          | zero => exact Or.inr (Or.inr rfl)
          | succ d =>
            cases d' with
            | zero => simp at h
            | succ d' =>
              simp only [] at h ⊢
              cases hw : jWs rest with
              | nil => rw [hw] at h; cases h
              | cons x r' =>
                rw [hw] at h
                simp only [] at h ⊢
                split at h
                · rename_i hx; rw [if_pos hx]; exact Or.inl h
                · rename_i hx; rw [if_neg hx]
                  split at h
                  · rename_i hx; rw [if_pos hx]; exact ih2 _ _ _ _ h
                  · cases h
        rename_i hc2
        rw [if_neg hc2]
        split at h
        · rename_i hc; rw [if_pos hc]
          cases d with
          | zero => exact Or.inr (Or.inr rfl)
          | succ d =>
            cases d' with
            | zero => simp at h
            | succ d' =>
              simp only [] at h ⊢
              cases hw : jWs rest with
              | nil => rw [hw] at h; cases h
              | cons x r' =>
                rw [hw] at h
                simp only [] at h ⊢
                split at h
                · rename_i hx; rw [if_pos hx]; exact Or.inl h
                · rename_i hx; rw [if_neg hx]; exact ih3 _ _ _ _ h
        · rename_i hc3
          rw [if_neg hc3]
          rcases jScalar_limits (env := env) h0 h with h | h
          · exact Or.inl h
          · exact Or.inr (Or.inl h)
    · simp only [jMembers] at h ⊢
      cases hk : jString .text s with
      | error e => rw [hk] at h; cases h
      | ok r1 =>
        rw [hk] at h
        simp only [] at h ⊢
        cases hw : jWs r1 with
        | nil => rw [hw] at h; cases h
        | cons x r2 =>
          rw [hw] at h
          simp only [] at h ⊢
          split at h
          · rename_i hx; rw [if_pos hx]
            split at h
            · cases h
            · rename_i r3 h3
              rcases ih1 d _ _ _ h3 with h4 | h4 | h4
              · rw [h4]
                simp only []
                cases hw3 : jWs r3 with
                | nil => rw [hw3] at h; cases h
                | cons y r4 =>
                  rw [hw3] at h
                  simp only [] at h ⊢
                  split at h
                  · rename_i hy; rw [if_pos hy]; exact Or.inl h
                  · rename_i hy; rw [if_neg hy]
                    split at h
                    · rename_i hy'; rw [if_pos hy']
                      cases hw4 : jWs r4 with
                      | nil => rw [hw4] at h; cases h
                      | cons z r5 =>
                        rw [hw4] at h
                        simp only [] at h ⊢
                        split at h
                        · rename_i hz; rw [if_pos hz]; exact ih2 _ _ _ _ h
                        · cases h
                    · cases h
              · rw [h4]; exact Or.inr (Or.inl rfl)
              · rw [h4]; exact Or.inr (Or.inr rfl)
          · cases h
    · simp only [jElements] at h ⊢
      split at h
      · cases h
      · rename_i r1 h1
        rcases ih1 d _ _ _ h1 with h4 | h4 | h4
        · rw [h4]
          simp only []
          cases hw : jWs r1 with
          | nil => rw [hw] at h; cases h
          | cons x r2 =>
            rw [hw] at h
            simp only [] at h ⊢
            split at h
            · rename_i hx; rw [if_pos hx]; exact Or.inl h
            · rename_i hx; rw [if_neg hx]
              split at h
              · rename_i hx'; rw [if_pos hx']; exact ih3 _ _ _ _ h
              · cases h
        · rw [h4]; exact Or.inr (Or.inl rfl)
        · rw [h4]; exact Or.inr (Or.inr rfl)

theorem jsonLoads_limits {d : Nat} {s : Str} (h : IsJson pythonWords 0 .value d s) :
    jsonLoads env s = .ok () ∨ jsonLoads env s = .error .intLimit ∨ jsonLoads env s = .error .recursion := by
  have h1 : jsonLoads { env with maxStrDigits := 0, jsonDepth := d } s = .ok () :=
    (jsonLoads_iff _ s).2 ⟨[], s, [], noSpace, h, noSpace, by simp⟩
  unfold jsonLoads at h1 ⊢
  split at h1
  · cases h1
  · rename_i r hr
    rcases (jParse_limits (env := env) (by rfl) _).1 env.jsonDepth _ _ _ hr with h2 | h2 | h2
    · left
      rw [h2]
      exact h1
    · right; left; rw [h2]
    · right; right; rw [h2]

/-! ## Known types -/

theorem firstType_known {s : Str} {q : Bool} : ∀ {l r : List (String × (Str → Bool → Except PyExc Bool))},
    (∀ p ∈ l, ∃ b, p.2 s q = .ok b) → (∃ p ∈ l, p.2 s q = .ok true) → ∃ n, firstType s q (l ++ r) = .ok (some n)
  | [], _, _, h => by obtain ⟨p, hp, -⟩ := h; cases hp
  | (n, f) :: l, r, h1, h2 => by
    obtain ⟨b, hb⟩ := h1 (n, f) (by simp)
    simp only [] at hb
    rw [List.cons_append]
    simp only [firstType, hb]
    cases b with
    | true => exact ⟨n, rfl⟩
    | false =>
      apply firstType_known (fun p hp => h1 p (List.mem_cons_of_mem _ hp))
      obtain ⟨p, hp, hp'⟩ := h2
      rcases List.mem_cons.1 hp with rfl | hp
      · simp only [hb] at hp'; cases hp'
      · exact ⟨p, hp, hp'⟩

/-- The tests that do not raise exceptions. -/
def pureTests (env : PyEnv) (sw : Bool) : List (String × (Str → Bool → Except PyExc Bool)) :=
  (typeTests env sw).dropLast

theorem pureTests_ok (sw : Bool) (s : Str) (q : Bool) : ∀ p ∈ pureTests env sw, ∃ b, p.2 s q = .ok b := by
  intro p hp
  simp only [pureTests, typeTests, List.dropLast, List.mem_cons, List.not_mem_nil, or_false] at hp
  rcases hp with rfl | rfl | rfl | rfl | rfl | rfl | rfl | rfl | rfl | rfl | rfl | rfl | rfl | rfl <;> exact ⟨_, rfl⟩

theorem known_iff {sw q : Bool} {cell : Str} : isKnownType env cell q sw = .ok true ↔
    (∃ p ∈ pureTests env sw, p.2 (maybeStrip env sw cell) q = .ok true) ∨
    isJsonObj env (maybeStrip env sw cell) = .ok true := by
  have hl : typeTests env sw = pureTests env sw ++ [("json", fun c _ => isJsonObj env c)] := rfl
  have hk : isKnownType env cell q sw = .ok true ↔ ∃ n, detectType env cell q sw = .ok (some n) := by
    unfold isKnownType
    cases detectType env cell q sw with
    | error e => simp
    | ok t => cases t <;> simp
  rw [hk]
  constructor
  · rintro ⟨n, hn⟩
    obtain ⟨f, h2, h3⟩ := type_sound hn
    rw [hl] at h2
    rcases List.mem_append.1 h2 with h2 | h2
    · exact Or.inl ⟨(n, f), h2, h3⟩
    · simp only [List.mem_cons, Prod.mk.injEq, List.not_mem_nil, or_false] at h2
      rw [h2.2] at h3
      exact Or.inr h3
  · intro h
    rw [detectType_chain, hl]
    rcases h with h | h
    · exact firstType_known (pureTests_ok sw _ q) h
    · have := firstType_known (s := maybeStrip env sw cell) (q := q) (r := [])
        (l := pureTests env sw ++ [("json", fun c _ => isJsonObj env c)]) (by
          intro p hp
          rcases List.mem_append.1 hp with hp | hp
          · exact pureTests_ok sw _ q p hp
          · simp only [List.mem_cons, List.not_mem_nil, or_false] at hp
            subst hp; exact ⟨_, h⟩) ⟨("json", fun c _ => isJsonObj env c), by simp, h⟩
      rwa [List.append_nil] at this

theorem json_words {W V : List Str} (hW : W ⊆ V) {lim : Nat} {k : JKind} {d : Nat} {s : Str} (h : IsJson W lim k d s) :
    IsJson V lim k d s := by
  induction h with
  | word hw => exact .word (hW hw)
  | number hn => exact .number hn
  | string hs => exact .string hs
  | emptyArray ha => exact .emptyArray ha
  | array _ ih => exact .array ih
  | emptyObject ha => exact .emptyObject ha
  | object _ ih => exact .object ih
  | element h1 _ h3 ih => exact .element h1 ih h3
  | elements h1 _ h3 _ ih iht => exact .elements h1 ih h3 iht
  | member h1 h2 h3 h4 _ h6 ih => exact .member h1 h2 h3 h4 ih h6
  | members h1 h2 h3 h4 _ h6 _ ih iht => exact .members h1 h2 h3 h4 ih h6 iht

theorem digits_last {ds : Str} (h : AllIn digit ds) {c : Char} (hc : ds.getLast? = some c) : digit c = true :=
  h c (List.mem_of_getLast? hc)

theorem getLast?_append' {a b : Str} {c : Char} (h : (a ++ b).getLast? = some c) :
    b.getLast? = some c ∨ (b = [] ∧ a.getLast? = some c) := by
  rw [List.getLast?_append] at h
  cases hb : b.getLast? with
  | none =>
    rw [hb] at h
    exact Or.inr ⟨List.getLast?_eq_none_iff.1 hb, by simpa using h⟩
  | some x => rw [hb] at h; left; simpa using h

theorem space_last {a : Str} (h : IsJsonSpace a) : a.getLast? ≠ some 'N' := by
  intro hc
  rcases h _ (List.mem_of_getLast? hc) with h2 | h2 | h2 | h2 <;> exact absurd h2 (by decide)

/-- No JSON text ends with the letter `N`. -/
theorem json_not_N {lim : Nat} {k : JKind} {d : Nat} {s : Str} (h : IsJson jsonWords lim k d s) :
    s.getLast? ≠ some 'N' := by
  have app : ∀ {a b : Str}, a.getLast? ≠ some 'N' → b.getLast? ≠ some 'N' → (a ++ b).getLast? ≠ some 'N' := by
    intro a b ha hb hc
    rcases getLast?_append' hc with h | h
    · exact hb h
    · exact ha h.2
  have con : ∀ {c : Char} {a : Str}, c ≠ 'N' → a.getLast? ≠ some 'N' → (c :: a).getLast? ≠ some 'N' := by
    intro c a hc ha
    exact app (a := [c]) (by simpa using hc) ha
  have dig : ∀ {ds : Str}, AllIn digit ds → ds.getLast? ≠ some 'N' := by
    intro ds h hc
    exact absurd (digits_last h hc) (by decide)
  have str : ∀ {k : Str}, IsJsonString k → k.getLast? ≠ some 'N' := by
    rintro k ⟨cs, -, rfl⟩
    rw [← List.cons_append]
    intro hc
    rw [List.getLast?_append] at hc
    simp at hc
  induction h with
  | word hw =>
    simp only [jsonWords, List.mem_cons, List.not_mem_nil, or_false] at hw
    rcases hw with rfl | rfl | rfl <;> decide
  | number hn =>
    obtain ⟨g, n, f, e, hg, hn, hf, he, -, rfl⟩ := hn
    refine app (by rcases hg with rfl | rfl <;> decide) (app ?_ (app ?_ ?_))
    · rcases hn with rfl | ⟨k, ds, h1, h9, hds, rfl⟩
      · decide
      · apply dig
        intro x hx
        rcases List.mem_cons.1 hx with rfl | hx
        · exact digit_of_dg h9
        · exact hds x hx
    · rcases hf with rfl | ⟨ds, -, hds, rfl⟩
      · decide
      · exact con (by decide) (dig hds)
    · rcases he with rfl | ⟨x, g, ds, hx, hg, -, hds, rfl⟩
      · decide
      · refine con (by rcases hx with rfl | rfl <;> decide) (app ?_ (dig hds))
        rcases hg with rfl | rfl | rfl <;> decide
  | string hs => exact str hs
  | emptyArray ha => exact con (by decide) (app (space_last ha) (by decide))
  | array _ ih => exact con (by decide) (app ih (by decide))
  | emptyObject ha => exact con (by decide) (app (space_last ha) (by decide))
  | object _ ih => exact con (by decide) (app ih (by decide))
  | element h1 _ h3 ih => exact app (space_last h1) (app ih (space_last h3))
  | elements h1 _ h3 _ ih iht => exact app (space_last h1) (app ih (app (space_last h3) (con (by decide) iht)))
  | member h1 h2 h3 h4 _ h6 ih =>
    exact app (space_last h1) (app (str h2) (app (space_last h3) (con (by decide)
      (app (space_last h4) (app ih (space_last h6))))))
  | members h1 h2 h3 h4 _ h6 _ ih iht =>
    exact app (space_last h1) (app (str h2) (app (space_last h3) (con (by decide)
      (app (space_last h4) (app ih (app (space_last h6) (con (by decide) iht)))))))

theorem isBytearray_iff (s : Str) : isBytearray s = true ↔ IsBytearrayText s := by
  unfold isBytearray endsWith1
  rw [Bool.and_eq_true, List.isPrefixOf_iff_prefix, decide_eq_true_eq]
  constructor
  · rintro ⟨⟨u, rfl⟩, h⟩
    rcases List.eq_nil_or_concat u with rfl | ⟨t, c, rfl⟩
    · exact absurd h (by decide)
    · rw [List.concat_eq_append] at h ⊢
      rw [← List.append_assoc, List.getLast?_append] at h
      simp at h
      exact ⟨t, by rw [h]⟩
  · rintro ⟨t, rfl⟩
    refine ⟨⟨_, rfl⟩, ?_⟩
    rw [← List.append_assoc, List.getLast?_append]
    rfl

end Clever
