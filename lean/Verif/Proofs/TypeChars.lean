import Verif.Proofs.RegexChars
import Verif.Proofs.TypeDetect

/-!
# Characters of the patterns, and locality of type detection
-/

namespace Clever

open Spec Re

/-! ## Characters of the patterns -/

theorem decimal_of_ascii {env : PyEnv} (h : env.Ascii) {c : Char} (hc : c.toNat < 128)
    (hd : isDig c = false) : env.decimal c = false := by rw [h.decimal c hc, hd]

theorem number_avoids_colon {env : PyEnv} (h : env.Ascii) :
    (reNumber1 env).Avoids ':' ∧ (reNumber2 env).Avoids ':' ∧ (reNumber3 env).Avoids ':' := by
  have hd : env.decimal ':' = false := decimal_of_ascii h (by decide) (by decide)
  refine ⟨?_, ?_, ?_⟩ <;>
    simp [reNumber1, reNumber2, reNumber3, reThousands, reNoDot, reExp, cat, opt, plus, chr, upto, times,
      Avoids, hd, oneOf, rng]

theorem alnum_avoids_colon {env : PyEnv} (h : env.Ascii) :
    (reAlphanum env).Avoids ':' ∧ (reAlphanumQuoted env).Avoids ':' := by
  have hn : env.number ':' = false := by rw [h.number _ (by decide)]; decide
  have hl : env.letter ':' = false := by rw [h.letter _ (by decide)]; decide
  have hs : specialsAllowed.contains ':'.toNat = false := by decide
  have hq : (specialsAllowed ++ quotedSpecialsAllowed).contains ':'.toNat = false := by decide
  have hc : decide (':' = ' ') = false := by decide
  constructor <;>
    simp only [reAlphanum, reAlphanumQuoted, reAlnum, cat, opt, plus, Avoids, hn, hl, hs, hq, hc, Bool.or_false,
      and_self]

theorem date_avoids_colon {env : PyEnv} (h : env.Ascii) : (reDate env).Avoids ':' := by
  have hd : env.decimal ':' = false := decimal_of_ascii h (by decide) (by decide)
  simp [reDate, reSep, reMonth2, reDay2, reDay, reYear, reMonth, reMonth1, reDay1, reDayTail, cat, any, opt, chr,
      times, Avoids, hd, oneOf, rng]

/-- A URL has a dot, or the letter `l` of `localhost`. -/
theorem url_needs (env : PyEnv) : (reUrl env).Needs (fun c => c = '.' ∨ c = 'l') := by
  simp [reUrl, cat, any, opt, plus, chr, lit, Needs]

theorem email_needs : reEmail.Needs (fun c => c = '@') := by
  simp [reEmail, cat, plus, chr, Needs]

theorem ipv4_needs (env : PyEnv) : (reIpv4 env).Needs (fun c => c = '.') := by
  simp [reIpv4, chr, times, Needs]

theorem currency_needs (env : PyEnv) : (reCurrency env).Needs (fun c => env.currency c = true) := by
  simp [reCurrency, cat, Needs]

theorem unixPath_needs : reUnixPath.Needs (fun c => c = '/') := by
  simp [reUnixPath, cat, plus, chr, Needs]

/-! ## Locality: on ASCII cells only the ASCII part of the tables matters -/

/-- The tables used for the examples, with the limits of another environment. -/
def asciiEnvLike (env : PyEnv) : PyEnv :=
  { asciiEnv with maxStrDigits := env.maxStrDigits, jsonDepth := env.jsonDepth }

theorem asciiEnvLike_ascii (env : PyEnv) : (asciiEnvLike env).Ascii where
  letter c h := asciiEnv_ascii.letter c h
  number _ _ := rfl
  decimal _ _ := rfl
  currency _ _ := rfl
  reSpace _ _ := rfl
  space _ _ := rfl
  digit _ _ := rfl
  lower _ _ := rfl
  category c h := asciiEnv_ascii.category c h

/-- An ASCII character. -/
def IsAscii (c : Char) : Prop := c.toNat < 128

section
variable {e f : PyEnv} (he : e.Ascii) (hf : f.Ascii)
include he hf

theorem agree_decimal : Agree IsAscii (.cls e.decimal) (.cls f.decimal) :=
  .cls fun c hc => by rw [he.decimal c hc, hf.decimal c hc]

theorem agree_number : Agree IsAscii (.cls e.number) (.cls f.number) :=
  .cls fun c hc => by rw [he.number c hc, hf.number c hc]

theorem agree_letter : Agree IsAscii (.cls e.letter) (.cls f.letter) :=
  .cls fun c hc => by rw [he.letter c hc, hf.letter c hc]

theorem agree_exp : Agree IsAscii (reExp e) (reExp f) :=
  .seq (.refl _) (.seq (.refl _) (agree_decimal he hf).plus)

theorem agree_behind : Agree IsAscii (.behind e.decimal) (.behind f.decimal) :=
  .behind fun c hc => by rw [he.decimal c hc, hf.decimal c hc]

theorem agree_noDot : Agree IsAscii (reNoDot e) (reNoDot f) :=
  .opt (.seq (agree_behind he hf) (agree_exp he hf))

theorem agree_number1 : Agree IsAscii (reNumber1 e) (reNumber1 f) := by
  have d := agree_decimal he hf
  have b := agree_behind he hf
  have x := agree_exp he hf
  have nd := agree_noDot he hf
  refine .seq (.refl _) (.seq (.ahead (.cls ?_)) (.seq (.refl _) (.seq (.opt (.alt (.refl _)
    (.seq (.refl _) (.star d)))) (.seq (.alt (.seq (.opt (.grp (.alt (.seq b (.refl _)) (.seq (.refl _) (.ahead d)))))
      (.cond (.seq (.star d) (.opt (.seq (.star d) x))) nd))
      (.seq (.refl _) (.cond (.seq d.plus (.opt (.seq d.plus x))) nd))) (.refl _)))))
  intro c hc
  rw [he.decimal c hc, hf.decimal c hc]

theorem agree_thousands (a b : Char) : Agree IsAscii (reThousands e a b) (reThousands f a b) := by
  have d := agree_decimal he hf
  exact .seq (.refl _) (.seq (.alt (.refl _) (.seq (.refl _) (d.upto 2)))
    (.seq (.plus (.seq (.refl _) (d.times 3))) (.seq (.refl _) (.star d))))

theorem agree_port : Agree IsAscii (rePort e) (rePort f) :=
  .opt (.seq (.refl _) ((agree_decimal he hf).between 1 5))

theorem agree_url : Agree IsAscii (reUrl e) (reUrl f) := by
  have d := (agree_decimal he hf).between 1 3
  refine .seq (.refl _) (.seq (.alt (.seq (.plus (.seq (.plus (.cls ?_)) (.refl _))) (.refl _))
    (.alt (.seq (.refl _) (agree_port he hf))
      (.seq d (.seq (.refl _) (.seq d (.seq (.refl _) (.seq d (.seq (.refl _) (.seq d (agree_port he hf))))))))))
    (.seq (.opt (.seq (.refl _) (.star (.cls ?_)))) (.refl _)))
  all_goals
    intro c hc
    rw [he.letter c hc, hf.letter c hc, he.number c hc, hf.number c hc]

theorem agree_ipv4 : Agree IsAscii (reIpv4 e) (reIpv4 f) := by
  have d := (agree_decimal he hf).between 1 3
  exact .seq ((Re.Agree.seq d (.refl _)).times 3) d

theorem agree_dayTail : Agree IsAscii (reDayTail e) (reDayTail f) :=
  .alt (.seq (.refl _) (agree_decimal he hf)) (.refl _)

theorem agree_year : Agree IsAscii (reYear e) (reYear f) :=
  .alt (.seq (.refl _) ((agree_decimal he hf).times 3)) ((agree_decimal he hf).times 2)

theorem agree_date : Agree IsAscii (reDate e) (reDate f) := by
  have t := agree_dayTail he hf
  have y := agree_year he hf
  have d2 : Agree IsAscii (reDay2 e) (reDay2 f) := .alt (.refl _) t
  have d : Agree IsAscii (reDay e) (reDay f) := .alt (.refl _) t
  have d1 : Agree IsAscii (reDay1 e) (reDay1 f) := .alt (.refl _) t
  have sep : ∀ k {a b a' b'}, Agree IsAscii a a' → Agree IsAscii b b' →
      Agree IsAscii (reSep k a b) (reSep k a' b') :=
    fun k _ _ _ _ h1 h2 => .seq (.refl _) (.seq h1 (.seq (.refl _) h2))
  exact .alt (.seq (.refl _) (.alt (.seq d2 y) (sep 1 d y)))
    (.alt (.seq d2 (.alt (.seq (.refl _) y) (sep 2 (.refl _) y)))
      (.alt (.seq y (.alt (sep 3 (.refl _) d) (.alt
        (.seq (.refl _) (.seq (.refl _) (.seq (.refl _) (.seq d (.refl _)))))
        (.alt (.seq (.refl _) (.seq (.refl _) (.seq (.refl _) (.seq d (.refl _)))))
          (.seq (.refl _) d2)))))
        (.alt (.seq (.refl _) (sep 4 d y)) (.seq d1 (sep 5 (.refl _) y)))))

theorem agree_alnum (l : List Nat) : Agree IsAscii (reAlnum e l) (reAlnum f l) := by
  have n := agree_number he hf
  have lt := agree_letter he hf
  refine .alt (.seq (.opt n) (.seq lt.plus (.star (.cls ?_)))) (.seq lt.opt (.plus (.cls ?_)))
  all_goals
    intro c hc
    rw [he.letter c hc, hf.letter c hc, he.number c hc, hf.number c hc]

theorem agree_currency : Agree IsAscii (reCurrency e) (reCurrency f) :=
  .seq (.cls fun c hc => by rw [he.currency c hc, hf.currency c hc])
    (.seq (.opt (.cls fun c hc => by rw [he.reSpace c hc, hf.reSpace c hc])) (.refl _))

omit he hf in
theorem dropWhile_congr {p q : Char → Bool} {s : Str} (h : ∀ c ∈ s, p c = q c) :
    s.dropWhile p = s.dropWhile q := by
  induction s with
  | nil => rfl
  | cons c s ih =>
    simp only [List.dropWhile_cons]
    rw [h c (by simp), ih (fun x hx => h x (by simp [hx]))]

omit he hf in
theorem mem_strip {env : PyEnv} {s : Str} {c : Char} (h : c ∈ env.strip s) : c ∈ s := by
  unfold PyEnv.strip at h
  rw [List.mem_reverse] at h
  have h1 := (List.dropWhile_sublist _).subset h
  rw [List.mem_reverse] at h1
  exact (List.dropWhile_sublist _).subset h1

omit he hf in
theorem mem_maybeStrip {env : PyEnv} {sw : Bool} {s : Str} {c : Char} (h : c ∈ maybeStrip env sw s) : c ∈ s := by
  unfold maybeStrip at h
  split at h
  · exact mem_strip h
  · exact h

theorem strip_agree {s : Str} (hs : ∀ c ∈ s, IsAscii c) : e.strip s = f.strip s := by
  have h : ∀ c ∈ s, e.space c = f.space c := fun c hc => by
    rw [he.space c (hs c hc), hf.space c (hs c hc)]
  unfold PyEnv.strip
  rw [dropWhile_congr h]
  congr 1
  apply dropWhile_congr
  intro c hc
  rw [List.mem_reverse] at hc
  exact h c ((List.dropWhile_sublist _).subset hc)

theorem maybeStrip_agree (sw : Bool) {s : Str} (hs : ∀ c ∈ s, IsAscii c) :
    maybeStrip e sw s = maybeStrip f sw s := by
  unfold maybeStrip
  rw [strip_agree he hf hs]

theorem runRegex_agree {a b : Re} (h : Agree IsAscii a b) (sw : Bool) {s : Str} (hs : ∀ c ∈ s, IsAscii c) :
    runRegex e sw a s = runRegex f sw b s := by
  unfold runRegex
  rw [maybeStrip_agree he hf sw hs, h.fullmatch]
  exact fun c hc => hs c (mem_maybeStrip hc)

theorem isNumber_agree (sw : Bool) {s : Str} (hs : ∀ c ∈ s, IsAscii c) :
    isNumber e sw s = isNumber f sw s := by
  unfold isNumber reNumber2 reNumber3
  rw [runRegex_agree he hf (agree_number1 he hf) sw hs, runRegex_agree he hf (agree_thousands he hf ',' '.') sw hs,
    runRegex_agree he hf (agree_thousands he hf '.' ',') sw hs]

theorem startsWithDigit_agree {s : Str} (hs : ∀ c ∈ s, IsAscii c) :
    startsWithDigit e s = startsWithDigit f s := by
  cases s with
  | nil => rfl
  | cons c s => simp only [startsWithDigit]; rw [he.digit c (hs c (by simp)), hf.digit c (hs c (by simp))]

theorem isDate_agree (sw : Bool) {s : Str} (hs : ∀ c ∈ s, IsAscii c) : isDate e sw s = isDate f sw s := by
  unfold isDate
  have h2 : ∀ c ∈ maybeStrip f sw s, IsAscii c := fun c hc => hs c (mem_maybeStrip hc)
  simp only
  rw [maybeStrip_agree he hf sw hs, startsWithDigit_agree he hf h2, runRegex_agree he hf (agree_date he hf) sw h2]

theorem isTime_agree (sw : Bool) {s : Str} (hs : ∀ c ∈ s, IsAscii c) : isTime e sw s = isTime f sw s := by
  unfold isTime
  have h2 : ∀ c ∈ maybeStrip f sw s, IsAscii c := fun c hc => hs c (mem_maybeStrip hc)
  simp only
  rw [maybeStrip_agree he hf sw hs, startsWithDigit_agree he hf h2, runRegex_agree he hf (.refl _) sw h2,
    runRegex_agree he hf (.refl _) sw h2, runRegex_agree he hf (.refl _) sw h2, runRegex_agree he hf (.refl _) sw h2]

omit he hf in
theorem mem_splitAt1 {x c : Char} {p : Str} : ∀ {s : Str}, p ∈ splitAt1 x s → c ∈ p → c ∈ s := by
  intro s
  induction s generalizing p with
  | nil => intro h hc; simp [splitAt1] at h; subst h; exact hc
  | cons d s ih =>
    intro h hc
    simp only [splitAt1] at h
    split at h
    · rcases List.mem_cons.1 h with rfl | h
      · simp at hc
      · exact List.mem_cons_of_mem _ (ih h hc)
    · split at h
      · rename_i e
        simp only [List.mem_singleton] at h; subst h; simp only [List.mem_singleton] at hc; simp [hc]
      · rename_i q qs e
        rcases List.mem_cons.1 h with rfl | h
        · rcases List.mem_cons.1 hc with rfl | hc
          · simp
          · exact List.mem_cons_of_mem _ (ih (by rw [e]; simp) hc)
        · exact List.mem_cons_of_mem _ (ih (by rw [e]; simp [h]) hc)

theorem isOffsetTime_agree (sw : Bool) (x : Char) {s : Str} (hs : ∀ c ∈ s, IsAscii c) :
    isOffsetTime e sw x s = isOffsetTime f sw x s := by
  unfold isOffsetTime
  have hm : ∀ p ∈ splitAt1 x s, ∀ c ∈ p, IsAscii c := fun p hp c hc => hs c (mem_splitAt1 hp hc)
  split
  · rename_i a b l hl
    rw [hl] at hm
    rw [isTime_agree he hf sw (hm a (by simp)), isTime_agree he hf sw (hm b (by simp)),
      runRegex_agree he hf (.refl _) sw (hm b (by simp)), runRegex_agree he hf (.refl _) sw (hm b (by simp))]
  · rfl

theorem isIsoTime_agree (sw : Bool) {s : Str} (hs : ∀ c ∈ s, IsAscii c) :
    isIsoTime e sw s = isIsoTime f sw s := by
  unfold isIsoTime
  rw [isTime_agree he hf sw hs, isTime_agree he hf sw (s := s.dropLast) (fun c hc => hs c ((List.dropLast_sublist s).subset hc)),
    isOffsetTime_agree he hf sw '+' hs, isOffsetTime_agree he hf sw '-' hs]

theorem isDatetime_agree (sw : Bool) {s : Str} (hs : ∀ c ∈ s, IsAscii c) :
    isDatetime e sw s = isDatetime f sw s := by
  have hm : ∀ x, ∀ p ∈ splitAt1 x s, ∀ c ∈ p, IsAscii c := fun x p hp c hc => hs c (mem_splitAt1 hp hc)
  have h1 := hm ' '
  have h2 := hm 'T'
  unfold isDatetime
  rw [startsWithDigit_agree he hf hs]
  congr 1
  split
  · split
    · rename_i a b hl
      rw [hl] at h1
      rw [isDate_agree he hf sw (h1 a (by simp)), isTime_agree he hf sw (h1 b (by simp))]
    · rfl
  · split
    · split
      · rename_i a b hl
        rw [hl] at h2
        rw [isDate_agree he hf sw (h2 a (by simp)), isIsoTime_agree he hf sw (h2 b (by simp))]
      · rfl
    · rfl

theorem isCurrency_agree (sw : Bool) {s : Str} (hs : ∀ c ∈ s, IsAscii c) :
    isCurrency e sw s = isCurrency f sw s := by
  unfold isCurrency
  rw [(agree_currency he hf).fullmatch hs]
  cases hm : (reCurrency f).fullmatch s with
  | none => rfl
  | some m =>
    simp only
    cases hg : m.group 1 with
    | none => rfl
    | some g =>
      simp only
      apply isNumber_agree he hf
      -- the group is a part of the cell
      have ht := List.mem_of_find?_eq_some hm
      simp only [reCurrency, cat_cons, cat_one, mem_seq] at ht
      obtain ⟨u1, hu1, u2, hu2, ht⟩ := ht
      obtain ⟨v, hv, rfl⟩ := mem_grp.1 ht
      have i1 : MState.In IsAscii (⟨[], s, []⟩ : MState) := ⟨by simp, hs⟩
      have i2 := (i1.run hu1).run hu2
      have hcaps : g = u2.between v := by
        simp [MState.group] at hg
        exact hg.symm
      intro c hc
      rw [hcaps] at hc
      exact i2.2 c (List.mem_of_mem_take hc)

omit he in
theorem lower_ascii {s : Str} (hs : ∀ c ∈ s, IsAscii c) : f.lower s = s.map asciiLower := hf.lower s hs

/-- On ASCII cells, the type does not depend on the tables of the non-ASCII characters. -/
theorem detectType_agree (h1 : e.maxStrDigits = f.maxStrDigits) (h2 : e.jsonDepth = f.jsonDepth)
    {s : Str} (hs : ∀ c ∈ s, IsAscii c) (q sw : Bool) : detectType e s q sw = detectType f s q sw := by
  unfold detectType
  rw [maybeStrip_agree he hf sw hs]
  have hm : ∀ c ∈ maybeStrip f sw s, IsAscii c := fun c hc => hs c (mem_maybeStrip hc)
  generalize maybeStrip f sw s = u at hm
  have hj : isJsonObj e u = isJsonObj f u := by
    have hv : ∀ n, (∀ d s, jValue e n d s = jValue f n d s) ∧ (∀ d s, jMembers e n d s = jMembers f n d s) ∧
        (∀ d s, jElements e n d s = jElements f n d s) := by
      have hn : ∀ s, jNumber e s = jNumber f s := fun s => by unfold jNumber; rw [h1]
      have hsc : ∀ s, jScalar e s = jScalar f s := fun s => by
        unfold jScalar; rw [hn s]; simp only [hn]
      intro n
      induction n with
      | zero => exact ⟨fun _ _ => rfl, fun _ _ => rfl, fun _ _ => rfl⟩
      | succ n ih =>
        obtain ⟨ih1, ih2, ih3⟩ := ih
        refine ⟨fun d s => ?_, fun d s => ?_, fun d s => ?_⟩
        · simp only [jValue, hsc, ih2, ih3]
        · simp only [jMembers, ih1, ih2]
        · simp only [jElements, ih1, ih3]
    unfold isJsonObj jsonLoads
    rw [(hv _).1, h2]
  have hr : ∀ c ∈ rstrip1 u '%', IsAscii c := by
    intro c hc
    unfold rstrip1 at hc
    rw [List.mem_reverse] at hc
    have := (List.dropWhile_sublist _).subset hc
    rw [List.mem_reverse] at this
    exact hm c this
  have a1 := runRegex_agree he hf (agree_url he hf) sw hm
  have a2 := runRegex_agree he hf (.refl reEmail) sw hm
  have a3 := runRegex_agree he hf (agree_ipv4 he hf) sw hm
  have a4 := isNumber_agree he hf sw hm
  have a5 := isTime_agree he hf sw hm
  have a6 : isPercentage e sw u = isPercentage f sw u := by
    unfold isPercentage; rw [isNumber_agree he hf sw hr]
  have a7 := isCurrency_agree he hf sw hm
  have a8 := runRegex_agree he hf (.refl reUnixPath) sw hm
  have a9 : isNan e u = isNan f u := by unfold isNan; rw [lower_ascii he hm, lower_ascii hf hm]
  have a10 := isDate_agree he hf sw hm
  have a11 := isDatetime_agree he hf sw hm
  have a12 : isUnicodeAlphanum e sw u q = isUnicodeAlphanum f sw u q := by
    unfold isUnicodeAlphanum
    have b1 : runRegex e sw (reAlphanumQuoted e) u = runRegex f sw (reAlphanumQuoted f) u :=
      runRegex_agree he hf (agree_alnum he hf _) sw hm
    have b2 : runRegex e sw (reAlphanum e) u = runRegex f sw (reAlphanum f) u :=
      runRegex_agree he hf (agree_alnum he hf _) sw hm
    rw [b1, b2]
  simp only [typeTests, firstType, a1, a2, a3, a4, a5, a6, a7, a8, a9, a10, a11, a12, hj]

end

theorem detectType_ascii {env : PyEnv} (h : env.Ascii) {s : Str} (hs : ∀ c ∈ s, c.toNat < 128) (q sw : Bool) :
    detectType env s q sw = detectType (asciiEnvLike env) s q sw :=
  detectType_agree h (asciiEnvLike_ascii env) rfl rfl hs q sw

end Clever
