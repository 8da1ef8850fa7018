import Verif.Proofs.RegexLang
import Verif.Proofs.StrOrder
import Verif.Model.TypeDetect
import Verif.Spec.Clock

/-!
# Facts about type detection
-/

namespace Clever

open Spec

/-! ## Whitespace -/

theorem dropWhile_append_all {p : Char → Bool} {a : Str} (ha : ∀ c ∈ a, p c = true) (b : Str) :
    (a ++ b).dropWhile p = b.dropWhile p := by
  induction a with
  | nil => rfl
  | cons c cs ih =>
    have := ha c (by simp)
    simp only [List.cons_append, List.dropWhile_cons, this, if_true]
    exact ih (fun x hx => ha x (by simp [hx]))

theorem dropWhile_all {p : Char → Bool} {a : Str} (ha : ∀ c ∈ a, p c = true) :
    a.dropWhile p = [] := by
  have := dropWhile_append_all ha []
  simpa using this

theorem dropWhile_dropWhile {p : Char → Bool} (a : Str) :
    (a.dropWhile p).dropWhile p = a.dropWhile p := by
  induction a with
  | nil => rfl
  | cons c cs ih =>
    simp only [List.dropWhile_cons]
    by_cases h : p c = true
    · simp [h, ih]
    · simp [h]

/-- Whitespace at the ends does not matter to `strip`. -/
theorem strip_pad (env : PyEnv) {a b : Str} (ha : ∀ c ∈ a, env.space c = true)
    (hb : ∀ c ∈ b, env.space c = true) (s : Str) : env.strip (a ++ s ++ b) = env.strip s := by
  unfold PyEnv.strip
  rw [List.append_assoc, dropWhile_append_all ha]
  by_cases h : s.dropWhile env.space = []
  · -- only whitespace
    have hs : ∀ c ∈ s, env.space c = true := by
      have := List.takeWhile_append_dropWhile (p := env.space) (l := s)
      rw [h, List.append_nil] at this
      intro c hc
      rw [← this] at hc
      exact List.all_eq_true.mp (List.all_takeWhile (p := env.space) (l := s)) c hc
    rw [dropWhile_append_all hs, dropWhile_all hb, h]
  · have : (s ++ b).dropWhile env.space = s.dropWhile env.space ++ b := by
      clear ha
      induction s with
      | nil => simp at h
      | cons c cs ih =>
        simp only [List.cons_append, List.dropWhile_cons] at h ⊢
        by_cases hc : env.space c = true
        · simp only [hc, if_true] at h ⊢; exact ih h
        · simp [hc]
    rw [this, List.reverse_append, dropWhile_append_all (by simpa using hb)]

theorem strip_space (env : PyEnv) {a : Str} (ha : ∀ c ∈ a, env.space c = true) :
    env.strip a = [] := by
  have := strip_pad env ha (b := []) (by simp) []
  simpa [PyEnv.strip] using this

theorem dropWhile_head {p : Char → Bool} {a : Str} {c : Char} {t : Str}
    (h : a.dropWhile p = c :: t) : p c = false := by
  induction a with
  | nil => simp at h
  | cons x xs ih =>
    simp only [List.dropWhile_cons] at h
    by_cases hx : p x = true
    · simp only [hx, if_true] at h; exact ih h
    · simp only [hx] at h
      have : x = c := by simpa using (List.cons.inj h).1
      subst this; simpa using hx

theorem dropWhile_of_head {p : Char → Bool} {c : Char} {t : Str} (h : p c = false) :
    (c :: t).dropWhile p = c :: t := by simp [h]

/-- Ends of the string are not whitespace. -/
theorem strip_of_ends (env : PyEnv) {s : Str} (h1 : ∀ c, s.head? = some c → env.space c = false)
    (h2 : ∀ c, s.getLast? = some c → env.space c = false) : env.strip s = s := by
  unfold PyEnv.strip
  have e1 : s.dropWhile env.space = s := by
    cases s with
    | nil => rfl
    | cons c t => exact dropWhile_of_head (h1 c rfl)
  rw [e1]
  have e2 : s.reverse.dropWhile env.space = s.reverse := by
    cases hr : s.reverse with
    | nil => rfl
    | cons c t =>
      refine dropWhile_of_head (h2 c ?_)
      rw [← List.reverse_reverse s, hr]; simp
  rw [e2, List.reverse_reverse]

theorem strip_strip (env : PyEnv) (s : Str) : env.strip (env.strip s) = env.strip s := by
  apply strip_of_ends
  · intro c hc
    unfold PyEnv.strip at hc
    -- the head of the stripped text is the head of the left-stripped text
    cases hd : s.dropWhile env.space with
    | nil => simp [hd] at hc
    | cons x t =>
      have hx := dropWhile_head hd
      rw [hd] at hc
      have : ((x :: t).reverse.dropWhile env.space).reverse.head? = some x := by
        have hne : ∃ w, (x :: t).reverse.dropWhile env.space = w ++ [x] := by
          rw [List.reverse_cons]
          generalize t.reverse = u
          induction u with
          | nil => exact ⟨[], by simp [hx]⟩
          | cons y ys ih =>
            simp only [List.cons_append, List.dropWhile_cons]
            split
            · exact ih
            · exact ⟨y :: ys, rfl⟩
        obtain ⟨w, hw⟩ := hne
        rw [hw]; simp
      rw [this] at hc
      simp only [Option.some.injEq] at hc
      subst hc; exact hx
  · intro c hc
    unfold PyEnv.strip at hc
    rw [List.getLast?_reverse] at hc
    cases hd : ((s.dropWhile env.space).reverse.dropWhile env.space) with
    | nil => simp [hd] at hc
    | cons x t =>
      rw [hd] at hc
      simp only [List.head?_cons, Option.some.injEq] at hc
      subst hc; exact dropWhile_head hd

theorem maybeStrip_idem (env : PyEnv) (sw : Bool) (s : Str) :
    maybeStrip env sw (maybeStrip env sw s) = maybeStrip env sw s := by
  unfold maybeStrip
  cases sw
  · rfl
  · exact strip_strip env s

/-! ## Digits -/

theorem toNat_dg {n : Nat} (h : n < 10) : (dg n).toNat = 48 + n := by
  have : ∀ n : Fin 10, (dg n.1).toNat = 48 + n.1 := by decide
  exact this ⟨n, h⟩

theorem dg_inj {m n : Nat} (hm : m < 10) (hn : n < 10) (h : dg m = dg n) : m = n := by
  have := congrArg Char.toNat h
  rw [toNat_dg hm, toNat_dg hn] at this
  omega

theorem rng_iff {a b c : Char} : rng a b c = true ↔ a.toNat ≤ c.toNat ∧ c.toNat ≤ b.toNat := by
  simp only [rng, Bool.and_eq_true, decide_eq_true_eq, Char.le_def, UInt32.le_iff_toNat_le]
  rfl

/-- A range of digits. -/
theorem rng_dg {a b : Nat} (ha : a < 10) (hb : b < 10) {c : Char} :
    rng (dg a) (dg b) c = true ↔ ∃ n, a ≤ n ∧ n ≤ b ∧ c = dg n := by
  rw [rng_iff, toNat_dg ha, toNat_dg hb]
  constructor
  · rintro ⟨h1, h2⟩
    refine ⟨c.toNat - 48, by omega, by omega, ?_⟩
    apply Props.toNat_inj
    rw [toNat_dg (by omega)]; omega
  · rintro ⟨n, h1, h2, rfl⟩
    rw [toNat_dg (by omega)]; omega

theorem isDig_iff {c : Char} : isDig c = true ↔ ∃ n, n < 10 ∧ c = dg n := by
  have : isDig c = rng (dg 0) (dg 9) c := rfl
  rw [this, rng_dg (by omega) (by omega)]
  constructor
  · rintro ⟨n, -, h, rfl⟩; exact ⟨n, by omega, rfl⟩
  · rintro ⟨n, h, rfl⟩; exact ⟨n, by omega, by omega, rfl⟩

/-! ## Clock times -/

theorem eats_hour2 : Eats reHour2 (fun w => ∃ h, h < 24 ∧ w = pad2 h) := by
  have e : reHour2 = .alt (.seq (.chr '0') (.cls (rng (dg 0) (dg 9))))
      (.alt (.seq (.chr '1') (.cls (rng (dg 0) (dg 9))))
        (.seq (.chr '2') (.cls (rng (dg 0) (dg 3))))) := rfl
  rw [e]
  refine (((eats_chr _).seq (eats_cls _)).alt (((eats_chr _).seq (eats_cls _)).alt
    ((eats_chr _).seq (eats_cls _)))).congr fun w => ?_
  simp only [rng_dg (show 0 < 10 by omega) (show 9 < 10 by omega),
    rng_dg (show 0 < 10 by omega) (show 3 < 10 by omega)]
  constructor
  · rintro (⟨u, v, rfl, rfl, c, rfl, n, -, hn, rfl⟩ | ⟨u, v, rfl, rfl, c, rfl, n, -, hn, rfl⟩ |
      ⟨u, v, rfl, rfl, c, rfl, n, -, hn, rfl⟩)
    · exact ⟨n, by omega, by
        simp [pad2, Nat.div_eq_of_lt (show n < 10 by omega), Nat.mod_eq_of_lt (show n < 10 by omega)]; rfl⟩
    · exact ⟨10 + n, by omega, by
        have h1 : (10 + n) / 10 = 1 := by omega
        have h2 : (10 + n) % 10 = n := by omega
        simp [pad2, h1, h2]; rfl⟩
    · exact ⟨20 + n, by omega, by
        have h1 : (20 + n) / 10 = 2 := by omega
        have h2 : (20 + n) % 10 = n := by omega
        simp [pad2, h1, h2]; rfl⟩
  · rintro ⟨h, hh, rfl⟩
    have hc : h / 10 = 0 ∨ h / 10 = 1 ∨ h / 10 = 2 := by omega
    rcases hc with hc | hc | hc
    · left; exact ⟨[dg 0], [dg (h % 10)], by simp [pad2, hc], rfl, _, rfl, h % 10, by omega, by omega, rfl⟩
    · right; left; exact ⟨[dg 1], [dg (h % 10)], by simp [pad2, hc], rfl, _, rfl, h % 10, by omega, by omega, rfl⟩
    · right; right; exact ⟨[dg 2], [dg (h % 10)], by simp [pad2, hc], rfl, _, rfl, h % 10, by omega, by omega, rfl⟩

/-- Two digits with a bound on the first one. -/
theorem eats_two {k : Nat} (hk : k < 10) :
    Eats (.seq (.cls (rng (dg 0) (dg k))) (.cls (rng (dg 0) (dg 9))))
      (fun w => ∃ m, m < 10 * (k + 1) ∧ w = pad2 m) := by
  refine ((eats_cls _).seq (eats_cls _)).congr fun w => ?_
  simp only [rng_dg (show 0 < 10 by omega) (show 9 < 10 by omega), rng_dg (show 0 < 10 by omega) hk]
  constructor
  · rintro ⟨u, v, rfl, ⟨c, rfl, m, -, hm, rfl⟩, ⟨c', rfl, n, -, hn, rfl⟩⟩
    exact ⟨10 * m + n, by omega, by
      have h1 : (10 * m + n) / 10 = m := by omega
      have h2 : (10 * m + n) % 10 = n := by omega
      simp [pad2, h1, h2]⟩
  · rintro ⟨m, hm, rfl⟩
    exact ⟨[dg (m / 10)], [dg (m % 10)], by simp [pad2], ⟨_, rfl, m / 10, by omega, by omega, rfl⟩,
      _, rfl, m % 10, by omega, by omega, rfl⟩

theorem eats_min : Eats reMin (fun w => ∃ m, m < 60 ∧ w = pad2 m) := eats_two (k := 5) (by omega)

theorem eats_offHour : Eats (.seq (.cls (rng '0' '1')) (.cls (rng '0' '9')))
    (fun w => ∃ m, m < 20 ∧ w = pad2 m) := eats_two (k := 1) (by omega)

theorem eats_hhmm1 : Eats reTimeHHMM1
    (fun w => ∃ h m, h < 24 ∧ m < 60 ∧ w = pad2 h ++ ':' :: pad2 m) := by
  refine (eats_hour2.seq ((eats_chr ':').seq eats_min)).congr fun w => ?_
  constructor
  · rintro ⟨_, _, rfl, ⟨h, hh, rfl⟩, _, _, rfl, rfl, m, hm, rfl⟩
    exact ⟨h, m, hh, hm, by simp⟩
  · rintro ⟨h, m, hh, hm, rfl⟩
    exact ⟨_, _, rfl, ⟨h, hh, rfl⟩, [':'], _, rfl, rfl, m, hm, rfl⟩

theorem eats_hhmm2 : Eats reTimeHHMM2
    (fun w => ∃ h m, h < 24 ∧ m < 60 ∧ w = pad2 h ++ pad2 m) := by
  refine (eats_hour2.seq eats_min).congr fun w => ?_
  constructor
  · rintro ⟨_, _, rfl, ⟨h, hh, rfl⟩, m, hm, rfl⟩
    exact ⟨h, m, hh, hm, by simp⟩
  · rintro ⟨h, m, hh, hm, rfl⟩
    exact ⟨_, _, rfl, ⟨h, hh, rfl⟩, m, hm, rfl⟩

theorem eats_hhmmss : Eats reTimeHHMMSS (fun w => ∃ h m x, h < 24 ∧ m < 60 ∧ x < 60 ∧
    w = pad2 h ++ ':' :: pad2 m ++ ':' :: pad2 x) := by
  refine (eats_hour2.seq ((eats_chr ':').seq (eats_min.seq ((eats_chr ':').seq eats_min)))).congr
    fun w => ?_
  constructor
  · rintro ⟨_, _, rfl, ⟨h, hh, rfl⟩, _, _, rfl, rfl, _, _, rfl, ⟨m, hm, rfl⟩, _, _, rfl, rfl, x, hx, rfl⟩
    exact ⟨h, m, x, hh, hm, hx, by simp⟩
  · rintro ⟨h, m, x, hh, hm, hx, rfl⟩
    exact ⟨pad2 h, ':' :: (pad2 m ++ ':' :: pad2 x), by simp, ⟨h, hh, rfl⟩, [':'], _, rfl, rfl, pad2 m,
      ':' :: pad2 x, rfl, ⟨m, hm, rfl⟩, [':'], _, rfl, rfl, x, hx, rfl⟩

theorem eats_sign : Eats (.cls (oneOf ['+', '-'])) (fun w => w = ['+'] ∨ w = ['-']) :=
  (eats_cls _).congr fun w => by
    simp only [oneOf, List.contains_cons, List.contains_nil, Bool.or_false, Bool.or_eq_true, beq_iff_eq]
    constructor
    · rintro ⟨c, rfl, rfl | rfl⟩
      · exact Or.inl rfl
      · exact Or.inr rfl
    · rintro (rfl | rfl)
      · exact ⟨_, rfl, Or.inl rfl⟩
      · exact ⟨_, rfl, Or.inr rfl⟩

theorem eats_hhmmsszz : Eats reTimeHHMMSSZZ (fun w => ∃ h m x oh om, ∃ g : Char,
    h < 24 ∧ m < 60 ∧ x < 60 ∧ oh < 20 ∧ om < 60 ∧ (g = '+' ∨ g = '-') ∧
    w = pad2 h ++ ':' :: pad2 m ++ ':' :: pad2 x ++ g :: pad2 oh ++ ':' :: pad2 om) := by
  refine (eats_hour2.seq ((eats_chr ':').seq (eats_min.seq ((eats_chr ':').seq (eats_min.seq
    (eats_sign.seq (eats_offHour.seq ((eats_chr ':').seq eats_min)))))))).congr fun w => ?_
  constructor
  · rintro ⟨_, _, rfl, ⟨h, hh, rfl⟩, _, _, rfl, rfl, _, _, rfl, ⟨m, hm, rfl⟩, _, _, rfl, rfl, _, _, rfl,
      ⟨x, hx, rfl⟩, _, _, rfl, hg, _, _, rfl, ⟨oh, hoh, rfl⟩, _, _, rfl, rfl, om, hom, rfl⟩
    rcases hg with rfl | rfl
    · exact ⟨h, m, x, oh, om, '+', hh, hm, hx, hoh, hom, Or.inl rfl, by simp⟩
    · exact ⟨h, m, x, oh, om, '-', hh, hm, hx, hoh, hom, Or.inr rfl, by simp⟩
  · rintro ⟨h, m, x, oh, om, g, hh, hm, hx, hoh, hom, hg, rfl⟩
    refine ⟨pad2 h, ':' :: (pad2 m ++ ':' :: (pad2 x ++ g :: (pad2 oh ++ ':' :: pad2 om))), by simp,
      ⟨h, hh, rfl⟩, [':'], _, rfl, rfl, pad2 m, _, rfl, ⟨m, hm, rfl⟩, [':'], _, rfl, rfl, pad2 x, _, rfl,
      ⟨x, hx, rfl⟩, [g], _, rfl, ?_, pad2 oh, _, rfl, ⟨oh, hoh, rfl⟩, [':'], _, rfl, rfl, om, hom, rfl⟩
    rcases hg with rfl | rfl
    · exact Or.inl rfl
    · exact Or.inr rfl

/-- `([0-9]|1[0-9]|2[0-3]):([0-5][0-9])`. -/
theorem eats_hmm : Eats reTimeHMM (fun w => (∃ h m, h < 10 ∧ m < 60 ∧ w = dg h :: ':' :: pad2 m) ∨
    (∃ h m, 10 ≤ h ∧ h < 24 ∧ m < 60 ∧ w = pad2 h ++ ':' :: pad2 m)) := by
  have e : reTimeHMM = .seq (.alt (.cls (rng (dg 0) (dg 9)))
      (.alt (.seq (.chr '1') (.cls (rng (dg 0) (dg 9))))
        (.seq (.chr '2') (.cls (rng (dg 0) (dg 3)))))) (.seq (.chr ':') reMin) := rfl
  rw [e]
  refine (((eats_cls _).alt (((eats_chr _).seq (eats_cls _)).alt ((eats_chr _).seq (eats_cls _)))).seq
    ((eats_chr ':').seq eats_min)).congr fun w => ?_
  simp only [rng_dg (show 0 < 10 by omega) (show 9 < 10 by omega),
    rng_dg (show 0 < 10 by omega) (show 3 < 10 by omega)]
  constructor
  · rintro ⟨_, _, rfl, hA, _, _, rfl, rfl, m, hm, rfl⟩
    rcases hA with ⟨c, rfl, n, -, hn, rfl⟩ | ⟨_, _, rfl, rfl, c, rfl, n, -, hn, rfl⟩ |
      ⟨_, _, rfl, rfl, c, rfl, n, -, hn, rfl⟩
    · exact Or.inl ⟨n, m, by omega, hm, by simp⟩
    · refine Or.inr ⟨10 + n, m, by omega, by omega, hm, ?_⟩
      have h1 : (10 + n) / 10 = 1 := by omega
      have h2 : (10 + n) % 10 = n := by omega
      simp [pad2, h1, h2]; rfl
    · refine Or.inr ⟨20 + n, m, by omega, by omega, hm, ?_⟩
      have h1 : (20 + n) / 10 = 2 := by omega
      have h2 : (20 + n) % 10 = n := by omega
      simp [pad2, h1, h2]; rfl
  · rintro (⟨h, m, hh, hm, rfl⟩ | ⟨h, m, h10, hh, hm, rfl⟩)
    · exact ⟨[dg h], _, rfl, Or.inl ⟨_, rfl, h, by omega, by omega, rfl⟩, [':'], _, rfl, rfl, m, hm, rfl⟩
    · refine ⟨pad2 h, _, rfl, Or.inr ?_, [':'], _, rfl, rfl, m, hm, rfl⟩
      have hc : h / 10 = 1 ∨ h / 10 = 2 := by omega
      rcases hc with hc | hc
      · left; exact ⟨[dg 1], [dg (h % 10)], by simp [pad2, hc], rfl, _, rfl, h % 10, by omega, by omega, rfl⟩
      · right; exact ⟨[dg 2], [dg (h % 10)], by simp [pad2, hc], rfl, _, rfl, h % 10, by omega, by omega, rfl⟩

end Clever
