import Verif.Proofs.Urls

/-!
# The languages of the e-mail, path and date patterns
-/

namespace Clever

open Spec

theorem asciiAlnum_eq : asciiAlnum = alnum := by
  funext c
  rw [Bool.eq_iff_iff]
  simp only [asciiAlnum, alnum, Bool.or_eq_true, rng_iff, Bool.and_eq_true, decide_eq_true_eq, low]
  exact Iff.rfl

theorem email_iff (s : Str) : (reEmail.fullmatch s).isSome = true ↔ IsEmailText s := by
  have e : reEmail = .seq .bol (.seq (Re.plus (.cls (fun c => asciiAlnum c || oneOf "_.+-".toList c)))
      (.seq (.chr '@') (.seq (Re.plus (.cls (fun c => asciiAlnum c || c = '-'))) (.seq (.chr '.')
        (.seq (Re.plus (.cls (fun c => asciiAlnum c || oneOf "-.".toList c))) .eol))))) := rfl
  rw [e, asciiAlnum_eq, fullmatch_isSome]
  constructor
  · rintro ⟨t, ht, h0⟩
    obtain ⟨u1, hu1, ht⟩ := mem_seq.1 ht
    obtain ⟨-, rfl⟩ := mem_bol.1 hu1
    obtain ⟨u2, hu2, ht⟩ := mem_seq.1 ht
    obtain ⟨a, r1, ⟨h1, h2⟩, h3, rfl⟩ := (eats_plus_cls _ _ _).1 hu2
    obtain ⟨u3, hu3, ht⟩ := mem_seq.1 ht
    obtain ⟨r2, h4, rfl⟩ := mem_chr.1 hu3
    obtain ⟨u4, hu4, ht⟩ := mem_seq.1 ht
    obtain ⟨b, r3, ⟨h5, h6⟩, h7, rfl⟩ := (eats_plus_cls _ _ _).1 hu4
    obtain ⟨u5, hu5, ht⟩ := mem_seq.1 ht
    obtain ⟨r4, h8, rfl⟩ := mem_chr.1 hu5
    obtain ⟨u6, hu6, ht⟩ := mem_seq.1 ht
    obtain ⟨c, r5, ⟨h9, h10⟩, h11, rfl⟩ := (eats_plus_cls _ _ _).1 hu6
    obtain ⟨-, rfl⟩ := mem_eol.1 ht
    simp only at h0 h3 h4 h7 h8 h11
    subst h0
    rw [List.append_nil] at h11
    exact ⟨a, b, c, h1, h2, h5, h6, h9, h10, by rw [h3, h4, h7, h8, h11]⟩
  · rintro ⟨a, b, c, h1, h2, h5, h6, h9, h10, rfl⟩
    exact ⟨_, mem_seq.2 ⟨_, mem_bol.2 ⟨rfl, rfl⟩, mem_seq.2 ⟨_, (eats_plus_cls _ _ _).2 ⟨a, _, ⟨h1, h2⟩, rfl, rfl⟩,
      mem_seq.2 ⟨_, mem_chr.2 ⟨_, rfl, rfl⟩, mem_seq.2 ⟨_, (eats_plus_cls _ _ _).2 ⟨b, _, ⟨h5, h6⟩, rfl, rfl⟩,
      mem_seq.2 ⟨_, mem_chr.2 ⟨_, rfl, rfl⟩, mem_seq.2 ⟨_, (eats_plus_cls _ _ _).2 ⟨c, [], ⟨h9, h10⟩, by simp, rfl⟩,
      mem_eol.2 ⟨Or.inl rfl, rfl⟩⟩⟩⟩⟩⟩⟩, rfl⟩

theorem eats_unixPath : Eats reUnixPath IsPathText := by
  have e : reUnixPath = .seq (Re.opt (.cls (oneOf ['~', '.']))) (.seq
      (Re.plus (.seq (.chr '/') (Re.plus (.cls (fun c => asciiAlnum c || oneOf ".-_".toList c)))))
      (Re.opt (.chr '/'))) := rfl
  rw [e, asciiAlnum_eq]
  refine ((eats_cls _).opt.seq (((eats_chr '/').seq (eats_plus_cls _)).plus.seq (eats_chr '/').opt)).congr fun w => ?_
  simp only [oneOf, List.contains_cons, List.contains_nil, Bool.or_false, Bool.or_eq_true, beq_iff_eq]
  constructor
  · rintro ⟨a, _, rfl, ha, _, z, rfl, ⟨names, h1, rfl, h2⟩, hz⟩
    refine ⟨a, names, z, ?_, h1, ?_, hz.symm, rfl⟩
    · rcases ha with ⟨c, rfl, rfl | rfl⟩ | rfl
      · exact Or.inr (Or.inl rfl)
      · exact Or.inr (Or.inr rfl)
      · exact Or.inl rfl
    · intro x hx
      obtain ⟨_, l, rfl, rfl, h3, h4⟩ := h2 x hx
      exact ⟨l, h3, fun c hc => (Bool.or_eq_true _ _).mpr (h4 c hc), rfl⟩
  · rintro ⟨a, names, z, ha, h1, h2, hz, rfl⟩
    refine ⟨a, _, rfl, ?_, _, z, rfl, ⟨names, h1, rfl, ?_⟩, hz.symm⟩
    · rcases ha with rfl | rfl | rfl
      · exact Or.inr rfl
      · exact Or.inl ⟨_, rfl, Or.inl rfl⟩
      · exact Or.inl ⟨_, rfl, Or.inr rfl⟩
    · intro x hx
      obtain ⟨l, h3, h4, rfl⟩ := h2 x hx
      exact ⟨['/'], l, rfl, rfl, h3, fun c hc => (Bool.or_eq_true _ _).mp (h4 c hc)⟩

/-! ## Dates -/

/-- The expression matches exactly the words of `L`, in any context; it may capture groups. -/
def EatsG (r : Re) (L : Str → Prop) : Prop :=
  (∀ s t, t ∈ r.run s → ∃ w, L w ∧ s.rest = w ++ t.rest) ∧
  (∀ s w r', L w → s.rest = w ++ r' → ∃ t, t ∈ r.run s ∧ t.rest = r')

theorem Eats.toG {r : Re} {L : Str → Prop} (h : Eats r L) : EatsG r L := by
  constructor
  · intro s t ht
    obtain ⟨w, r', h1, h2, rfl⟩ := (h s t).1 ht
    exact ⟨w, h1, h2⟩
  · intro s w r' h1 h2
    exact ⟨_, (h s _).2 ⟨w, r', h1, h2, rfl⟩, rfl⟩

theorem EatsG.fullmatch {r : Re} {L : Str → Prop} (h : EatsG r L) (s : Str) :
    (r.fullmatch s).isSome = true ↔ L s := by
  rw [fullmatch_isSome]
  constructor
  · rintro ⟨t, ht, h0⟩
    obtain ⟨w, h1, h2⟩ := h.1 _ _ ht
    rw [h0, List.append_nil] at h2
    simp only at h2
    rwa [h2]
  · intro hs
    obtain ⟨t, h1, h2⟩ := h.2 ⟨[], s, []⟩ s [] hs (by simp)
    exact ⟨t, h1, h2⟩

theorem EatsG.congr {r : Re} {L M : Str → Prop} (h : EatsG r L) (hLM : ∀ w, L w ↔ M w) : EatsG r M := by
  have : L = M := funext fun w => propext (hLM w)
  exact this ▸ h

theorem EatsG.seq {a b : Re} {A B : Str → Prop} (ha : EatsG a A) (hb : EatsG b B) :
    EatsG (.seq a b) (fun w => ∃ u v, w = u ++ v ∧ A u ∧ B v) := by
  constructor
  · intro s t ht
    obtain ⟨m, hm, ht⟩ := mem_seq.1 ht
    obtain ⟨u, h1, h2⟩ := ha.1 _ _ hm
    obtain ⟨v, h3, h4⟩ := hb.1 _ _ ht
    exact ⟨u ++ v, ⟨u, v, rfl, h1, h3⟩, by rw [h2, h4]; simp⟩
  · rintro s _ r' ⟨u, v, rfl, h1, h2⟩ h3
    obtain ⟨m, h4, h5⟩ := ha.2 s u (v ++ r') h1 (by rw [h3]; simp)
    obtain ⟨t, h6, h7⟩ := hb.2 m v r' h2 h5
    exact ⟨t, mem_seq.2 ⟨m, h4, h6⟩, h7⟩

theorem EatsG.alt {a b : Re} {A B : Str → Prop} (ha : EatsG a A) (hb : EatsG b B) :
    EatsG (.alt a b) (fun w => A w ∨ B w) := by
  constructor
  · intro s t ht
    rcases mem_alt.1 ht with ht | ht
    · obtain ⟨w, h1, h2⟩ := ha.1 _ _ ht; exact ⟨w, Or.inl h1, h2⟩
    · obtain ⟨w, h1, h2⟩ := hb.1 _ _ ht; exact ⟨w, Or.inr h1, h2⟩
  · rintro s w r' (h1 | h1) h2
    · obtain ⟨t, h3, h4⟩ := ha.2 s w r' h1 h2; exact ⟨t, mem_alt.2 (Or.inl h3), h4⟩
    · obtain ⟨t, h3, h4⟩ := hb.2 s w r' h1 h2; exact ⟨t, mem_alt.2 (Or.inr h3), h4⟩

/-- A separator, a middle part, the same separator, and a last part. -/
theorem eatsG_sep (k : Nat) {mid last : Re} {M L : Str → Prop} (hm : Eats mid M) (hl : Eats last L) :
    EatsG (reSep k mid last) (fun w => ∃ x m l, x ∈ "-/. ".toList ∧ M m ∧ L l ∧ w = x :: (m ++ x :: l)) := by
  have e : reSep k mid last = .seq (.grp k (.cls (oneOf "-/. ".toList))) (.seq mid (.seq (.bref k) last)) := rfl
  have hone : ∀ x : Char, oneOf "-/. ".toList x = true ↔ x ∈ "-/. ".toList := by
    intro x; simp [oneOf]
  rw [e]
  constructor
  · intro s t ht
    obtain ⟨u1, hu1, ht⟩ := mem_seq.1 ht
    obtain ⟨v1, hv1, rfl⟩ := mem_grp.1 hu1
    obtain ⟨x, r1, h1, h2, rfl⟩ := mem_cls.1 hv1
    obtain ⟨u2, hu2, ht⟩ := mem_seq.1 ht
    obtain ⟨m, r2, h3, h4, rfl⟩ := (hm _ _).1 hu2
    obtain ⟨u3, hu3, ht⟩ := mem_seq.1 ht
    obtain ⟨l, r4, h5, h6, rfl⟩ := (hl _ _).1 ht
    have hb : MState.between s ⟨x :: s.pre, r1, s.caps⟩ = [x] := by
      simp [MState.between, h1]
    rw [hb] at hu3
    simp only [Re.run, MState.group, List.find?_cons, decide_true, Option.map_some, MState.eat] at hu3
    simp only at h4 h6
    subst h4
    cases hr : r2 with
    | nil => rw [hr] at hu3; simp at hu3
    | cons y r3 =>
      rw [hr] at hu3
      simp only at hu3
      by_cases hy : y = x
      · subst hy
        rw [if_pos rfl] at hu3
        simp only [Option.mem_toList, Option.mem_def, Option.some.injEq] at hu3
        subst hu3
        simp only at h6
        exact ⟨y :: (m ++ y :: l), ⟨y, m, l, (hone y).1 h2, h3, h5, rfl⟩, by rw [h1, hr, h6]; simp⟩
      · rw [if_neg hy] at hu3; simp at hu3
  · rintro s _ r' ⟨x, m, l, hx, h1, h2, rfl⟩ h3
    have hb : MState.between s ⟨x :: s.pre, m ++ x :: (l ++ r'), s.caps⟩ = [x] := by
      simp only [MState.between, h3]; simp
    refine ⟨⟨l.reverse ++ (x :: (m.reverse ++ x :: s.pre)), r', (k, [x]) :: s.caps⟩, ?_, rfl⟩
    refine mem_seq.2 ⟨⟨x :: s.pre, m ++ x :: (l ++ r'), (k, [x]) :: s.caps⟩, mem_grp.2
      ⟨⟨x :: s.pre, m ++ x :: (l ++ r'), s.caps⟩, mem_cls.2 ⟨x, _, by rw [h3]; simp, (hone x).2 hx, rfl⟩, by rw [hb]⟩, ?_⟩
    refine mem_seq.2 ⟨_, (hm _ _).2 ⟨m, x :: (l ++ r'), h1, rfl, rfl⟩, mem_seq.2
      ⟨⟨x :: (m.reverse ++ x :: s.pre), l ++ r', (k, [x]) :: s.caps⟩, ?_, (hl _ _).2 ⟨l, r', h2, rfl, rfl⟩⟩⟩
    simp [Re.run, MState.group, MState.eat]

theorem pad2_low {n : Nat} (h : n < 10) : pad2 n = [dg 0, dg n] := by
  simp [pad2, Nat.div_eq_of_lt h, Nat.mod_eq_of_lt h]

theorem pad2_ten {k n : Nat} (h : n < 10) : pad2 (10 * k + n) = [dg k, dg n] := by
  have h1 : (10 * k + n) / 10 = k := by omega
  have h2 : (10 * k + n) % 10 = n := by omega
  simp [pad2, h1, h2]

/-- Months from 1 to 9 with two digits, and from 10 to 12. -/
theorem isMonth2_iff (w : Str) : IsMonth2 w ↔ (∃ n, 1 ≤ n ∧ n ≤ 9 ∧ w = [dg 0, dg n]) ∨
    (∃ n, n ≤ 2 ∧ w = [dg 1, dg n]) := by
  constructor
  · rintro ⟨m, h1, h2, rfl⟩
    by_cases h : m < 10
    · exact Or.inl ⟨m, h1, by omega, pad2_low h⟩
    · exact Or.inr ⟨m - 10, by omega, by rw [show m = 10 * 1 + (m - 10) by omega, pad2_ten (by omega)]; simp⟩
  · rintro (⟨n, h1, h2, rfl⟩ | ⟨n, h, rfl⟩)
    · exact ⟨n, h1, by omega, (pad2_low (by omega)).symm⟩
    · exact ⟨10 * 1 + n, by omega, by omega, (pad2_ten (by omega)).symm⟩

theorem eats_tens : Eats (.seq (.chr '1') (.cls (rng '0' '2'))) (fun w => ∃ n, n ≤ 2 ∧ w = [dg 1, dg n]) := by
  have e : rng '0' '2' = rng (dg 0) (dg 2) := rfl
  rw [e]
  refine ((eats_chr '1').seq (eats_cls _)).congr fun w => ?_
  simp only [rng_dg (show 0 < 10 by omega) (show 2 < 10 by omega)]
  constructor
  · rintro ⟨_, _, rfl, rfl, c, rfl, n, -, h, rfl⟩; exact ⟨n, h, rfl⟩
  · rintro ⟨n, h, rfl⟩; exact ⟨['1'], [dg n], rfl, rfl, _, rfl, n, by omega, h, rfl⟩

theorem eats_nine : Eats (.cls (rng '1' '9')) (fun w => ∃ n, 1 ≤ n ∧ n ≤ 9 ∧ w = [dg n]) := by
  have e : rng '1' '9' = rng (dg 1) (dg 9) := rfl
  rw [e]
  refine (eats_cls _).congr fun w => ?_
  simp only [rng_dg (show 1 < 10 by omega) (show 9 < 10 by omega)]
  constructor
  · rintro ⟨c, rfl, n, h1, h2, rfl⟩; exact ⟨n, h1, h2, rfl⟩
  · rintro ⟨n, h1, h2, rfl⟩; exact ⟨_, rfl, n, h1, h2, rfl⟩

theorem eats_zeroNine : Eats (.seq (.chr '0') (.cls (rng '1' '9')))
    (fun w => ∃ n, 1 ≤ n ∧ n ≤ 9 ∧ w = [dg 0, dg n]) := by
  refine ((eats_chr '0').seq eats_nine).congr fun w => ?_
  constructor
  · rintro ⟨_, _, rfl, rfl, n, h1, h2, rfl⟩; exact ⟨n, h1, h2, rfl⟩
  · rintro ⟨n, h1, h2, rfl⟩; exact ⟨['0'], [dg n], rfl, rfl, n, h1, h2, rfl⟩

theorem eats_optZeroNine : Eats (.seq (Re.opt (.chr '0')) (.cls (rng '1' '9')))
    (fun w => ∃ n, 1 ≤ n ∧ n ≤ 9 ∧ (w = [dg 0, dg n] ∨ w = [dg n])) := by
  refine ((eats_chr '0').opt.seq eats_nine).congr fun w => ?_
  constructor
  · rintro ⟨_, _, rfl, rfl | rfl, n, h1, h2, rfl⟩
    · exact ⟨n, h1, h2, Or.inl rfl⟩
    · exact ⟨n, h1, h2, Or.inr rfl⟩
  · rintro ⟨n, h1, h2, rfl | rfl⟩
    · exact ⟨['0'], [dg n], rfl, Or.inl rfl, n, h1, h2, rfl⟩
    · exact ⟨[], [dg n], rfl, Or.inr rfl, n, h1, h2, rfl⟩

theorem eats_month2 : Eats reMonth2 IsMonth2 :=
  (eats_zeroNine.alt eats_tens).congr fun w => (isMonth2_iff w).symm

theorem eats_month : Eats reMonth IsMonth :=
  (eats_optZeroNine.alt eats_tens).congr fun w => by
    unfold IsMonth
    rw [isMonth2_iff]
    constructor
    · rintro (⟨n, h1, h2, h | h⟩ | h)
      · exact Or.inl (Or.inl ⟨n, h1, h2, h⟩)
      · exact Or.inr ⟨n, h1, h2, h⟩
      · exact Or.inl (Or.inr h)
    · rintro ((⟨n, h1, h2, h⟩ | h) | ⟨n, h1, h2, h⟩)
      · exact Or.inl ⟨n, h1, h2, Or.inl h⟩
      · exact Or.inr h
      · exact Or.inl ⟨n, h1, h2, Or.inr h⟩

theorem eats_month1 : Eats reMonth1 (fun w => (∃ n, 1 ≤ n ∧ n ≤ 9 ∧ w = [dg n]) ∨ ∃ n, n ≤ 2 ∧ w = [dg 1, dg n]) :=
  eats_nine.alt eats_tens

theorem eats_dayTail (env : PyEnv) : Eats (reDayTail env)
    (fun w => (∃ x y, (x = '1' ∨ x = '2') ∧ env.decimal y = true ∧ w = [x, y]) ∨ w = pad2 30 ∨ w = pad2 31) := by
  refine (((eats_cls _).seq (eats_cls env.decimal)).alt ((eats_chr '3').seq (eats_cls _))).congr fun w => ?_
  simp only [oneOf, List.contains_cons, List.contains_nil, Bool.or_false, Bool.or_eq_true, beq_iff_eq]
  constructor
  · rintro (⟨_, _, rfl, ⟨x, rfl, hx⟩, y, rfl, hy⟩ | ⟨_, _, rfl, rfl, x, rfl, rfl | rfl⟩)
    · exact Or.inl ⟨x, y, hx, hy, rfl⟩
    · exact Or.inr (Or.inl (by decide))
    · exact Or.inr (Or.inr (by decide))
  · rintro (⟨x, y, hx, hy, rfl⟩ | rfl | rfl)
    · exact Or.inl ⟨[x], [y], rfl, ⟨x, rfl, hx⟩, y, rfl, hy⟩
    · exact Or.inr ⟨['3'], ['0'], by decide, rfl, _, rfl, Or.inl rfl⟩
    · exact Or.inr ⟨['3'], ['1'], by decide, rfl, _, rfl, Or.inr rfl⟩

theorem low_day (w : Str) : (∃ d, 1 ≤ d ∧ d ≤ 9 ∧ w = pad2 d) ↔ ∃ n, 1 ≤ n ∧ n ≤ 9 ∧ w = [dg 0, dg n] := by
  constructor
  · rintro ⟨n, h1, h2, rfl⟩; exact ⟨n, h1, h2, pad2_low (by omega)⟩
  · rintro ⟨n, h1, h2, rfl⟩; exact ⟨n, h1, h2, (pad2_low (by omega)).symm⟩

theorem eats_day2 (env : PyEnv) : Eats (reDay2 env) (IsDay2 env.decimal) :=
  (eats_zeroNine.alt (eats_dayTail env)).congr fun w => by
    unfold IsDay2
    rw [low_day]

theorem eats_day (env : PyEnv) : Eats (reDay env) (IsDay env.decimal) :=
  (eats_optZeroNine.alt (eats_dayTail env)).congr fun w => by
    unfold IsDay IsDay2
    rw [low_day]
    constructor
    · rintro (⟨n, h1, h2, h | h⟩ | h)
      · exact Or.inl (Or.inl ⟨n, h1, h2, h⟩)
      · exact Or.inr ⟨n, h1, h2, h⟩
      · exact Or.inl (Or.inr h)
    · rintro ((⟨n, h1, h2, h⟩ | h) | ⟨n, h1, h2, h⟩)
      · exact Or.inl ⟨n, h1, h2, Or.inl h⟩
      · exact Or.inr h
      · exact Or.inl ⟨n, h1, h2, Or.inr h⟩

theorem eats_day1 (env : PyEnv) : Eats (reDay1 env) (fun w => (∃ n, 1 ≤ n ∧ n ≤ 9 ∧ w = [dg n]) ∨
    (∃ x y, (x = '1' ∨ x = '2') ∧ env.decimal y = true ∧ w = [x, y]) ∨ w = pad2 30 ∨ w = pad2 31) :=
  eats_nine.alt (eats_dayTail env)

theorem eats_year (env : PyEnv) : Eats (reYear env) (IsYear env.decimal) := by
  refine (((eats_cls _).seq (eats_times_cls env.decimal 3)).alt (eats_times_cls env.decimal 2)).congr fun w => ?_
  simp only [oneOf, List.contains_cons, List.contains_nil, Bool.or_false, Bool.or_eq_true, beq_iff_eq]
  constructor
  · rintro (⟨_, ds, rfl, ⟨x, rfl, hx⟩, h1, h2⟩ | h)
    · exact Or.inl ⟨x, ds, hx, h1, h2, rfl⟩
    · exact Or.inr h
  · rintro (⟨x, ds, hx, h1, h2, rfl⟩ | h)
    · exact Or.inl ⟨[x], ds, rfl, ⟨x, rfl, hx⟩, h1, h2⟩
    · exact Or.inr h

theorem month_of_month1 {w : Str} (h : (∃ n, 1 ≤ n ∧ n ≤ 9 ∧ w = [dg n]) ∨ ∃ n, n ≤ 2 ∧ w = [dg 1, dg n]) :
    IsMonth w := by
  rcases h with h | h
  · exact Or.inr h
  · exact Or.inl ((isMonth2_iff w).2 (Or.inr h))

theorem day_of_day1 {dig : Char → Bool} {w : Str} (h : (∃ n, 1 ≤ n ∧ n ≤ 9 ∧ w = [dg n]) ∨
    (∃ x y, (x = '1' ∨ x = '2') ∧ dig y = true ∧ w = [x, y]) ∨ w = pad2 30 ∨ w = pad2 31) : IsDay dig w := by
  rcases h with h | h
  · exact Or.inr h
  · exact Or.inl (Or.inr h)

/-- `PATTERN_DATE` matches exactly the date texts. -/
theorem eatsG_date (env : PyEnv) : EatsG (reDate env) (IsDateText env.decimal) := by
  have e : reDate env = .alt (.seq reMonth2 (.alt (.seq (reDay2 env) (reYear env)) (reSep 1 (reDay env) (reYear env))))
      (.alt (.seq (reDay2 env) (.alt (.seq reMonth2 (reYear env)) (reSep 2 reMonth (reYear env))))
      (.alt (.seq (reYear env) (.alt (reSep 3 reMonth (reDay env))
        (.alt (.seq (.chr '年') (.seq reMonth (.seq (.chr '月') (.seq (reDay env) (.chr '日')))))
        (.alt (.seq (.chr '년') (.seq reMonth (.seq (.chr '월') (.seq (reDay env) (.chr '일')))))
          (.seq reMonth2 (reDay2 env))))))
      (.alt (.seq reMonth1 (reSep 4 (reDay env) (reYear env)))
        (.seq (reDay1 env) (reSep 5 reMonth (reYear env)))))) := rfl
  rw [e]
  have cjk : ∀ a b c : Char, EatsG (.seq (.chr a) (.seq reMonth (.seq (.chr b) (.seq (reDay env) (.chr c)))))
      (fun w => ∃ m d, IsMonth m ∧ IsDay env.decimal d ∧ w = a :: (m ++ b :: (d ++ [c]))) := by
    intro a b c
    refine (((eats_chr a).seq (eats_month.seq ((eats_chr b).seq ((eats_day env).seq (eats_chr c))))).congr
      fun w => ?_).toG
    constructor
    · rintro ⟨_, _, rfl, rfl, m, _, rfl, hm, _, _, rfl, rfl, d, _, rfl, hd, rfl⟩
      exact ⟨m, d, hm, hd, rfl⟩
    · rintro ⟨m, d, hm, hd, rfl⟩
      exact ⟨[a], _, rfl, rfl, m, _, rfl, hm, [b], _, rfl, rfl, d, [c], rfl, hd, rfl⟩
  refine ((eats_month2.toG.seq (((eats_day2 env).seq (eats_year env)).toG.alt
      (eatsG_sep 1 (eats_day env) (eats_year env)))).alt
    (((eats_day2 env).toG.seq ((eats_month2.seq (eats_year env)).toG.alt
      (eatsG_sep 2 eats_month (eats_year env)))).alt
    (((eats_year env).toG.seq ((eatsG_sep 3 eats_month (eats_day env)).alt ((cjk '年' '月' '日').alt
      ((cjk '년' '월' '일').alt (eats_month2.seq (eats_day2 env)).toG)))).alt
    ((eats_month1.toG.seq (eatsG_sep 4 (eats_day env) (eats_year env))).alt
      ((eats_day1 env).toG.seq (eatsG_sep 5 eats_month (eats_year env))))))).congr fun w => ?_
  constructor
  · rintro (⟨m, _, rfl, hm, ⟨d, y, rfl, hd, hy⟩ | ⟨x, d, y, hx, hd, hy, rfl⟩⟩ |
      ⟨d, _, rfl, hd, ⟨m, y, rfl, hm, hy⟩ | ⟨x, m, y, hx, hm, hy, rfl⟩⟩ |
      ⟨y, _, rfl, hy, ⟨x, m, d, hx, hm, hd, rfl⟩ | ⟨m, d, hm, hd, rfl⟩ | ⟨m, d, hm, hd, rfl⟩ | ⟨m, d, rfl, hm, hd⟩⟩ |
      ⟨m, _, rfl, hm, x, d, y, hx, hd, hy, rfl⟩ | ⟨d, _, rfl, hd, x, m, y, hx, hm, hy, rfl⟩)
    · exact ⟨d, m, y, Or.inl hd, Or.inl hm, hy, Or.inr (Or.inl ⟨hd, hm, Or.inl rfl⟩)⟩
    · exact ⟨d, m, y, hd, Or.inl hm, hy, Or.inl ⟨x, hx, Or.inl rfl⟩⟩
    · exact ⟨d, m, y, Or.inl hd, Or.inl hm, hy, Or.inr (Or.inl ⟨hd, hm, Or.inr (Or.inl rfl)⟩)⟩
    · exact ⟨d, m, y, Or.inl hd, hm, hy, Or.inl ⟨x, hx, Or.inr (Or.inl rfl)⟩⟩
    · exact ⟨d, m, y, hd, hm, hy, Or.inl ⟨x, hx, Or.inr (Or.inr rfl)⟩⟩
    · exact ⟨d, m, y, hd, hm, hy, Or.inr (Or.inr (Or.inl rfl))⟩
    · exact ⟨d, m, y, hd, hm, hy, Or.inr (Or.inr (Or.inr rfl))⟩
    · exact ⟨d, m, y, Or.inl hd, Or.inl hm, hy, Or.inr (Or.inl ⟨hd, hm, Or.inr (Or.inr rfl)⟩)⟩
    · exact ⟨d, m, y, hd, month_of_month1 hm, hy, Or.inl ⟨x, hx, Or.inl rfl⟩⟩
    · exact ⟨d, m, y, day_of_day1 hd, hm, hy, Or.inl ⟨x, hx, Or.inr (Or.inl rfl)⟩⟩
  · rintro ⟨d, m, y, hd, hm, hy, ⟨x, hx, rfl | rfl | rfl⟩ | ⟨hd, hm, rfl | rfl | rfl⟩ | rfl | rfl⟩
    · rcases hm with hm | hm
      · exact Or.inl ⟨m, _, rfl, hm, Or.inr ⟨x, d, y, hx, hd, hy, rfl⟩⟩
      · exact Or.inr (Or.inr (Or.inr (Or.inl ⟨m, _, rfl, Or.inl hm, x, d, y, hx, hd, hy, rfl⟩)))
    · rcases hd with hd | hd
      · exact Or.inr (Or.inl ⟨d, _, rfl, hd, Or.inr ⟨x, m, y, hx, hm, hy, rfl⟩⟩)
      · exact Or.inr (Or.inr (Or.inr (Or.inr ⟨d, _, rfl, Or.inl hd, x, m, y, hx, hm, hy, rfl⟩)))
    · exact Or.inr (Or.inr (Or.inl ⟨y, _, rfl, hy, Or.inl ⟨x, m, d, hx, hm, hd, rfl⟩⟩))
    · exact Or.inl ⟨m, _, rfl, hm, Or.inl ⟨d, y, rfl, hd, hy⟩⟩
    · exact Or.inr (Or.inl ⟨d, _, rfl, hd, Or.inl ⟨m, y, rfl, hm, hy⟩⟩)
    · exact Or.inr (Or.inr (Or.inl ⟨y, _, rfl, hy, Or.inr (Or.inr (Or.inr ⟨m, d, rfl, hm, hd⟩))⟩))
    · exact Or.inr (Or.inr (Or.inl ⟨y, _, rfl, hy, Or.inr (Or.inl ⟨m, d, hm, hd, rfl⟩)⟩))
    · exact Or.inr (Or.inr (Or.inl ⟨y, _, rfl, hy, Or.inr (Or.inr (Or.inl ⟨m, d, hm, hd, rfl⟩))⟩))

end Clever
