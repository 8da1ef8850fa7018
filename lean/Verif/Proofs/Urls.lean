import Verif.Proofs.Numbers

/-!
# The languages of the URL and IPv4 patterns
-/

namespace Clever

open Spec

theorem eats_lit : ∀ l : List Char, Eats (Re.lit l) (fun w => w = l)
  | [] => eats_eps
  | [c] => eats_chr c
  | c :: d :: l => by
    refine ((eats_chr c).seq (eats_lit (d :: l))).congr fun w => ?_
    constructor
    · rintro ⟨_, _, rfl, rfl, rfl⟩; rfl
    · rintro rfl; exact ⟨[c], d :: l, rfl, rfl, rfl⟩

theorem eats_d13 (env : PyEnv) : Eats ((Re.cls env.decimal).between 1 3)
    (fun w => 1 ≤ w.length ∧ w.length ≤ 3 ∧ AllIn env.decimal w) := eats_between_cls _ 1 3 (by omega)

theorem eats_quad (env : PyEnv) :
    Eats (Re.cat [(Re.cls env.decimal).between 1 3, .chr '.', (Re.cls env.decimal).between 1 3, .chr '.',
      (Re.cls env.decimal).between 1 3, .chr '.', (Re.cls env.decimal).between 1 3]) (IsDottedQuad env.decimal) := by
  refine ((eats_d13 env).seq ((eats_chr '.').seq ((eats_d13 env).seq ((eats_chr '.').seq ((eats_d13 env).seq
    ((eats_chr '.').seq (eats_d13 env))))))).congr fun w => ?_
  constructor
  · rintro ⟨a, _, rfl, ha, _, _, rfl, rfl, b, _, rfl, hb, _, _, rfl, rfl, c, _, rfl, hc, _, d, rfl, rfl, hd⟩
    refine ⟨a, b, c, d, ?_, rfl⟩
    intro x hx
    simp only [List.mem_cons, List.not_mem_nil, or_false] at hx
    rcases hx with rfl | rfl | rfl | rfl <;> assumption
  · rintro ⟨a, b, c, d, h, rfl⟩
    exact ⟨a, _, rfl, h a (by simp), ['.'], _, rfl, rfl, b, _, rfl, h b (by simp), ['.'], _, rfl, rfl,
      c, _, rfl, h c (by simp), ['.'], d, rfl, rfl, h d (by simp)⟩

theorem eats_ipv4 (env : PyEnv) : Eats (reIpv4 env) (IsDottedQuad env.decimal) := by
  have e : reIpv4 env = .seq (.seq (.seq ((Re.cls env.decimal).between 1 3) (.chr '.'))
      (.seq (.seq ((Re.cls env.decimal).between 1 3) (.chr '.'))
        (.seq ((Re.cls env.decimal).between 1 3) (.chr '.')))) ((Re.cls env.decimal).between 1 3) := rfl
  rw [e]
  have hp := (eats_d13 env).seq (eats_chr '.')
  refine ((hp.seq (hp.seq hp)).seq (eats_d13 env)).congr fun w => ?_
  constructor
  · rintro ⟨_, d, rfl, ⟨_, _, rfl, ⟨a, _, rfl, ha, rfl⟩, _, _, rfl, ⟨b, _, rfl, hb, rfl⟩, c, _, rfl, hc, rfl⟩, hd⟩
    refine ⟨a, b, c, d, ?_, by simp⟩
    intro x hx
    simp only [List.mem_cons, List.not_mem_nil, or_false] at hx
    rcases hx with rfl | rfl | rfl | rfl <;> assumption
  · rintro ⟨a, b, c, d, h, rfl⟩
    exact ⟨a ++ '.' :: (b ++ '.' :: (c ++ ['.'])), d, by simp, ⟨a ++ ['.'], (b ++ ['.']) ++ (c ++ ['.']), by simp,
      ⟨a, ['.'], rfl, h a (by simp), rfl⟩, b ++ ['.'], c ++ ['.'], rfl, ⟨b, ['.'], rfl, h b (by simp), rfl⟩,
      c, ['.'], rfl, h c (by simp), rfl⟩, h d (by simp)⟩

theorem eats_port (env : PyEnv) : Eats (rePort env) (IsPort env.decimal) := by
  refine ((eats_chr ':').seq (eats_between_cls env.decimal 1 5 (by omega))).opt.congr fun w => ?_
  constructor
  · rintro (⟨_, ds, rfl, rfl, h1, h2, h3⟩ | rfl)
    · exact Or.inr ⟨ds, h1, h2, h3, rfl⟩
    · exact Or.inl rfl
  · rintro (rfl | ⟨ds, h1, h2, h3, rfl⟩)
    · exact Or.inr rfl
    · exact Or.inl ⟨[':'], ds, rfl, rfl, h1, h2, h3⟩

theorem rng_low {c : Char} : rng 'a' 'z' c = low c := by
  rw [Bool.eq_iff_iff, rng_iff]
  simp [low]

theorem low_fun : rng 'a' 'z' = low := funext fun _ => rng_low

theorem eats_atLeast_cls (p : Char → Bool) (m : Nat) :
    Eats ((Re.cls p).atLeast m) (fun w => m ≤ w.length ∧ ∀ c ∈ w, p c = true) :=
  ((eats_times_cls p m).seq (eats_star_cls p)).congr fun w => by
    constructor
    · rintro ⟨u, v, rfl, ⟨h1, h2⟩, h3⟩
      refine ⟨by simp; omega, fun c hc => ?_⟩
      rcases List.mem_append.1 hc with hc | hc
      · exact h2 c hc
      · exact h3 c hc
    · rintro ⟨h1, h2⟩
      exact ⟨w.take m, w.drop m, by simp, ⟨by simp; omega, fun c hc => h2 c (List.mem_of_mem_take hc)⟩,
        fun c hc => h2 c (List.mem_of_mem_drop hc)⟩

/-- The characters of labels, apart from the hyphen. -/
def wordChar (env : PyEnv) (c : Char) : Bool := env.letter c || env.number c

theorem eats_domain (env : PyEnv) : Eats (Re.cat [
        Re.plus (.seq (Re.plus (.cls (fun c => env.letter c || env.number c || c = '-'))) (.chr '.')),
        .alt ((Re.cls (rng 'a' 'z')).atLeast 2) (Re.lit "local".toList),
        Re.opt (.seq (.chr '.') ((Re.cls (rng 'a' 'z')).between 2 3))]) (IsDomain (wordChar env)) := by
  rw [low_fun]
  refine (((eats_plus_cls _).seq (eats_chr '.')).plus.seq (((eats_atLeast_cls low 2).alt
    (eats_lit "local".toList)).seq ((eats_chr '.').seq (eats_between_cls low 2 3 (by omega))).opt)).congr fun w => ?_
  constructor
  · rintro ⟨_, _, rfl, ⟨labels, h1, rfl, h2⟩, tld, cc, rfl, h3, h4⟩
    refine ⟨labels, tld, cc, h1, ?_, ?_, ?_, rfl⟩
    · intro x hx
      obtain ⟨l, _, rfl, ⟨h5, h6⟩, rfl⟩ := h2 x hx
      exact ⟨l, h5, h6, rfl⟩
    · rcases h3 with h3 | rfl
      · exact h3
      · unfold AllIn; decide
    · rcases h4 with ⟨_, l, rfl, rfl, h5, h6, h7⟩ | rfl
      · exact Or.inr ⟨l, h5, h6, h7, rfl⟩
      · exact Or.inl rfl
  · rintro ⟨labels, tld, cc, h1, h2, h3, h4, rfl⟩
    refine ⟨_, _, rfl, ⟨labels, h1, rfl, ?_⟩, tld, cc, rfl, Or.inl h3, ?_⟩
    · intro x hx
      obtain ⟨l, h5, h6, rfl⟩ := h2 x hx
      exact ⟨l, ['.'], rfl, ⟨h5, h6⟩, rfl⟩
    · rcases h4 with rfl | ⟨l, h5, h6, h7, rfl⟩
      · exact Or.inr rfl
      · exact Or.inl ⟨['.'], l, rfl, rfl, h5, h6, h7⟩

/-- The host part of `PATTERN_URL`. -/
def reHost (env : PyEnv) : Re :=
  Re.any [
      Re.cat [
        Re.plus (.seq (Re.plus (.cls (fun c => env.letter c || env.number c || c = '-'))) (.chr '.')),
        .alt ((Re.cls (rng 'a' 'z')).atLeast 2) (Re.lit "local".toList),
        Re.opt (.seq (.chr '.') ((Re.cls (rng 'a' 'z')).between 2 3))],
      .seq (Re.lit "localhost".toList) (rePort env),
      Re.cat [(Re.cls env.decimal).between 1 3, .chr '.', (Re.cls env.decimal).between 1 3, .chr '.',
        (Re.cls env.decimal).between 1 3, .chr '.', (Re.cls env.decimal).between 1 3, rePort env]]

theorem eats_host (env : PyEnv) : Eats (reHost env) (IsHost (wordChar env) env.decimal) := by
  have hq : Eats (Re.cat [(Re.cls env.decimal).between 1 3, .chr '.', (Re.cls env.decimal).between 1 3, .chr '.',
        (Re.cls env.decimal).between 1 3, .chr '.', (Re.cls env.decimal).between 1 3, rePort env])
      (fun w => ∃ q p, IsDottedQuad env.decimal q ∧ IsPort env.decimal p ∧ w = q ++ p) := by
    refine ((eats_d13 env).seq ((eats_chr '.').seq ((eats_d13 env).seq ((eats_chr '.').seq ((eats_d13 env).seq
      ((eats_chr '.').seq ((eats_d13 env).seq (eats_port env)))))))).congr fun w => ?_
    constructor
    · rintro ⟨a, _, rfl, ha, _, _, rfl, rfl, b, _, rfl, hb, _, _, rfl, rfl, c, _, rfl, hc, _, _, rfl, rfl, d, p, rfl,
        hd, hp⟩
      refine ⟨_, p, ⟨a, b, c, d, ?_, rfl⟩, hp, by simp⟩
      intro x hx
      simp only [List.mem_cons, List.not_mem_nil, or_false] at hx
      rcases hx with rfl | rfl | rfl | rfl <;> assumption
    · rintro ⟨_, p, ⟨a, b, c, d, h, rfl⟩, hp, rfl⟩
      exact ⟨a, '.' :: (b ++ '.' :: (c ++ '.' :: (d ++ p))), by simp, h a (by simp), ['.'], _, rfl, rfl, b, _, rfl,
        h b (by simp), ['.'], _, rfl, rfl, c, _, rfl, h c (by simp), ['.'], _, rfl, rfl, d, p, rfl, h d (by simp), hp⟩
  refine ((eats_domain env).alt (((eats_lit _).seq (eats_port env)).alt hq)).congr fun w => ?_
  unfold IsHost
  constructor
  · rintro (h | ⟨_, p, rfl, rfl, hp⟩ | h)
    · exact Or.inl h
    · exact Or.inr (Or.inl ⟨p, hp, rfl⟩)
    · exact Or.inr (Or.inr h)
  · rintro (h | ⟨p, hp, rfl⟩ | h)
    · exact Or.inl h
    · exact Or.inr (Or.inl ⟨_, p, rfl, rfl, hp⟩)
    · exact Or.inr (Or.inr h)

theorem mem_nahead {a : Re} {s t : MState} :
    t ∈ (Re.nahead a).run s ↔ (¬ ∃ u, u ∈ a.run s) ∧ t = s := by
  simp only [Re.run]
  cases h : a.run s <;> simp

theorem eats_scheme : Eats (Re.cat [.alt (.seq (Re.lit "http".toList) (Re.opt (.chr 's'))) (Re.lit "ftp".toList),
      Re.lit "://".toList]) (fun w => w ∈ ["http://".toList, "https://".toList, "ftp://".toList]) := by
  refine ((((eats_lit _).seq (eats_chr 's').opt).alt (eats_lit _)).seq (eats_lit _)).congr fun w => ?_
  simp only [List.mem_cons, List.not_mem_nil, or_false]
  constructor
  · rintro ⟨_, _, rfl, ⟨_, _, rfl, rfl, rfl | rfl⟩ | rfl, rfl⟩
    · exact Or.inr (Or.inl rfl)
    · exact Or.inl rfl
    · exact Or.inr (Or.inr rfl)
  · rintro (rfl | rfl | rfl)
    · exact ⟨"http".toList, "://".toList, rfl, Or.inl ⟨"http".toList, [], rfl, rfl, Or.inr rfl⟩, rfl⟩
    · exact ⟨"https".toList, "://".toList, rfl, Or.inl ⟨"http".toList, ['s'], rfl, rfl, Or.inl rfl⟩, rfl⟩
    · exact ⟨"ftp".toList, "://".toList, rfl, Or.inr rfl, rfl⟩

/-- The path and the extension. -/
theorem eats_urlTail (env : PyEnv) : Eats (.seq
    (Re.opt (.seq (.chr '/') (.star (.cls (fun c => env.letter c || env.number c ||
      oneOf "_/()~?=&%-#.:".toList c)))))
    (Re.opt (.seq (.chr '.') (Re.plus (.cls (rng 'a' 'z'))))))
    (fun w => ∃ c d, (c = [] ∨ ∃ l, AllIn (fun c => wordChar env c || "_/()~?=&%-#.:".toList.contains c) l ∧
        c = '/' :: l) ∧ (d = [] ∨ ∃ l, l ≠ [] ∧ AllIn low l ∧ d = '.' :: l) ∧ w = c ++ d) := by
  rw [low_fun]
  refine (((eats_chr '/').seq (eats_star_cls _)).opt.seq ((eats_chr '.').seq (eats_plus_cls low)).opt).congr
    fun w => ?_
  constructor
  · rintro ⟨c, d, rfl, hc, hd⟩
    refine ⟨c, d, ?_, ?_, rfl⟩
    · rcases hc with ⟨_, l, rfl, rfl, h⟩ | rfl
      · exact Or.inr ⟨l, h, rfl⟩
      · exact Or.inl rfl
    · rcases hd with ⟨_, l, rfl, rfl, h0, h⟩ | rfl
      · exact Or.inr ⟨l, h0, h, rfl⟩
      · exact Or.inl rfl
  · rintro ⟨c, d, hc, hd, rfl⟩
    refine ⟨c, d, rfl, ?_, ?_⟩
    · rcases hc with rfl | ⟨l, h, rfl⟩
      · exact Or.inr rfl
      · exact Or.inl ⟨['/'], l, rfl, rfl, h⟩
    · rcases hd with rfl | ⟨l, h0, h, rfl⟩
      · exact Or.inr rfl
      · exact Or.inl ⟨['.'], l, rfl, rfl, h0, h⟩

theorem host_ne {wrd dig : Char → Bool} {b : Str} (h : IsHost wrd dig b) : b ≠ [] := by
  rcases h with ⟨labels, tld, cc, -, -, ⟨h, -⟩, -, rfl⟩ | ⟨p, -, rfl⟩ | ⟨q, p, ⟨a, b, c, d, h, rfl⟩, -, rfl⟩
  · intro h0
    simp only [List.append_eq_nil_iff] at h0
    rw [h0.2.1] at h; simp at h
  · simp
  · simp

/-- `PATTERN_URL` matches exactly the URL texts. -/
theorem url_iff (env : PyEnv) (s : Str) :
    ((reUrl env).fullmatch s).isSome = true ↔ IsUrlText (wordChar env) env.decimal s := by
  have e : reUrl env = .seq (Re.opt (.seq (.alt (.seq (Re.lit "http".toList) (Re.opt (.chr 's')))
      (Re.lit "ftp".toList)) (.seq (Re.lit "://".toList) (.nahead (.chr '-')))))
      (.seq (reHost env) (.seq
        (Re.opt (.seq (.chr '/') (.star (.cls (fun c => env.letter c || env.number c ||
          oneOf "_/()~?=&%-#.:".toList c)))))
        (Re.opt (.seq (.chr '.') (Re.plus (.cls (rng 'a' 'z'))))))) := rfl
  rw [e, fullmatch_isSome]
  -- the scheme
  have sch : ∀ s t : MState, t ∈ (Re.seq (.alt (.seq (Re.lit "http".toList) (Re.opt (.chr 's')))
      (Re.lit "ftp".toList)) (.seq (Re.lit "://".toList) (.nahead (.chr '-')))).run s ↔
      ∃ a r, a ∈ ["http://".toList, "https://".toList, "ftp://".toList] ∧ s.rest = a ++ r ∧ r.head? ≠ some '-' ∧
        t = ⟨a.reverse ++ s.pre, r, s.caps⟩ := by
    intro s t
    constructor
    · intro ht
      rw [mem_seq] at ht
      obtain ⟨u, hu, ht⟩ := ht
      rw [mem_seq] at ht
      obtain ⟨v, hv, ht⟩ := ht
      obtain ⟨h1, rfl⟩ := mem_nahead.1 ht
      obtain ⟨a, r, ha, h2, rfl⟩ := (eats_scheme s _).1 (mem_seq.2 ⟨u, hu, hv⟩)
      refine ⟨a, r, ha, h2, ?_, rfl⟩
      intro hh
      apply h1
      cases r with
      | nil => simp at hh
      | cons c r =>
        simp only [List.head?_cons, Option.some.injEq] at hh
        subst hh
        exact ⟨_, mem_chr.2 ⟨r, rfl, rfl⟩⟩
    · rintro ⟨a, r, ha, h2, h1, rfl⟩
      have := (eats_scheme s ⟨a.reverse ++ s.pre, r, s.caps⟩).2 ⟨a, r, ha, h2, rfl⟩
      obtain ⟨u, hu, hv⟩ := mem_seq.1 this
      refine mem_seq.2 ⟨u, hu, mem_seq.2 ⟨_, hv, mem_nahead.2 ⟨?_, rfl⟩⟩⟩
      rintro ⟨x, hx⟩
      obtain ⟨r', h3, -⟩ := mem_chr.1 hx
      simp only at h3
      rw [h3] at h1; simp at h1
  constructor
  · rintro ⟨t, ht, h0⟩
    rw [mem_seq] at ht
    obtain ⟨u, hu, ht⟩ := ht
    obtain ⟨w, r', ⟨b, v, rfl, hb, c, d, hc, hd, rfl⟩, h1, rfl⟩ := ((eats_host env).seq (eats_urlTail env) _ _).1 ht
    simp only at h0; subst h0
    rw [List.append_nil] at h1
    rw [mem_opt, sch] at hu
    rcases hu with ⟨a, r, ha, h2, h3, rfl⟩ | rfl
    · simp only at h1 h2
      refine ⟨a, b, c, d, Or.inr ⟨ha, ?_⟩, hb, hc, hd, by rw [h2, h1]⟩
      rw [h1] at h3
      cases b with
      | nil => exact absurd rfl (host_ne hb)
      | cons x b => simpa using h3
    · exact ⟨[], b, c, d, Or.inl rfl, hb, hc, hd, by rw [List.nil_append]; exact h1⟩
  · rintro ⟨a, b, c, d, ha, hb, hc, hd, rfl⟩
    have h2 := fun pre => ((eats_host env).seq (eats_urlTail env) ⟨pre, b ++ (c ++ d), []⟩
      ⟨(b ++ (c ++ d)).reverse ++ pre, [], []⟩).2
      ⟨b ++ (c ++ d), [], ⟨b, c ++ d, rfl, hb, c, d, hc, hd, rfl⟩, by simp, rfl⟩
    refine ⟨⟨(b ++ (c ++ d)).reverse ++ (a.reverse ++ []), [], []⟩, mem_seq.2
      ⟨⟨a.reverse ++ [], b ++ (c ++ d), []⟩, mem_opt.2 ?_, h2 _⟩, rfl⟩
    rcases ha with rfl | ⟨ha, h3⟩
    · right; rfl
    · left
      rw [sch]
      refine ⟨a, b ++ (c ++ d), ha, rfl, ?_, rfl⟩
      cases b with
      | nil => exact absurd rfl (host_ne hb)
      | cons x b => simpa using h3

end Clever
