import Verif.Spec.Cells
import Verif.Proofs.Clock

/-!
# The languages of the number patterns
-/

namespace Clever

open Spec

theorem eats_optSign : Eats (Re.opt (.cls (oneOf ['+', '-']))) IsSign :=
  eats_sign.opt.congr fun w => by unfold IsSign; tauto

theorem eats_exp (env : PyEnv) : Eats (reExp env) (IsExponent env.decimal) := by
  refine ((eats_cls _).seq (eats_optSign.seq (eats_plus_cls env.decimal))).congr fun w => ?_
  simp only [oneOf, List.contains_cons, List.contains_nil, Bool.or_false, Bool.or_eq_true, beq_iff_eq]
  constructor
  · rintro ⟨_, _, rfl, ⟨c, rfl, hc⟩, g, ds, rfl, hg, h1, h2⟩
    exact ⟨c, g, ds, hc, hg, h1, h2, rfl⟩
  · rintro ⟨e, g, ds, he, hg, h1, h2, rfl⟩
    exact ⟨[e], g ++ ds, rfl, ⟨e, rfl, he⟩, g, ds, rfl, hg, h1, h2⟩

theorem eats_whole (env : PyEnv) :
    Eats (.alt (.chr '0') (.seq (.cls (rng '1' '9')) (.star (.cls env.decimal)))) (IsWhole env.decimal) := by
  have e : rng '1' '9' = rng (dg 1) (dg 9) := rfl
  rw [e]
  refine ((eats_chr '0').alt ((eats_cls _).seq (eats_star_cls env.decimal))).congr fun w => ?_
  simp only [rng_dg (show 1 < 10 by omega) (show 9 < 10 by omega)]
  constructor
  · rintro (rfl | ⟨_, ds, rfl, ⟨c, rfl, n, h1, h2, rfl⟩, h3⟩)
    · exact Or.inl rfl
    · exact Or.inr ⟨n, ds, h1, h2, h3, rfl⟩
  · rintro (rfl | ⟨n, ds, h1, h2, h3, rfl⟩)
    · exact Or.inl rfl
    · exact Or.inr ⟨[dg n], ds, rfl, ⟨_, rfl, n, h1, h2, rfl⟩, h3⟩

/-- The character before the position is a digit. -/
def BehindDigit (env : PyEnv) (pre : Str) : Prop := ∃ c r, pre = c :: r ∧ env.decimal c = true

/-- The rest of `PATTERN_NUMBER_1` after the whole part. -/
def reNumTail (env : PyEnv) : Re :=
  .alt
      (.seq
        (Re.opt (.grp 1 (.alt (.seq (.behind env.decimal) (.chr '.'))
          (.seq (.chr '.') (.ahead (.cls env.decimal))))))
        (.cond 1
          (.seq (.star (.cls env.decimal))
            (Re.opt (.seq (.star (.cls env.decimal)) (reExp env))))
          (reNoDot env)))
      (.seq
        (Re.opt (.grp 2 (.chr ',')))
        (.cond 2
          (.seq (Re.plus (.cls env.decimal))
            (Re.opt (.seq (Re.plus (.cls env.decimal)) (reExp env))))
          (reNoDot env)))

theorem mem_cond {k : Nat} {a b : Re} {s t : MState} :
    t ∈ (Re.cond k a b).run s ↔ ((s.group k).isSome = true ∧ t ∈ a.run s) ∨
      ((s.group k).isSome = false ∧ t ∈ b.run s) := by
  simp only [Re.run]
  cases h : (s.group k).isSome <;> simp

theorem exponent_ne {dig : Char → Bool} {s : Str} (h : IsExponent dig s) : s ≠ [] := by
  obtain ⟨e, g, ds, -, -, -, -, rfl⟩ := h; simp

theorem eats_fracDot (env : PyEnv) : Eats (.seq (.star (.cls env.decimal))
      (Re.opt (.seq (.star (.cls env.decimal)) (reExp env))))
    (fun w => ∃ ds e, AllIn env.decimal ds ∧ (e = [] ∨ IsExponent env.decimal e) ∧ w = ds ++ e) := by
  refine ((eats_star_cls env.decimal).seq ((eats_star_cls env.decimal).seq (eats_exp env)).opt).congr fun w => ?_
  constructor
  · rintro ⟨u, v, rfl, h1, ⟨x, y, rfl, h2, h3⟩ | rfl⟩
    · refine ⟨u ++ x, y, ?_, Or.inr h3, by simp⟩
      intro c hc
      rcases List.mem_append.1 hc with hc | hc
      · exact h1 c hc
      · exact h2 c hc
    · exact ⟨u, [], h1, Or.inl rfl, by simp⟩
  · rintro ⟨ds, e, h1, h2 | h2, rfl⟩
    · subst h2; exact ⟨ds, [], by simp, h1, Or.inr rfl⟩
    · exact ⟨ds, e, rfl, h1, Or.inl ⟨[], e, rfl, by simp, h2⟩⟩

theorem eats_fracComma (env : PyEnv) : Eats (.seq (Re.plus (.cls env.decimal))
      (Re.opt (.seq (Re.plus (.cls env.decimal)) (reExp env))))
    (fun w => ∃ ds e, AllIn env.decimal ds ∧ ds ≠ [] ∧ (e = [] ∨ 2 ≤ ds.length ∧ IsExponent env.decimal e) ∧
      w = ds ++ e) := by
  refine ((eats_plus_cls env.decimal).seq ((eats_plus_cls env.decimal).seq (eats_exp env)).opt).congr fun w => ?_
  constructor
  · rintro ⟨u, v, rfl, ⟨h0, h1⟩, ⟨x, y, rfl, ⟨h4, h2⟩, h3⟩ | rfl⟩
    · refine ⟨u ++ x, y, ?_, by simp [h0], Or.inr ⟨?_, h3⟩, by simp⟩
      · intro c hc
        rcases List.mem_append.1 hc with hc | hc
        · exact h1 c hc
        · exact h2 c hc
      · have a1 := List.length_pos_iff.2 h0
        have a2 := List.length_pos_iff.2 h4
        simp; omega
    · exact ⟨u, [], h1, h0, Or.inl rfl, by simp⟩
  · rintro ⟨ds, e, h1, h0, h2 | ⟨h2, h3⟩, rfl⟩
    · subst h2; exact ⟨ds, [], by simp, ⟨h0, h1⟩, Or.inr rfl⟩
    · match ds, h2 with
      | a :: b :: ds, _ =>
        refine ⟨[a], b :: (ds ++ e), by simp, ⟨by simp, ?_⟩, Or.inl ⟨b :: ds, e, by simp, ⟨by simp, ?_⟩, h3⟩⟩
        · intro c hc; exact h1 c (by simp_all)
        · intro c hc; exact h1 c (List.mem_cons_of_mem _ hc)

/-- The tail of a number, from a position without captured groups to the end. -/
theorem numTail_iff {env : PyEnv} (h : env.Ascii) (pre r : Str) :
    (∃ t, t ∈ (Re.seq (reNumTail env) .eol).run ⟨pre, r, []⟩ ∧ t.rest = []) ↔
      IsNumTail env.decimal (BehindDigit env pre) r := by
  have hdot : env.decimal '.' = false := by rw [h.decimal _ (by decide)]; decide
  have noDot : ∀ t, t ∈ (reNoDot env).run ⟨pre, r, []⟩ ∧ t.rest = [] →
      r = [] ∨ BehindDigit env pre ∧ IsExponent env.decimal r := by
    rintro t ⟨ht, h0⟩
    unfold reNoDot at ht
    rw [mem_opt, mem_seq] at ht
    rcases ht with ⟨u, hu, ht⟩ | rfl
    · rw [mem_behind] at hu
      obtain ⟨⟨c, x, h1, h2⟩, rfl⟩ := hu
      obtain ⟨w, r', h3, h4, rfl⟩ := (eats_exp env _ _).1 ht
      simp only at h0 h4; subst h0
      rw [List.append_nil] at h4
      subst h4
      exact Or.inr ⟨⟨c, x, h1, h2⟩, h3⟩
    · exact Or.inl h0
  constructor
  · rintro ⟨t, ht, h0⟩
    rw [mem_seq] at ht
    obtain ⟨u, hu, ht⟩ := ht
    obtain ⟨-, rfl⟩ := mem_eol.1 ht
    unfold reNumTail at hu
    rw [mem_alt, mem_seq, mem_seq] at hu
    rcases hu with ⟨v, hv, hu⟩ | ⟨v, hv, hu⟩
    · rw [mem_opt] at hv
      rcases hv with hv | rfl
      · obtain ⟨x, hx, rfl⟩ := mem_grp.1 hv
        rw [mem_cond] at hu
        rcases hu with ⟨-, hu⟩ | ⟨hg, -⟩
        swap
        · simp [MState.group] at hg
        obtain ⟨w, r', ⟨ds, e, h1, h2, rfl⟩, h4, rfl⟩ := (eats_fracDot env _ _).1 hu
        simp only at h0 h4; subst h0
        rw [List.append_nil] at h4
        right; right; left
        rw [mem_alt, mem_seq, mem_seq] at hx
        rcases hx with ⟨y, hy, hx⟩ | ⟨y, hy, hx⟩
        · obtain ⟨hb, rfl⟩ := mem_behind.1 hy
          obtain ⟨z, h5, rfl⟩ := mem_chr.1 hx
          simp only at h4 h5
          exact ⟨ds, e, h1, Or.inl hb, h2, by rw [h5, h4]⟩
        · obtain ⟨z, h5, rfl⟩ := mem_chr.1 hy
          obtain ⟨⟨a, ha⟩, rfl⟩ := mem_ahead.1 hx
          obtain ⟨c, r2, h6, h7, rfl⟩ := mem_cls.1 ha
          simp only at h4 h5 h6
          refine ⟨ds, e, h1, Or.inr ?_, h2, by rw [h5, h4]⟩
          rintro rfl
          rw [List.nil_append] at h4
          rw [h4] at h6
          rcases h2 with rfl | ⟨e', g, ds', he, -, -, -, rfl⟩
          · cases h6
          · injection h6 with h6
            subst h6
            rcases he with rfl | rfl
            · rw [h.decimal _ (by decide)] at h7; exact absurd h7 (by decide)
            · rw [h.decimal _ (by decide)] at h7; exact absurd h7 (by decide)
      · rw [mem_cond] at hu
        rcases hu with ⟨hg, -⟩ | ⟨-, hu⟩
        · simp [MState.group] at hg
        · rcases noDot _ ⟨hu, h0⟩ with h | h
          · exact Or.inl h
          · exact Or.inr (Or.inl h)
    · rw [mem_opt] at hv
      rcases hv with hv | rfl
      · obtain ⟨x, hx, rfl⟩ := mem_grp.1 hv
        rw [mem_cond] at hu
        rcases hu with ⟨-, hu⟩ | ⟨hg, -⟩
        swap
        · simp [MState.group] at hg
        obtain ⟨w, r', ⟨ds, e, h1, h3, h2, rfl⟩, h4, rfl⟩ := (eats_fracComma env _ _).1 hu
        simp only at h0 h4; subst h0
        rw [List.append_nil] at h4
        right; right; right
        obtain ⟨z, h5, rfl⟩ := mem_chr.1 hx
        simp only at h4 h5
        exact ⟨ds, e, h1, h3, h2, by rw [h5, h4]⟩
      · rw [mem_cond] at hu
        rcases hu with ⟨hg, -⟩ | ⟨-, hu⟩
        · simp [MState.group] at hg
        · rcases noDot _ ⟨hu, h0⟩ with h | h
          · exact Or.inl h
          · exact Or.inr (Or.inl h)
  · intro ht
    have fin : ∀ t, t ∈ (reNumTail env).run ⟨pre, r, []⟩ → t.rest = [] →
        ∃ t, t ∈ (Re.seq (reNumTail env) .eol).run ⟨pre, r, []⟩ ∧ t.rest = [] := by
      intro t h1 h2
      exact ⟨t, mem_seq.2 ⟨t, h1, mem_eol.2 ⟨Or.inl h2, rfl⟩⟩, h2⟩
    have fin0 : ∀ t, t ∈ (reNoDot env).run ⟨pre, r, []⟩ → t.rest = [] →
        ∃ t, t ∈ (Re.seq (reNumTail env) .eol).run ⟨pre, r, []⟩ ∧ t.rest = [] := by
      intro t h1 h2
      refine fin t ?_ h2
      unfold reNumTail
      rw [mem_alt, mem_seq]
      left
      refine ⟨_, mem_opt.2 (Or.inr rfl), mem_cond.2 (Or.inr ⟨rfl, h1⟩)⟩
    rcases ht with rfl | ⟨hb, he⟩ | ⟨ds, e, h1, h2, h3, rfl⟩ | ⟨ds, e, h1, h2, h3, rfl⟩
    · exact fin0 _ (by unfold reNoDot; exact mem_opt.2 (Or.inr rfl)) rfl
    · refine fin0 ⟨r.reverse ++ pre, [], []⟩ ?_ rfl
      unfold reNoDot
      rw [mem_opt, mem_seq]
      exact Or.inl ⟨_, mem_behind.2 ⟨hb, rfl⟩, (eats_exp env _ _).2 ⟨r, [], he, by simp, rfl⟩⟩
    · have key : (⟨'.' :: pre, ds ++ e, []⟩ : MState) ∈
          (Re.alt (.seq (.behind env.decimal) (.chr '.')) (.seq (.chr '.') (.ahead (.cls env.decimal)))).run
            ⟨pre, '.' :: (ds ++ e), []⟩ := by
        rw [mem_alt, mem_seq, mem_seq]
        rcases h2 with hb | hn
        · exact Or.inl ⟨_, mem_behind.2 ⟨hb, rfl⟩, mem_chr.2 ⟨_, rfl, rfl⟩⟩
        · refine Or.inr ⟨_, mem_chr.2 ⟨_, rfl, rfl⟩, mem_ahead.2 ⟨?_, rfl⟩⟩
          cases ds with
          | nil => exact absurd rfl hn
          | cons c ds => exact ⟨_, mem_cls.2 ⟨c, ds ++ e, rfl, h1 c (by simp), rfl⟩⟩
      refine fin ⟨(ds ++ e).reverse ++ '.' :: pre, [], [(1, ['.'])]⟩ ?_ rfl
      unfold reNumTail
      rw [mem_alt, mem_seq]
      left
      refine ⟨⟨'.' :: pre, ds ++ e, [(1, ['.'])]⟩, mem_opt.2 (Or.inl (mem_grp.2 ⟨_, key, ?_⟩)), ?_⟩
      · simp [MState.between]
      · exact mem_cond.2 (Or.inl ⟨rfl, (eats_fracDot env _ _).2 ⟨ds ++ e, [], ⟨ds, e, h1, h3, rfl⟩, by simp, rfl⟩⟩)
    · refine fin ⟨(ds ++ e).reverse ++ ',' :: pre, [], [(2, [','])]⟩ ?_ rfl
      unfold reNumTail
      rw [mem_alt, mem_seq, mem_seq]
      right
      refine ⟨⟨',' :: pre, ds ++ e, [(2, [','])]⟩,
        mem_opt.2 (Or.inl (mem_grp.2 ⟨_, mem_chr.2 ⟨_, rfl, rfl⟩, ?_⟩)), ?_⟩
      · simp [MState.between]
      · exact mem_cond.2 (Or.inl ⟨rfl, (eats_fracComma env _ _).2 ⟨ds ++ e, [], ⟨ds, e, h1, h2, h3, rfl⟩, by simp, rfl⟩⟩)

theorem whole_last {env : PyEnv} (h : env.Ascii) {n : Str} (hn : IsWhole env.decimal n) (pre : Str) :
    BehindDigit env (n.reverse ++ pre) := by
  rcases hn with rfl | ⟨k, ds, h1, h2, h3, rfl⟩
  · exact ⟨'0', pre, rfl, by rw [h.decimal _ (by decide)]; decide⟩
  · rcases List.eq_nil_or_concat ds with rfl | ⟨l, x, rfl⟩
    · exact ⟨dg k, pre, rfl, decimal_dg h (by omega)⟩
    · exact ⟨x, (dg k :: l).reverse ++ pre, by simp, h3 x (by simp)⟩

theorem behind_sign {env : PyEnv} (h : env.Ascii) {g : Str} (hg : IsSign g) : ¬ BehindDigit env g.reverse := by
  rintro ⟨c, r, h1, h2⟩
  rcases hg with rfl | rfl | rfl
  · cases h1
  · injection h1 with h1; subst h1; rw [h.decimal _ (by decide)] at h2; exact absurd h2 (by decide)
  · injection h1 with h1; subst h1; rw [h.decimal _ (by decide)] at h2; exact absurd h2 (by decide)

/-- `PATTERN_NUMBER_1` matches exactly the decimal numbers. -/
theorem number1_iff {env : PyEnv} (h : env.Ascii) (s : Str) :
    ((reNumber1 env).fullmatch s).isSome = true ↔ IsDecimalNumber env.decimal s := by
  have e : reNumber1 env = .seq .bol (.seq (.ahead (.cls (fun c => rng '+' '.' c || env.decimal c)))
      (.seq (Re.opt (.cls (oneOf ['+', '-'])))
        (.seq (Re.opt (.alt (.chr '0') (.seq (.cls (rng '1' '9')) (.star (.cls env.decimal)))))
          (.seq (reNumTail env) .eol)))) := rfl
  rw [e, fullmatch_isSome]
  constructor
  · rintro ⟨t, ht, h0⟩
    rw [mem_seq] at ht
    obtain ⟨u1, hu1, ht⟩ := ht
    obtain ⟨-, rfl⟩ := mem_bol.1 hu1
    rw [mem_seq] at ht
    obtain ⟨u2, hu2, ht⟩ := ht
    obtain ⟨⟨x, hx⟩, rfl⟩ := mem_ahead.1 hu2
    obtain ⟨c, r, h1, -, -⟩ := mem_cls.1 hx
    rw [mem_seq] at ht
    obtain ⟨u3, hu3, ht⟩ := ht
    obtain ⟨g, r1, hg, h2, rfl⟩ := (eats_optSign _ _).1 hu3
    rw [mem_seq] at ht
    obtain ⟨u4, hu4, ht⟩ := ht
    obtain ⟨n, r2, hn, h3, rfl⟩ := ((eats_whole env).opt _ _).1 hu4
    simp only at h1 h2 h3
    have := (numTail_iff h _ _).1 ⟨t, ht, h0⟩
    refine ⟨by rw [h1]; simp, g, n, r2, hg, hn.symm, ?_, by rw [h2, h3]⟩
    rcases hn with hn | rfl
    · have hne : n ≠ [] := by
        rcases hn with rfl | ⟨k, ds, _, _, _, rfl⟩ <;> simp
      have hb := whole_last h hn (g.reverse ++ [])
      simp only [hb, hne, ne_eq, not_false_eq_true] at this ⊢
      exact this
    · have hb : ¬ BehindDigit env (([] : Str).reverse ++ (g.reverse ++ [])) := by simpa using behind_sign h hg
      simp only [hb] at this
      simpa using this
  · rintro ⟨hne, g, n, t, hg, hn, ht, rfl⟩
    have hfirst : ∃ c r, g ++ (n ++ t) = c :: r ∧ (rng '+' '.' c || env.decimal c) = true := by
      rcases hg with rfl | rfl | rfl
      · rcases hn with rfl | hn
        · rcases ht with rfl | ⟨h1, -⟩ | ⟨ds, e, -, -, -, rfl⟩ | ⟨ds, e, -, -, -, rfl⟩
          · exact absurd rfl hne
          · exact absurd rfl h1
          · exact ⟨'.', ds ++ e, rfl, by simp [show rng '+' '.' '.' = true by decide]⟩
          · exact ⟨',', ds ++ e, rfl, by simp [show rng '+' '.' ',' = true by decide]⟩
        · rcases hn with rfl | ⟨k, ds, h1, h2, h3, rfl⟩
          · exact ⟨'0', t, rfl, by rw [h.decimal _ (by decide)]; decide⟩
          · exact ⟨dg k, ds ++ t, rfl, by rw [decimal_dg h (by omega)]; simp⟩
      · exact ⟨'+', n ++ t, rfl, by simp [show rng '+' '.' '+' = true by decide]⟩
      · exact ⟨'-', n ++ t, rfl, by simp [show rng '+' '.' '-' = true by decide]⟩
    obtain ⟨c, r, h1, h2⟩ := hfirst
    have htail : IsNumTail env.decimal (BehindDigit env (n.reverse ++ (g.reverse ++ []))) t := by
      rcases hn with rfl | hn
      · have hb : ¬ BehindDigit env (([] : Str).reverse ++ (g.reverse ++ [])) := by simpa using behind_sign h hg
        simp only [hb]
        simpa using ht
      · have hne : n ≠ [] := by
          rcases hn with rfl | ⟨k, ds, _, _, _, rfl⟩ <;> simp
        have hb := whole_last h hn (g.reverse ++ [])
        simp only [hb, hne, ne_eq, not_false_eq_true] at ht ⊢
        exact ht
    obtain ⟨x, hx, h0⟩ := (numTail_iff h _ _).2 htail
    refine ⟨x, mem_seq.2 ⟨_, mem_bol.2 ⟨rfl, rfl⟩, mem_seq.2 ⟨_, mem_ahead.2 ⟨⟨_, mem_cls.2 ⟨c, r, h1, h2, rfl⟩⟩, rfl⟩,
      mem_seq.2 ⟨_, (eats_optSign _ _).2 ⟨g, n ++ t, hg, rfl, rfl⟩, mem_seq.2
        ⟨_, ((eats_whole env).opt _ _).2 ⟨n, t, hn.symm, rfl, rfl⟩, hx⟩⟩⟩⟩, h0⟩

/-- `PATTERN_NUMBER_2` and `PATTERN_NUMBER_3` match exactly the numbers with separated thousands. -/
theorem eats_thousands (env : PyEnv) (sep radix : Char) :
    Eats (reThousands env sep radix) (IsGrouped env.decimal sep radix) := by
  have e : reThousands env sep radix = .seq (Re.opt (.cls (oneOf ['+', '-'])))
      (.seq (.alt (.cls (rng (dg 1) (dg 9))) (.seq (.cls (rng (dg 1) (dg 9))) ((Re.cls env.decimal).upto 2)))
        (.seq (Re.plus (.seq (.chr sep) ((Re.cls env.decimal).times 3)))
          (.seq (.chr radix) (.star (.cls env.decimal))))) := rfl
  rw [e]
  refine (eats_optSign.seq (((eats_cls _).alt ((eats_cls _).seq (eats_upto_cls env.decimal 2))).seq
    (((eats_chr sep).seq (eats_times_cls env.decimal 3)).plus.seq
      ((eats_chr radix).seq (eats_star_cls env.decimal))))).congr fun w => ?_
  simp only [rng_dg (show 1 < 10 by omega) (show 9 < 10 by omega)]
  constructor
  · rintro ⟨g, _, rfl, hg, u, _, rfl, hu, _, _, rfl, ⟨gs, h1, rfl, h2⟩, _, ds, rfl, rfl, h3⟩
    have h2' : ∀ x ∈ gs, IsGroup env.decimal sep x := by
      intro x hx
      obtain ⟨_, y, rfl, rfl, h4, h5⟩ := h2 x hx
      exact ⟨y, h4, h5, rfl⟩
    rcases hu with ⟨c, rfl, n, h4, h5, rfl⟩ | ⟨_, v, rfl, ⟨c, rfl, n, h4, h5, rfl⟩, h6, h7⟩
    · exact ⟨g, _, ds, hg, ⟨n, [], gs, h4, h5, by simp, (by intro c hc; cases hc), h1, h2', rfl⟩, h3, by simp⟩
    · exact ⟨g, _, ds, hg, ⟨n, v, gs, h4, h5, h6, h7, h1, h2', rfl⟩, h3, by simp⟩
  · rintro ⟨g, _, ds, hg, ⟨n, v, gs, h4, h5, h6, h7, h1, h2, rfl⟩, h3, rfl⟩
    refine ⟨g, _, rfl, hg, dg n :: v, gs.flatten ++ radix :: ds, by simp,
      Or.inr ⟨[dg n], v, rfl, ⟨_, rfl, n, h4, h5, rfl⟩, h6, h7⟩, gs.flatten, radix :: ds, rfl, ⟨gs, h1, rfl, ?_⟩,
      [radix], ds, rfl, rfl, h3⟩
    intro x hx
    obtain ⟨y, h8, h9, rfl⟩ := h2 x hx
    exact ⟨[sep], y, rfl, rfl, h8, h9⟩

/-- The number test accepts exactly the number texts. -/
theorem isNumber_iff {env : PyEnv} (h : env.Ascii) (sw : Bool) (cell : Str) :
    isNumber env sw cell = true ↔ IsNumberText env.decimal (maybeStrip env sw cell) := by
  unfold isNumber runRegex
  have e2 : reNumber2 env = reThousands env ',' '.' := rfl
  have e3 : reNumber3 env = reThousands env '.' ',' := rfl
  rw [e2, e3]
  by_cases hc : cell = []
  · subst hc
    rw [if_pos rfl]
    have : maybeStrip env sw [] = [] := by cases sw <;> rfl
    rw [this]
    constructor
    · intro h; cases h
    · rintro (⟨h, -⟩ | ⟨g, n, ds, -, -, -, h⟩ | ⟨g, n, ds, -, -, -, h⟩)
      · exact absurd rfl h
      · simp at h
      · simp at h
  · rw [if_neg hc]
    simp only [Bool.or_eq_true, number1_iff h, (eats_thousands env _ _).fullmatch, or_assoc]
    rfl

end Clever
