import Verif.Model.Regexes

/-!
# Facts about the matcher
-/

namespace Clever

theorem mem_eps {s t : MState} : t ∈ Re.eps.run s ↔ t = s := by simp [Re.run]

theorem mem_cls {p : Char → Bool} {s t : MState} :
    t ∈ (Re.cls p).run s ↔
      ∃ c r, s.rest = c :: r ∧ p c = true ∧ t = ⟨c :: s.pre, r, s.caps⟩ := by
  simp only [Re.run]
  cases h : s.rest with
  | nil => simp
  | cons c r =>
    simp only [List.cons.injEq]
    constructor
    · intro ht
      by_cases hp : p c = true
      · simp only [hp, if_true, List.mem_singleton] at ht
        exact ⟨c, r, ⟨rfl, rfl⟩, hp, ht⟩
      · simp [hp] at ht
    · rintro ⟨x, y, ⟨rfl, rfl⟩, hp, rfl⟩
      simp [hp]

theorem mem_chr {c : Char} {s t : MState} :
    t ∈ (Re.chr c).run s ↔ ∃ r, s.rest = c :: r ∧ t = ⟨c :: s.pre, r, s.caps⟩ := by
  unfold Re.chr
  rw [mem_cls]
  constructor
  · rintro ⟨x, r, h1, h2, h3⟩
    simp only [decide_eq_true_eq] at h2
    subst h2
    exact ⟨r, h1, h3⟩
  · rintro ⟨r, h1, h2⟩
    exact ⟨c, r, h1, by simp, h2⟩

theorem mem_seq {a b : Re} {s t : MState} :
    t ∈ (Re.seq a b).run s ↔ ∃ u, u ∈ a.run s ∧ t ∈ b.run u := by
  simp [Re.run, List.mem_flatMap]

theorem mem_alt {a b : Re} {s t : MState} :
    t ∈ (Re.alt a b).run s ↔ t ∈ a.run s ∨ t ∈ b.run s := by
  simp [Re.run]

theorem mem_opt {a : Re} {s t : MState} : t ∈ a.opt.run s ↔ t ∈ a.run s ∨ t = s := by
  simp [Re.opt, mem_alt, mem_eps]

theorem mem_grp {k : Nat} {a : Re} {s t : MState} :
    t ∈ (Re.grp k a).run s ↔
      ∃ u, u ∈ a.run s ∧ t = { u with caps := (k, s.between u) :: u.caps } := by
  simp [Re.run, List.mem_map, eq_comm]

theorem mem_ahead {a : Re} {s t : MState} :
    t ∈ (Re.ahead a).run s ↔ (∃ u, u ∈ a.run s) ∧ t = s := by
  simp only [Re.run]
  cases h : a.run s <;> simp

theorem mem_behind {p : Char → Bool} {s t : MState} :
    t ∈ (Re.behind p).run s ↔ (∃ c r, s.pre = c :: r ∧ p c = true) ∧ t = s := by
  simp only [Re.run]
  cases h : s.pre with
  | nil => simp
  | cons c r =>
    cases hp : p c <;> simp [hp]

theorem mem_bol {s t : MState} : t ∈ Re.bol.run s ↔ s.pre = [] ∧ t = s := by
  simp only [Re.run]
  by_cases h : s.pre = [] <;> simp [h]

theorem mem_eol {s t : MState} :
    t ∈ Re.eol.run s ↔ (s.rest = [] ∨ s.rest = ['\n']) ∧ t = s := by
  simp only [Re.run]
  by_cases h : s.rest = [] ∨ s.rest = ['\n'] <;> simp [h]

/-- `fullmatch` succeeds if there is a way to match up to the end. -/
theorem fullmatch_isSome {r : Re} {s : Str} :
    (r.fullmatch s).isSome = true ↔ ∃ t, t ∈ r.run ⟨[], s, []⟩ ∧ t.rest = [] := by
  simp [Re.fullmatch, List.find?_isSome]

theorem cat_cons {a b : Re} {l : List Re} : Re.cat (a :: b :: l) = .seq a (Re.cat (b :: l)) := rfl
theorem cat_one {a : Re} : Re.cat [a] = a := rfl
theorem any_cons {a b : Re} {l : List Re} : Re.any (a :: b :: l) = .alt a (Re.any (b :: l)) := rfl
theorem any_one {a : Re} : Re.any [a] = a := rfl

/-- Matching only moves forward: what is consumed is moved to the part before the position. -/
theorem starRun_mem_split {f : MState → List MState}
    (hf : ∀ s t, t ∈ f s → ∃ w, s.rest = w ++ t.rest ∧ t.pre = w.reverse ++ s.pre) :
    ∀ n s t, t ∈ starRun f n s → ∃ w, s.rest = w ++ t.rest ∧ t.pre = w.reverse ++ s.pre := by
  intro n
  induction n with
  | zero => intro s t h; simp [starRun] at h; subst h; exact ⟨[], by simp, by simp⟩
  | succ n ih =>
    intro s t h
    simp only [starRun, List.mem_append, List.mem_flatMap, List.mem_filter, List.mem_singleton] at h
    rcases h with ⟨u, ⟨hu, -⟩, ht⟩ | rfl
    · obtain ⟨w1, h1, h2⟩ := hf s u hu
      obtain ⟨w2, h3, h4⟩ := ih u t ht
      exact ⟨w1 ++ w2, by rw [h1, h3]; simp, by rw [h4, h2]; simp⟩
    · exact ⟨[], by simp, by simp⟩

theorem eat_split : ∀ (w : Str) (s t : MState), MState.eat w s = some t →
    s.rest = w ++ t.rest ∧ t.pre = w.reverse ++ s.pre ∧ t.caps = s.caps := by
  intro w
  induction w with
  | nil => intro s t h; simp [MState.eat] at h; subst h; simp
  | cons c w ih =>
    intro s t h
    simp only [MState.eat] at h
    cases hr : s.rest with
    | nil => simp [hr] at h
    | cons x r =>
      simp only [hr] at h
      split at h
      · rename_i hx
        subst hx
        obtain ⟨h1, h2, h3⟩ := ih _ _ h
        simp only at h1 h2 h3
        exact ⟨by simp [h1], by simp [h2], h3⟩
      · simp at h

theorem run_mem_split : ∀ (r : Re) (s t : MState), t ∈ r.run s →
    ∃ w, s.rest = w ++ t.rest ∧ t.pre = w.reverse ++ s.pre := by
  intro r
  induction r with
  | eps => intro s t h; rw [mem_eps] at h; subst h; exact ⟨[], by simp, by simp⟩
  | cls p =>
    intro s t h
    obtain ⟨c, r, h1, -, rfl⟩ := mem_cls.1 h
    exact ⟨[c], by simp [h1], by simp⟩
  | seq a b iha ihb =>
    intro s t h
    obtain ⟨u, hu, ht⟩ := mem_seq.1 h
    obtain ⟨w1, h1, h2⟩ := iha s u hu
    obtain ⟨w2, h3, h4⟩ := ihb u t ht
    exact ⟨w1 ++ w2, by rw [h1, h3]; simp, by rw [h4, h2]; simp⟩
  | alt a b iha ihb =>
    intro s t h
    rcases mem_alt.1 h with h | h
    · exact iha s t h
    · exact ihb s t h
  | star a iha => intro s t h; exact starRun_mem_split iha _ s t h
  | grp k a iha =>
    intro s t h
    obtain ⟨u, hu, rfl⟩ := mem_grp.1 h
    exact iha s u hu
  | bref k =>
    intro s t h
    simp only [Re.run] at h
    split at h
    · simp at h
    · simp only [Option.mem_toList] at h
      obtain ⟨h1, h2, -⟩ := eat_split _ _ _ h
      exact ⟨_, h1, h2⟩
  | ahead a => intro s t h; obtain ⟨-, rfl⟩ := mem_ahead.1 h; exact ⟨[], by simp, by simp⟩
  | nahead a =>
    intro s t h
    simp only [Re.run] at h
    split at h <;> simp at h
    subst h; exact ⟨[], by simp, by simp⟩
  | behind p => intro s t h; obtain ⟨-, rfl⟩ := mem_behind.1 h; exact ⟨[], by simp, by simp⟩
  | cond k a b iha ihb =>
    intro s t h
    simp only [Re.run] at h
    split at h
    · exact iha s t h
    · exact ihb s t h
  | bol => intro s t h; obtain ⟨-, rfl⟩ := mem_bol.1 h; exact ⟨[], by simp, by simp⟩
  | eol => intro s t h; obtain ⟨-, rfl⟩ := mem_eol.1 h; exact ⟨[], by simp, by simp⟩

/-- Repetition of a character class: any number of characters of the class. -/
theorem mem_star_cls {p : Char → Bool} {s t : MState} :
    t ∈ (Re.star (.cls p)).run s ↔
      ∃ w r, s.rest = w ++ r ∧ (∀ c ∈ w, p c = true) ∧ t = ⟨w.reverse ++ s.pre, r, s.caps⟩ := by
  have key : ∀ n s, s.rest.length ≤ n → ∀ t, t ∈ starRun (Re.cls p).run n s ↔
      ∃ w r, s.rest = w ++ r ∧ (∀ c ∈ w, p c = true) ∧
        t = ⟨w.reverse ++ s.pre, r, s.caps⟩ := by
    intro n
    induction n with
    | zero =>
      intro s hs t
      have hs0 : s.rest = [] := List.length_eq_zero_iff.1 (by omega)
      simp only [starRun, List.mem_singleton]
      constructor
      · rintro rfl; exact ⟨[], t.rest, by simp, by simp, by simp⟩
      · rintro ⟨w, r, h1, -, rfl⟩
        rw [hs0] at h1
        obtain ⟨rfl, rfl⟩ : w = [] ∧ r = [] := by simpa [eq_comm] using h1
        cases s; simp_all
    | succ n ih =>
      intro s hs t
      simp only [starRun, List.mem_append, List.mem_flatMap, List.mem_filter, List.mem_singleton,
        decide_eq_true_eq]
      constructor
      · rintro (⟨u, ⟨hu, hlt⟩, ht⟩ | rfl)
        · obtain ⟨c, r, h1, h2, rfl⟩ := mem_cls.1 hu
          rw [h1] at hs
          obtain ⟨w, r', h3, h4, rfl⟩ := (ih _ (by simp at hs ⊢; omega) t).1 ht
          simp only at h3
          refine ⟨c :: w, r', by rw [h1, h3]; simp, ?_, by simp⟩
          intro x hx
          rcases List.mem_cons.1 hx with rfl | hx
          · exact h2
          · exact h4 x hx
        · exact ⟨[], t.rest, by simp, by simp, by simp⟩
      · rintro ⟨w, r, h1, h2, rfl⟩
        cases w with
        | nil => right; cases s; simp_all
        | cons c w =>
          left
          refine ⟨⟨c :: s.pre, w ++ r, s.caps⟩, ⟨?_, by simp [h1]⟩, ?_⟩
          · exact mem_cls.2 ⟨c, w ++ r, by rw [h1]; simp, h2 c (by simp), rfl⟩
          · refine (ih _ ?_ _).2 ⟨w, r, rfl, fun x hx => h2 x (by simp [hx]), by simp⟩
            rw [h1] at hs; simp at hs ⊢; omega
  exact key _ _ (Nat.le_refl _) t

theorem mem_plus_cls {p : Char → Bool} {s t : MState} :
    t ∈ (Re.plus (.cls p)).run s ↔
      ∃ w r, w ≠ [] ∧ s.rest = w ++ r ∧ (∀ c ∈ w, p c = true) ∧
        t = ⟨w.reverse ++ s.pre, r, s.caps⟩ := by
  unfold Re.plus
  rw [mem_seq]
  constructor
  · rintro ⟨u, hu, ht⟩
    obtain ⟨c, r, h1, h2, rfl⟩ := mem_cls.1 hu
    obtain ⟨w, r', h3, h4, rfl⟩ := mem_star_cls.1 ht
    simp only at h3
    refine ⟨c :: w, r', by simp, by rw [h1, h3]; simp, ?_, by simp⟩
    intro x hx
    rcases List.mem_cons.1 hx with rfl | hx
    · exact h2
    · exact h4 x hx
  · rintro ⟨w, r, h0, h1, h2, rfl⟩
    cases w with
    | nil => exact absurd rfl h0
    | cons c w =>
      refine ⟨⟨c :: s.pre, w ++ r, s.caps⟩,
        mem_cls.2 ⟨c, _, by rw [h1]; rfl, h2 c (by simp), rfl⟩, ?_⟩
      exact mem_star_cls.2 ⟨w, r, rfl, fun x hx => h2 x (by simp [hx]), by simp⟩

end Clever
