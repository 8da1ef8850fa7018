import Verif.Proofs.Regex
import Verif.Proofs.Json

/-!
# Languages of expressions without groups and assertions
-/

namespace Clever

/-- The expression matches exactly the words of `L`, in any context. -/
def Eats (r : Re) (L : Str → Prop) : Prop :=
  ∀ s t, t ∈ r.run s ↔
    ∃ w r', L w ∧ s.rest = w ++ r' ∧ t = ⟨w.reverse ++ s.pre, r', s.caps⟩

theorem Eats.fullmatch {r : Re} {L : Str → Prop} (h : Eats r L) (s : Str) :
    (r.fullmatch s).isSome = true ↔ L s := by
  rw [fullmatch_isSome]
  constructor
  · rintro ⟨t, ht, he⟩
    obtain ⟨w, r', h1, h2, rfl⟩ := (h _ _).1 ht
    simp only at h2 he
    subst he
    simpa [h2] using h1
  · intro hs
    exact ⟨_, (h _ _).2 ⟨s, [], hs, by simp, rfl⟩, rfl⟩

theorem Eats.congr {r : Re} {L M : Str → Prop} (h : Eats r L) (hLM : ∀ w, L w ↔ M w) : Eats r M := by
  have : L = M := funext fun w => propext (hLM w)
  exact this ▸ h

theorem eats_eps : Eats .eps (fun w => w = []) := by
  intro s t
  rw [mem_eps]
  constructor
  · rintro rfl; exact ⟨[], t.rest, rfl, by simp, by simp⟩
  · rintro ⟨w, r', rfl, h, rfl⟩; simp at h; cases s; simp_all

theorem eats_cls (p : Char → Bool) : Eats (.cls p) (fun w => ∃ c, w = [c] ∧ p c = true) := by
  intro s t
  rw [mem_cls]
  constructor
  · rintro ⟨c, r, h1, h2, rfl⟩; exact ⟨[c], r, ⟨c, rfl, h2⟩, by simp [h1], by simp⟩
  · rintro ⟨w, r, ⟨c, rfl, h2⟩, h1, rfl⟩; exact ⟨c, r, by simp [h1], h2, by simp⟩

theorem eats_chr (c : Char) : Eats (.chr c) (fun w => w = [c]) :=
  (eats_cls _).congr fun w => by simp

theorem Eats.seq {a b : Re} {A B : Str → Prop} (ha : Eats a A) (hb : Eats b B) :
    Eats (.seq a b) (fun w => ∃ u v, w = u ++ v ∧ A u ∧ B v) := by
  intro s t
  rw [mem_seq]
  constructor
  · rintro ⟨m, hm, ht⟩
    obtain ⟨u, r1, h1, h2, rfl⟩ := (ha _ _).1 hm
    obtain ⟨v, r2, h3, h4, rfl⟩ := (hb _ _).1 ht
    simp only at h4
    exact ⟨u ++ v, r2, ⟨u, v, rfl, h1, h3⟩, by rw [h2, h4]; simp, by simp⟩
  · rintro ⟨w, r2, ⟨u, v, rfl, h1, h3⟩, h2, rfl⟩
    refine ⟨⟨u.reverse ++ s.pre, v ++ r2, s.caps⟩, (ha _ _).2 ⟨u, v ++ r2, h1, by simp [h2], rfl⟩,
      (hb _ _).2 ⟨v, r2, h3, rfl, by simp⟩⟩

theorem Eats.alt {a b : Re} {A B : Str → Prop} (ha : Eats a A) (hb : Eats b B) :
    Eats (.alt a b) (fun w => A w ∨ B w) := by
  intro s t
  rw [mem_alt, ha, hb]
  constructor
  · rintro (⟨w, r, h1, h2, h3⟩ | ⟨w, r, h1, h2, h3⟩)
    · exact ⟨w, r, Or.inl h1, h2, h3⟩
    · exact ⟨w, r, Or.inr h1, h2, h3⟩
  · rintro ⟨w, r, h1 | h1, h2, h3⟩
    · exact Or.inl ⟨w, r, h1, h2, h3⟩
    · exact Or.inr ⟨w, r, h1, h2, h3⟩

theorem Eats.opt {a : Re} {A : Str → Prop} (ha : Eats a A) : Eats a.opt (fun w => A w ∨ w = []) :=
  ha.alt eats_eps

/-- Words that are concatenations of words of `A`. -/
def StarLang (A : Str → Prop) (w : Str) : Prop := ∃ ws : List Str, w = ws.flatten ∧ ∀ x ∈ ws, A x

theorem Eats.star {a : Re} {A : Str → Prop} (ha : Eats a A) : Eats (.star a) (StarLang A) := by
  have key : ∀ n s, s.rest.length ≤ n → ∀ t, t ∈ starRun a.run n s ↔
      ∃ w r', StarLang A w ∧ s.rest = w ++ r' ∧ t = ⟨w.reverse ++ s.pre, r', s.caps⟩ := by
    intro n
    induction n with
    | zero =>
      intro s hs t
      have hs0 : s.rest = [] := List.length_eq_zero_iff.1 (by omega)
      simp only [starRun, List.mem_singleton]
      constructor
      · rintro rfl; exact ⟨[], t.rest, ⟨[], rfl, by simp⟩, by simp, by simp⟩
      · rintro ⟨w, r, -, h1, rfl⟩
        rw [hs0] at h1
        obtain ⟨rfl, rfl⟩ : w = [] ∧ r = [] := by simpa [eq_comm] using h1
        cases s; simp_all
    | succ n ih =>
      intro s hs t
      simp only [starRun, List.mem_append, List.mem_flatMap, List.mem_filter, List.mem_singleton,
        decide_eq_true_eq]
      constructor
      · rintro (⟨u, ⟨hu, hlt⟩, ht⟩ | rfl)
        · obtain ⟨w1, r1, h1, h2, rfl⟩ := (ha _ _).1 hu
          simp only at hlt
          obtain ⟨w2, r2, ⟨ws, rfl, hws⟩, h4, rfl⟩ := (ih _ (by simp; omega) t).1 ht
          simp only at h4
          refine ⟨w1 ++ ws.flatten, r2, ⟨w1 :: ws, by simp, ?_⟩, by rw [h2, h4]; simp, by simp⟩
          intro x hx
          rcases List.mem_cons.1 hx with rfl | hx
          · exact h1
          · exact hws x hx
        · exact ⟨[], t.rest, ⟨[], rfl, by simp⟩, by simp, by simp⟩
      · rintro ⟨w, r, ⟨ws, rfl, hws⟩, h1, rfl⟩
        -- drop the empty words
        have hf : (ws.filter (· ≠ [])).flatten = ws.flatten := by
          clear h1 hws
          induction ws with
          | nil => rfl
          | cons x xs ihx => by_cases hx : x = [] <;> simp_all
        cases hw : ws.filter (· ≠ []) with
        | nil =>
          right
          rw [hw] at hf
          simp only [List.flatten_nil] at hf
          rw [← hf] at h1 ⊢
          cases s; simp_all
        | cons x xs =>
          have hx : x ∈ ws ∧ x ≠ [] := by
            have : x ∈ ws.filter (· ≠ []) := by rw [hw]; simp
            simpa using this
          have hxs : ∀ y ∈ xs, A y := by
            intro y hy
            have : y ∈ ws.filter (· ≠ []) := by rw [hw]; simp [hy]
            exact hws y (by simpa using (List.mem_filter.1 this).1)
          rw [hw, List.flatten_cons] at hf
          rw [← hf] at h1 ⊢
          have hlen : 0 < x.length := List.length_pos_iff.2 hx.2
          left
          refine ⟨⟨x.reverse ++ s.pre, xs.flatten ++ r, s.caps⟩,
            ⟨(ha _ _).2 ⟨x, xs.flatten ++ r, hws x hx.1, by rw [h1]; simp, rfl⟩, ?_⟩, ?_⟩
          · rw [h1]; simp; omega
          · refine (ih _ ?_ _).2 ⟨xs.flatten, r, ⟨xs, rfl, hxs⟩, rfl, by simp⟩
            rw [h1] at hs; simp at hs ⊢; omega
  exact fun s t => key _ _ (Nat.le_refl _) t

/-- Repetition of a character class. -/
theorem eats_star_cls (p : Char → Bool) : Eats (.star (.cls p)) (fun w => ∀ c ∈ w, p c = true) := by
  intro s t
  rw [mem_star_cls]
  constructor
  · rintro ⟨w, r, h1, h2, h3⟩; exact ⟨w, r, h2, h1, h3⟩
  · rintro ⟨w, r, h1, h2, h3⟩; exact ⟨w, r, h2, h1, h3⟩

theorem eats_plus_cls (p : Char → Bool) :
    Eats (Re.plus (.cls p)) (fun w => w ≠ [] ∧ ∀ c ∈ w, p c = true) := by
  intro s t
  rw [mem_plus_cls]
  constructor
  · rintro ⟨w, r, h0, h1, h2, h3⟩; exact ⟨w, r, ⟨h0, h2⟩, h1, h3⟩
  · rintro ⟨w, r, ⟨h0, h1⟩, h2, h3⟩; exact ⟨w, r, h0, h2, h1, h3⟩

theorem Eats.plus {a : Re} {A : Str → Prop} (ha : Eats a A) :
    Eats a.plus (fun w => ∃ ws : List Str, ws ≠ [] ∧ w = ws.flatten ∧ ∀ x ∈ ws, A x) :=
  (ha.seq ha.star).congr fun w => by
    constructor
    · rintro ⟨u, v, rfl, h1, ws, rfl, h2⟩
      refine ⟨u :: ws, by simp, by simp, ?_⟩
      intro x hx
      rcases List.mem_cons.1 hx with rfl | hx
      · exact h1
      · exact h2 x hx
    · rintro ⟨ws, h0, rfl, h⟩
      cases ws with
      | nil => exact absurd rfl h0
      | cons x xs =>
        exact ⟨x, xs.flatten, by simp, h x (by simp), xs, rfl, fun y hy => h y (by simp [hy])⟩

theorem eats_times_cls (p : Char → Bool) (n : Nat) :
    Eats ((Re.cls p).times n) (fun w => w.length = n ∧ ∀ c ∈ w, p c = true) := by
  induction n with
  | zero =>
    exact eats_eps.congr fun w => by
      constructor
      · rintro rfl; simp
      · rintro ⟨h, -⟩; exact List.length_eq_zero_iff.1 h
  | succ n ih =>
    cases n with
    | zero =>
      exact (eats_cls p).congr fun w => by
        constructor
        · rintro ⟨c, rfl, h⟩; simp [h]
        · rintro ⟨h1, h2⟩
          obtain ⟨c, rfl⟩ := List.length_eq_one_iff.1 h1
          exact ⟨c, rfl, h2 c (by simp)⟩
    | succ n =>
      exact ((eats_cls p).seq ih).congr fun w => by
        constructor
        · rintro ⟨u, v, rfl, ⟨c, rfl, h1⟩, h2, h3⟩
          refine ⟨by simp [h2], ?_⟩
          intro x hx
          simp only [List.cons_append, List.nil_append, List.mem_cons] at hx
          rcases hx with rfl | hx
          · exact h1
          · exact h3 x hx
        · rintro ⟨h1, h2⟩
          cases w with
          | nil => simp at h1
          | cons c w =>
            exact ⟨[c], w, rfl, ⟨c, rfl, h2 c (by simp)⟩, by simpa using h1,
              fun x hx => h2 x (by simp [hx])⟩

theorem eats_upto_cls (p : Char → Bool) (n : Nat) :
    Eats ((Re.cls p).upto n) (fun w => w.length ≤ n ∧ ∀ c ∈ w, p c = true) := by
  induction n with
  | zero =>
    exact eats_eps.congr fun w => by
      constructor
      · rintro rfl; simp
      · rintro ⟨h, -⟩; exact List.length_eq_zero_iff.1 (by omega)
  | succ n ih =>
    exact ((eats_cls p).seq ih).opt.congr fun w => by
      constructor
      · rintro (⟨u, v, rfl, ⟨c, rfl, h1⟩, h2, h3⟩ | rfl)
        · refine ⟨by simp; omega, ?_⟩
          intro x hx
          simp only [List.cons_append, List.nil_append, List.mem_cons] at hx
          rcases hx with rfl | hx
          · exact h1
          · exact h3 x hx
        · simp
      · rintro ⟨h1, h2⟩
        cases w with
        | nil => exact Or.inr rfl
        | cons c w =>
          exact Or.inl ⟨[c], w, rfl, ⟨c, rfl, h2 c (by simp)⟩, by simpa using h1,
            fun x hx => h2 x (by simp [hx])⟩

theorem eats_between_cls (p : Char → Bool) (m n : Nat) (hmn : m ≤ n) :
    Eats ((Re.cls p).between m n) (fun w => m ≤ w.length ∧ w.length ≤ n ∧ ∀ c ∈ w, p c = true) :=
  ((eats_times_cls p m).seq (eats_upto_cls p (n - m))).congr fun w => by
    constructor
    · rintro ⟨u, v, rfl, ⟨h1, h2⟩, h3, h4⟩
      refine ⟨by simp; omega, by simp; omega, ?_⟩
      intro c hc
      rcases List.mem_append.1 hc with hc | hc
      · exact h2 c hc
      · exact h4 c hc
    · rintro ⟨h1, h2, h3⟩
      refine ⟨w.take m, w.drop m, by simp, ⟨by simp; omega, ?_⟩, by simp; omega, ?_⟩
      · exact fun c hc => h3 c (List.mem_of_mem_take hc)
      · exact fun c hc => h3 c (List.mem_of_mem_drop hc)

end Clever
