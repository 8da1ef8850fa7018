import Verif.Proofs.Regex

/-!
# Characters that an expression cannot consume, or has to consume; locality
-/

namespace Clever

/-- No class of the expression accepts the character. -/
def Re.Avoids (c : Char) : Re → Prop
  | .cls p => p c = false
  | .seq a b => a.Avoids c ∧ b.Avoids c
  | .alt a b => a.Avoids c ∧ b.Avoids c
  | .star a => a.Avoids c
  | .grp _ a => a.Avoids c
  | .cond _ a b => a.Avoids c ∧ b.Avoids c
  | _ => True

/-- Text consumed between two states. -/
def Consumed (s t : MState) (w : Str) : Prop := s.rest = w ++ t.rest

theorem starRun_avoids {f : MState → List MState} {c : Char}
    (hf : ∀ s t, (∀ p ∈ s.caps, c ∉ p.2) → t ∈ f s →
      (∃ w, s.rest = w ++ t.rest ∧ c ∉ w) ∧ ∀ p ∈ t.caps, c ∉ p.2) :
    ∀ n s t, (∀ p ∈ s.caps, c ∉ p.2) → t ∈ starRun f n s →
      (∃ w, s.rest = w ++ t.rest ∧ c ∉ w) ∧ ∀ p ∈ t.caps, c ∉ p.2 := by
  intro n
  induction n with
  | zero => intro s t hs h; simp [starRun] at h; subst h; exact ⟨⟨[], by simp, by simp⟩, hs⟩
  | succ n ih =>
    intro s t hs h
    simp only [starRun, List.mem_append, List.mem_flatMap, List.mem_filter, List.mem_singleton] at h
    rcases h with ⟨u, ⟨hu, -⟩, ht⟩ | rfl
    · obtain ⟨⟨w1, e1, h1⟩, hc⟩ := hf s u hs hu
      obtain ⟨⟨w2, e2, h2⟩, hc2⟩ := ih u t hc ht
      exact ⟨⟨w1 ++ w2, by rw [e1, e2]; simp, by simp [h1, h2]⟩, hc2⟩
    · exact ⟨⟨[], by simp, by simp⟩, hs⟩

theorem Re.Avoids.run {c : Char} : ∀ {r : Re}, r.Avoids c → ∀ s t, (∀ p ∈ s.caps, c ∉ p.2) →
    t ∈ r.run s → (∃ w, s.rest = w ++ t.rest ∧ c ∉ w) ∧ ∀ p ∈ t.caps, c ∉ p.2 := by
  intro r
  induction r with
  | eps => intro _ s t hs h; rw [mem_eps] at h; subst h; exact ⟨⟨[], by simp, by simp⟩, hs⟩
  | cls p =>
    intro h0 s t hs h
    obtain ⟨x, r, h1, h2, rfl⟩ := mem_cls.1 h
    refine ⟨⟨[x], by simp [h1], ?_⟩, hs⟩
    simp only [Re.Avoids] at h0
    intro hx
    rw [List.mem_singleton] at hx
    subst hx; simp [h0] at h2
  | seq a b iha ihb =>
    intro h0 s t hs h
    obtain ⟨u, hu, ht⟩ := mem_seq.1 h
    obtain ⟨⟨w1, e1, h1⟩, hc⟩ := iha h0.1 s u hs hu
    obtain ⟨⟨w2, e2, h2⟩, hc2⟩ := ihb h0.2 u t hc ht
    exact ⟨⟨w1 ++ w2, by rw [e1, e2]; simp, by simp [h1, h2]⟩, hc2⟩
  | alt a b iha ihb =>
    intro h0 s t hs h
    rcases mem_alt.1 h with h | h
    · exact iha h0.1 s t hs h
    · exact ihb h0.2 s t hs h
  | star a ih =>
    intro h0 s t hs h
    exact starRun_avoids (fun s t => ih h0 s t) _ s t hs h
  | grp k a ih =>
    intro h0 s t hs h
    obtain ⟨u, hu, rfl⟩ := mem_grp.1 h
    obtain ⟨⟨w1, e1, h1⟩, hc⟩ := ih h0 s u hs hu
    refine ⟨⟨w1, e1, h1⟩, ?_⟩
    intro p hp
    rcases List.mem_cons.1 hp with rfl | hp
    · have : s.between u = w1 := by simp [MState.between, e1]
      simpa [this] using h1
    · exact hc p hp
  | bref k =>
    intro _ s t hs h
    simp only [Re.run] at h
    cases hg : s.group k with
    | none => simp [hg] at h
    | some w =>
      simp only [hg, Option.mem_toList] at h
      obtain ⟨e1, -, e3⟩ := eat_split w s t h
      refine ⟨⟨w, e1, ?_⟩, by rw [e3]; exact hs⟩
      unfold MState.group at hg
      cases hf : s.caps.find? (fun p => p.1 = k) with
      | none => simp [hf] at hg
      | some p =>
        simp only [hf, Option.map_some, Option.some.injEq] at hg
        subst hg
        exact hs p (List.mem_of_find?_eq_some hf)
  | ahead a _ =>
    intro _ s t hs h
    obtain ⟨-, rfl⟩ := mem_ahead.1 h
    exact ⟨⟨[], by simp, by simp⟩, hs⟩
  | nahead a _ =>
    intro _ s t hs h
    simp only [Re.run] at h
    split at h
    · rw [List.mem_singleton] at h; subst h; exact ⟨⟨[], by simp, by simp⟩, hs⟩
    · simp at h
  | behind p =>
    intro _ s t hs h
    obtain ⟨-, rfl⟩ := mem_behind.1 h
    exact ⟨⟨[], by simp, by simp⟩, hs⟩
  | cond k a b iha ihb =>
    intro h0 s t hs h
    simp only [Re.run] at h
    split at h
    · exact iha h0.1 s t hs h
    · exact ihb h0.2 s t hs h
  | bol =>
    intro _ s t hs h
    obtain ⟨-, rfl⟩ := mem_bol.1 h
    exact ⟨⟨[], by simp, by simp⟩, hs⟩
  | eol =>
    intro _ s t hs h
    obtain ⟨-, rfl⟩ := mem_eol.1 h
    exact ⟨⟨[], by simp, by simp⟩, hs⟩

/-- An expression that avoids `c` does not match a text that contains it. -/
theorem Re.Avoids.fullmatch {c : Char} {r : Re} (h : r.Avoids c) {s : Str} (hc : c ∈ s) :
    (r.fullmatch s).isSome = false := by
  rw [← Bool.not_eq_true, fullmatch_isSome]
  rintro ⟨t, ht, he⟩
  obtain ⟨⟨w, e, hw⟩, -⟩ := h.run ⟨[], s, []⟩ t (by simp) ht
  rw [he] at e
  simp only [List.append_nil] at e
  exact hw (e ▸ hc)

/-- Every match consumes a character that satisfies `p`. -/
def Re.Needs (p : Char → Prop) : Re → Prop
  | .cls q => ∀ c, q c = true → p c
  | .seq a b => a.Needs p ∨ b.Needs p
  | .alt a b => a.Needs p ∧ b.Needs p
  | .grp _ a => a.Needs p
  | .cond _ a b => a.Needs p ∧ b.Needs p
  | _ => False

theorem Re.Needs.run {p : Char → Prop} : ∀ {r : Re}, r.Needs p → ∀ s t, t ∈ r.run s →
    ∃ w, s.rest = w ++ t.rest ∧ ∃ c ∈ w, p c := by
  intro r
  induction r with
  | cls q =>
    intro h0 s t h
    obtain ⟨x, r, h1, h2, rfl⟩ := mem_cls.1 h
    exact ⟨[x], by simp [h1], x, by simp, h0 x h2⟩
  | seq a b iha ihb =>
    intro h0 s t h
    obtain ⟨u, hu, ht⟩ := mem_seq.1 h
    rcases h0 with h0 | h0
    · obtain ⟨w1, e1, c, h1, hp⟩ := iha h0 s u hu
      obtain ⟨w2, e2, -⟩ := run_mem_split b u t ht
      exact ⟨w1 ++ w2, by rw [e1, e2]; simp, c, by simp [h1], hp⟩
    · obtain ⟨w1, e1, -⟩ := run_mem_split a s u hu
      obtain ⟨w2, e2, c, h1, hp⟩ := ihb h0 u t ht
      exact ⟨w1 ++ w2, by rw [e1, e2]; simp, c, by simp [h1], hp⟩
  | alt a b iha ihb =>
    intro h0 s t h
    rcases mem_alt.1 h with h | h
    · exact iha h0.1 s t h
    · exact ihb h0.2 s t h
  | grp k a ih =>
    intro h0 s t h
    obtain ⟨u, hu, rfl⟩ := mem_grp.1 h
    exact ih h0 s u hu
  | cond k a b iha ihb =>
    intro h0 s t h
    simp only [Re.run] at h
    split at h
    · exact iha h0.1 s t h
    · exact ihb h0.2 s t h
  | eps => intro h; exact h.elim
  | star a _ => intro h; exact h.elim
  | bref k => intro h; exact h.elim
  | ahead a _ => intro h; exact h.elim
  | nahead a _ => intro h; exact h.elim
  | behind q => intro h; exact h.elim
  | bol => intro h; exact h.elim
  | eol => intro h; exact h.elim

/-- A text without a needed character does not match. -/
theorem Re.Needs.fullmatch {p : Char → Prop} {r : Re} (h : r.Needs p) {s : Str}
    (hs : ∀ c ∈ s, ¬ p c) : (r.fullmatch s).isSome = false := by
  rw [← Bool.not_eq_true, fullmatch_isSome]
  rintro ⟨t, ht, he⟩
  obtain ⟨w, e, c, hc, hp⟩ := h.run ⟨[], s, []⟩ t ht
  rw [he] at e
  simp only [List.append_nil] at e
  exact hs c (e ▸ hc) hp

/-! ## Locality -/

/-- Two expressions that differ only in classes that agree on the characters of `S`. -/
inductive Re.Agree (S : Char → Prop) : Re → Re → Prop
  | refl (r) : Re.Agree S r r
  | cls {p q} : (∀ c, S c → p c = q c) → Re.Agree S (.cls p) (.cls q)
  | behind {p q} : (∀ c, S c → p c = q c) → Re.Agree S (.behind p) (.behind q)
  | seq {a b a' b'} : Re.Agree S a a' → Re.Agree S b b' → Re.Agree S (.seq a b) (.seq a' b')
  | alt {a b a' b'} : Re.Agree S a a' → Re.Agree S b b' → Re.Agree S (.alt a b) (.alt a' b')
  | star {a a'} : Re.Agree S a a' → Re.Agree S (.star a) (.star a')
  | grp {k a a'} : Re.Agree S a a' → Re.Agree S (.grp k a) (.grp k a')
  | ahead {a a'} : Re.Agree S a a' → Re.Agree S (.ahead a) (.ahead a')
  | nahead {a a'} : Re.Agree S a a' → Re.Agree S (.nahead a) (.nahead a')
  | cond {k a b a' b'} : Re.Agree S a a' → Re.Agree S b b' → Re.Agree S (.cond k a b) (.cond k a' b')

/-- All characters of a state are in `S`. -/
def MState.In (S : Char → Prop) (s : MState) : Prop := (∀ c ∈ s.pre, S c) ∧ ∀ c ∈ s.rest, S c

theorem MState.In.run {S : Char → Prop} {r : Re} {s t : MState} (hs : s.In S) (h : t ∈ r.run s) :
    t.In S := by
  obtain ⟨w, e1, e2⟩ := run_mem_split r s t h
  refine ⟨?_, ?_⟩
  · intro c hc
    rw [e2, List.mem_append, List.mem_reverse] at hc
    rcases hc with hc | hc
    · exact hs.2 c (by rw [e1]; simp [hc])
    · exact hs.1 c hc
  · intro c hc
    exact hs.2 c (by rw [e1]; simp [hc])

theorem flatMap_congr_mem {α β : Type} {l : List α} {f g : α → List β} (h : ∀ x ∈ l, f x = g x) :
    l.flatMap f = l.flatMap g := by
  induction l with
  | nil => rfl
  | cons a l ih =>
    simp only [List.flatMap_cons]
    rw [h a (by simp), ih (fun x hx => h x (by simp [hx]))]

theorem starRun_congr {S : Char → Prop} {a b : Re} (h : ∀ s : MState, s.In S → a.run s = b.run s) :
    ∀ n (s : MState), s.In S → starRun a.run n s = starRun b.run n s := by
  intro n
  induction n with
  | zero => intro s _; rfl
  | succ n ih =>
    intro s hs
    simp only [starRun]
    rw [← h s hs]
    congr 1
    apply flatMap_congr_mem
    intro t ht
    exact ih t (hs.run (List.mem_filter.1 ht).1)

theorem Re.Agree.run {S : Char → Prop} {a b : Re} (h : Re.Agree S a b) :
    ∀ s : MState, s.In S → a.run s = b.run s := by
  induction h with
  | refl r => intro s _; rfl
  | cls hpq =>
    intro s hs
    simp only [Re.run]
    cases hr : s.rest with
    | nil => rfl
    | cons c r => simp only [hpq c (hs.2 c (by simp [hr]))]
  | behind hpq =>
    intro s hs
    simp only [Re.run]
    cases hr : s.pre with
    | nil => rfl
    | cons c r => simp only [hpq c (hs.1 c (by simp [hr]))]
  | seq _ _ iha ihb =>
    intro s hs
    simp only [Re.run]
    rw [← iha s hs]
    exact flatMap_congr_mem fun t ht => ihb t (hs.run ht)
  | alt _ _ iha ihb => intro s hs; simp only [Re.run]; rw [iha s hs, ihb s hs]
  | star _ ih => intro s hs; simp only [Re.run]; exact starRun_congr ih _ s hs
  | grp _ ih => intro s hs; simp only [Re.run]; rw [ih s hs]
  | ahead _ ih => intro s hs; simp only [Re.run]; rw [ih s hs]
  | nahead _ ih => intro s hs; simp only [Re.run]; rw [ih s hs]
  | cond _ _ iha ihb => intro s hs; simp only [Re.run]; rw [iha s hs, ihb s hs]

theorem Re.Agree.fullmatch {S : Char → Prop} {a b : Re} (h : Re.Agree S a b) {s : Str}
    (hs : ∀ c ∈ s, S c) : a.fullmatch s = b.fullmatch s := by
  unfold Re.fullmatch
  rw [h.run ⟨[], s, []⟩ ⟨by simp, hs⟩]

theorem Re.Agree.sub {S : Char → Prop} {a b : Re} (h : Re.Agree S a b) (rep : Str) :
    ∀ (s : Str) (k : Nat) (pre : Str), (∀ c ∈ pre, S c) → (∀ c ∈ s, S c) →
      a.subAux rep k pre s = b.subAux rep k pre s := by
  intro s
  induction s with
  | nil => intro k pre _ _; cases k <;> rfl
  | cons c s ih =>
    intro k pre hp hs
    have hp' : ∀ x ∈ c :: pre, S x := by
      intro x hx
      rcases List.mem_cons.1 hx with rfl | hx
      · exact hs x (by simp)
      · exact hp x hx
    have hs' : ∀ x ∈ s, S x := fun x hx => hs x (by simp [hx])
    cases k with
    | succ k => simp only [Re.subAux]; exact ih k _ hp' hs'
    | zero =>
      simp only [Re.subAux]
      rw [h.run ⟨pre, c :: s, []⟩ ⟨hp, hs⟩]
      cases (b.run ⟨pre, c :: s, []⟩).head? with
      | none => simp only; rw [ih 0 _ hp' hs']
      | some t => simp only; rw [ih _ _ hp' hs', ih 0 _ hp' hs']

theorem Re.Agree.opt {S : Char → Prop} {a b : Re} (h : Re.Agree S a b) : Re.Agree S a.opt b.opt :=
  .alt h (.refl _)

theorem Re.Agree.plus {S : Char → Prop} {a b : Re} (h : Re.Agree S a b) : Re.Agree S a.plus b.plus :=
  .seq h (.star h)

theorem Re.Agree.times {S : Char → Prop} {a b : Re} (h : Re.Agree S a b) :
    ∀ n, Re.Agree S (a.times n) (b.times n)
  | 0 => .refl _
  | 1 => h
  | n + 2 => .seq h (Re.Agree.times h (n + 1))

theorem Re.Agree.upto {S : Char → Prop} {a b : Re} (h : Re.Agree S a b) :
    ∀ n, Re.Agree S (a.upto n) (b.upto n)
  | 0 => .refl _
  | n + 1 => .opt (.seq h (Re.Agree.upto h n))

theorem Re.Agree.between {S : Char → Prop} {a b : Re} (h : Re.Agree S a b) (m n : Nat) :
    Re.Agree S (a.between m n) (b.between m n) := .seq (h.times m) (h.upto _)

theorem Re.Agree.atLeast {S : Char → Prop} {a b : Re} (h : Re.Agree S a b) (m : Nat) :
    Re.Agree S (a.atLeast m) (b.atLeast m) := .seq (h.times m) (.star h)

end Clever
