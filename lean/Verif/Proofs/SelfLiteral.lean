import Verif.Spec.PyLiteral

/-!
# Texts that stand for themselves between double quotes
-/

namespace Clever

open Spec

theorem not_afterBackslash {c : Char} (hx : simpleEscape c = none) (hk : hexCount c = none) (hn : ¬c = '\n')
    (hr : ¬(c = '\r' ∨ c = NUL ∨ c = 'N' ∨ ('0' ≤ c ∧ c ≤ '7'))) : c ∉ afterBackslash := by
  have key : ∀ c ∈ afterBackslash, (simpleEscape c).isSome ∨ (hexCount c).isSome ∨ c = '\n' ∨
      (c = '\r' ∨ c = NUL ∨ c = 'N' ∨ ('0' ≤ c ∧ c ≤ '7')) := by decide
  intro h
  have := key c h
  simp [hx, hk] at this
  rcases this with h | h
  · exact hn h
  · exact hr h

theorem octal_mem {c : Char} (h : '0' ≤ c ∧ c ≤ '7') : c ∈ afterBackslash := by
  have h1 : 48 ≤ c.toNat := h.1
  have h2 : c.toNat ≤ 55 := h.2
  have key : ∀ n < 8, Char.ofNat (48 + n) ∈ afterBackslash := by decide
  have := key (c.toNat - 48) (by omega)
  rwa [show 48 + (c.toNat - 48) = c.toNat by omega, Char.ofNat_toNat] at this

theorem afterBackslash_none {c : Char} (h : c ∉ afterBackslash) :
    simpleEscape c = none ∧ hexCount c = none ∧ ¬c = '\n' ∧
      ¬(c = '\r' ∨ c = NUL ∨ c = 'N' ∨ ('0' ≤ c ∧ c ≤ '7')) := by
  have hne : ∀ x ∈ afterBackslash, c ≠ x := fun x hx e => h (e ▸ hx)
  refine ⟨?_, ?_, hne _ (by decide), ?_⟩
  · unfold simpleEscape
    rw [if_neg (by
      rintro (e | e | e)
      · exact hne _ (by decide) e
      · exact hne _ (by decide) e
      · exact hne _ (by decide) e),
      if_neg (hne _ (by decide)), if_neg (hne _ (by decide)), if_neg (hne _ (by decide)), if_neg (hne _ (by decide)),
      if_neg (hne _ (by decide)), if_neg (hne _ (by decide)), if_neg (hne _ (by decide))]
  · unfold hexCount
    rw [if_neg (hne _ (by decide)), if_neg (hne _ (by decide)), if_neg (hne _ (by decide))]
  · rintro (e | e | e | e)
    · exact hne _ (by decide) e
    · exact hne _ (by decide) e
    · exact hne _ (by decide) e
    · exact h (octal_mem e)

/-- What is known of the text that has been read by `litBody` and its value. -/
def LitRead (u v : Str) : LitState → Prop
  | .plain => v.length ≤ u.length ∧ (v.length = u.length → SelfLiteral false u)
  | .escape => v.length ≤ u.length + 1 ∧ (v.length = u.length + 1 → SelfLiteral true u)
  | .hex _ _ => v.length ≤ u.length

theorem litBody_read : ∀ (s : Str) (st : LitState) (v r : Str), litBody '"' st s = some (v, r) →
    ∃ u, s = u ++ '"' :: r ∧ u.count '"' ≤ v.count '"' ∧ LitRead u v st := by
  intro s
  induction s with
  | nil => intro st v r h; cases st <;> simp [litBody] at h
  | cons c s ih =>
    intro st v r h
    have hmap : ∀ {x : Option (Str × Str)} {f : Str → Str},
        x.map (fun p => (f p.1, p.2)) = some (v, r) → ∃ v', x = some (v', r) ∧ v = f v' := by
      intro x f hx
      cases x with
      | none => simp at hx
      | some p => simp at hx; exact ⟨p.1, by rw [← hx.2], hx.1.symm⟩
    cases st with
    | plain =>
      rw [litBody] at h
      split at h
      · rename_i hc
        cases h
        exact ⟨[], by simp [hc], by simp, by simp [LitRead, SelfLiteral]⟩
      split at h
      · cases h
      split at h
      · rename_i hq hn hb
        obtain ⟨u, h1, h2, h3, h4⟩ := ih .escape v r h
        refine ⟨c :: u, by rw [h1]; rfl, ?_, by simpa using h3, ?_⟩
        · rw [List.count_cons_of_ne (by simpa using hq)]; exact h2
        · intro he
          simp only [List.length_cons] at he
          simp only [SelfLiteral, if_pos hb]
          exact h4 he
      · rename_i hq hn hb
        obtain ⟨v', h1, rfl⟩ := hmap (f := fun v' => c :: v') h
        obtain ⟨u, e1, e2, e3, e4⟩ := ih .plain v' r h1
        refine ⟨c :: u, by rw [e1]; rfl, ?_, by simpa using e3, ?_⟩
        · rw [List.count_cons_of_ne (by simpa using hq), List.count_cons_of_ne (by simpa using hq)]; exact e2
        · intro he
          simp only [List.length_cons, Nat.add_right_cancel_iff] at he
          simp only [SelfLiteral, if_neg hb]
          refine ⟨?_, e4 he⟩
          simp only [List.mem_cons, List.not_mem_nil, or_false, not_or]
          simp only [not_or] at hn
          exact ⟨hq, hn⟩
    | escape =>
      rw [litBody] at h
      split at h
      · rename_i x hx
        obtain ⟨v', h1, rfl⟩ := hmap (f := fun v' => x :: v') h
        obtain ⟨u, e1, e2, e3, e4⟩ := ih .plain v' r h1
        refine ⟨c :: u, by rw [e1]; rfl, ?_, by simp only [List.length_cons]; omega, ?_⟩
        · rw [List.count_cons, List.count_cons]
          by_cases hc : c = '"'
          · subst hc
            have : x = '"' := by simpa [simpleEscape] using hx.symm
            subst this
            simpa using e2
          · simp only [beq_iff_eq, hc, if_false]; omega
        · intro he
          simp only [List.length_cons] at he
          omega
      · rename_i hx
        split at h
        · rename_i k hk
          obtain ⟨u, e1, e2, e3⟩ := ih _ v r h
          refine ⟨c :: u, by rw [e1]; rfl, ?_, ?_, ?_⟩
          · have hc : c ≠ '"' := by rintro rfl; simp [hexCount] at hk
            rw [List.count_cons_of_ne (by simpa using hc)]; exact e2
          · simp only [LitRead] at e3; simp only [List.length_cons]; omega
          · intro he
            simp only [LitRead] at e3
            simp only [List.length_cons] at he
            omega
        · rename_i hk
          split at h
          · rename_i hn
            obtain ⟨u, e1, e2, e3, e4⟩ := ih _ v r h
            refine ⟨c :: u, by rw [e1]; rfl, ?_, ?_, ?_⟩
            · have hc : c ≠ '"' := fun e => absurd (hn.symm.trans e) (by decide)
              rw [List.count_cons_of_ne (by simpa using hc)]; exact e2
            · simp only [List.length_cons]; omega
            · intro he
              simp only [List.length_cons] at he
              omega
          split at h
          · cases h
          · rename_i hn hr
            obtain ⟨v', h1, rfl⟩ := hmap (f := fun v' => '\\' :: c :: v') h
            obtain ⟨u, e1, e2, e3, e4⟩ := ih .plain v' r h1
            refine ⟨c :: u, by rw [e1]; rfl, ?_, ?_, ?_⟩
            · rw [List.count_cons, List.count_cons, List.count_cons]; omega
            · simp only [List.length_cons]; omega
            · intro he
              simp only [List.length_cons] at he
              refine ⟨?_, e4 (by omega)⟩
              exact not_afterBackslash hx hk hn hr
    | hex k n =>
      rw [litBody] at h
      split at h
      · cases h
      · rename_i d hd
        have hc : c ≠ '"' := by rintro rfl; exact absurd hd (by rw [show hexOf '"' = none by decide]; simp)
        split at h
        · split at h
          · obtain ⟨v', h1, rfl⟩ := hmap (f := fun v' => _ :: v') h
            obtain ⟨u, e1, e2, e3, e4⟩ := ih .plain v' r h1
            refine ⟨c :: u, by rw [e1]; rfl, ?_, by simpa [LitRead] using e3⟩
            rw [List.count_cons_of_ne (by simpa using hc), List.count_cons]; omega
          · cases h
        · obtain ⟨u, e1, e2, e3⟩ := ih _ v r h
          refine ⟨c :: u, by rw [e1]; rfl, ?_, by simp only [LitRead] at e3 ⊢; simp only [List.length_cons]; omega⟩
          rw [List.count_cons_of_ne (by simpa using hc)]; exact e2

theorem litBody_self : ∀ (s : Str) (rest : Str),
    (SelfLiteral false s → litBody '"' .plain (s ++ '"' :: rest) = some (s, rest)) ∧
    (SelfLiteral true s → litBody '"' .escape (s ++ '"' :: rest) = some ('\\' :: s, rest)) := by
  intro s rest
  induction s with
  | nil => exact ⟨fun _ => by simp [litBody], fun h => h.elim⟩
  | cons c s ih =>
    constructor
    · intro h
      rw [SelfLiteral] at h
      rw [List.cons_append, litBody]
      by_cases hb : c = '\\'
      · subst hb
        rw [if_pos rfl] at h
        rw [if_neg (by decide), if_neg (by decide), if_pos rfl, ih.2 h]
      · rw [if_neg hb] at h
        obtain ⟨h1, h2⟩ := h
        simp only [List.mem_cons, List.not_mem_nil, or_false, not_or] at h1
        rw [if_neg h1.1, if_neg (by simp [h1]), if_neg hb, ih.1 h2]
        rfl
    · rintro ⟨h1, h2⟩
      obtain ⟨e1, e2, e3, e4⟩ := afterBackslash_none h1
      rw [List.cons_append, litBody, e1]
      simp only [e2]
      rw [if_neg e3, if_neg e4, ih.1 h2]
      rfl

/-- **A text between double quotes evaluates to itself exactly when it is a `SelfLiteral`.** -/
theorem literal_self_iff (s rest : Str) (hr : rest.head? ≠ some '"') :
    ((literal ('"' :: (s ++ '"' :: rest))).map (·.1) = some s ↔ SelfLiteral false s) ∧
    (SelfLiteral false s → literal ('"' :: (s ++ '"' :: rest)) = some (s, rest)) := by
  have back : SelfLiteral false s → literal ('"' :: (s ++ '"' :: rest)) = some (s, rest) := by
    intro h
    unfold literal
    simp only []
    rw [if_pos (by simp), if_neg, (litBody_self s rest).1 h]
    cases s with
    | nil =>
      intro e
      cases rest with
      | nil => simp at e
      | cons x xs => simp at e; exact hr (by simp [e])
    | cons c s =>
      intro e
      have hc : c = '"' := by simp at e; exact e.1
      subst hc
      rw [SelfLiteral, if_neg (by decide)] at h
      exact h.1 (by simp)
  refine ⟨⟨fun h => ?_, fun h => by rw [back h]; rfl⟩, back⟩
  unfold literal at h
  simp only [] at h
  rw [if_pos (by simp)] at h
  split at h
  · simp at h
  cases hb : litBody '"' .plain (s ++ '"' :: rest) with
  | none => rw [hb] at h; simp at h
  | some p =>
    obtain ⟨v, r⟩ := p
    rw [hb] at h
    simp only [Option.map_some, Option.some.injEq] at h
    subst h
    obtain ⟨u, e1, e2, e3, e4⟩ := litBody_read _ _ _ _ hb
    rcases List.append_eq_append_iff.1 e1 with ⟨t, h1, h2⟩ | ⟨t, h1, h2⟩
    · cases t with
      | nil =>
        simp only [List.append_nil] at h1
        subst h1
        exact e4 rfl
      | cons x t =>
        simp only [List.cons_append, List.cons.injEq] at h2
        rw [h1, ← h2.1, List.count_append, List.count_cons_self] at e2
        omega
    · cases t with
      | nil =>
        simp only [List.append_nil] at h1
        subst h1
        exact e4 rfl
      | cons x t =>
        rw [h1, List.length_append, List.length_cons] at e3
        omega

/-- The literals of C69 and C111. -/
theorem selfLiteral_of_noEscape {s : Str} (h : ∀ c ∈ s, c ≠ '"' ∧ c ≠ '\\' ∧ c ≠ '\n' ∧ c ≠ '\r' ∧ c ≠ NUL) :
    SelfLiteral false s := by
  induction s with
  | nil => trivial
  | cons c s ih =>
    have := h c (by simp)
    rw [SelfLiteral, if_neg this.2.1]
    exact ⟨by simp [this], ih fun c hc => h c (by simp [hc])⟩

theorem selfLiteral_no_lf : ∀ {b : Bool} {s : Str}, SelfLiteral b s → '\n' ∉ s
  | _, [], _ => by simp
  | false, c :: s, h => by
    rw [SelfLiteral] at h
    split at h
    · rename_i hb
      subst hb
      simp [selfLiteral_no_lf h]
    · have := selfLiteral_no_lf h.2
      have h1 := h.1
      simp only [List.mem_cons, not_or] at h1 ⊢
      exact ⟨Ne.symm h1.2.1, this⟩
  | true, c :: s, h => by
    have := selfLiteral_no_lf h.2
    simp only [List.mem_cons, not_or]
    refine ⟨?_, this⟩
    rintro rfl
    exact h.1 (by decide)

end Clever
