import Verif.Model.Potential

/-! # What `masked_by_quotechar` computes -/

namespace Clever

/-- Whether the loop is inside quotes after reading a text: quotes toggle the state until an escape
character has been seen. -/
def loopInside (q e : Str) : Bool → Bool → Str → Bool
  | _, inq, [] => inq
  | esc, inq, c :: u =>
    if [c] = q then loopInside q e esc (if esc then inq else !inq) u
    else if [c] = e then loopInside q e true inq u
    else loopInside q e esc inq u

theorem maskedLoop_iff {q e : Str} {t : Char} (ht : [t] ≠ q) :
    ∀ (s : Str),
      (∀ esc inq, maskedLoop q e [t] false esc inq s = true ↔
        ∀ u v, s = u ++ t :: v → loopInside q e esc inq u = true) ∧
      (∀ c rest, s = c :: rest → [c] = q →
        (maskedLoop q e [t] true false true s = true ↔
          ∀ u v, s = u ++ t :: v → loopInside q e false false u = true)) := by
  intro s
  induction s with
  | nil =>
    refine ⟨fun esc inq => ?_, fun c rest h => by simp at h⟩
    simp [maskedLoop]
  | cons x xs ih =>
    have cons_iff (esc inq esc' inq' : Bool)
        (hstep : ∀ u, loopInside q e esc inq (x :: u) = loopInside q e esc' inq' u)
        (h0 : [x] = [t] → inq = true) :
        (∀ u v, x :: xs = u ++ t :: v → loopInside q e esc inq u = true) ↔
          ∀ u v, xs = u ++ t :: v → loopInside q e esc' inq' u = true := by
      constructor
      · intro h u v huv
        have := h (x :: u) v (by rw [huv]; rfl)
        rwa [hstep] at this
      · intro h u v huv
        cases u with
        | nil =>
          simp at huv
          rw [loopInside]
          exact h0 (by rw [huv.1])
        | cons y u =>
          simp at huv
          rw [← huv.1, hstep]
          exact h u v huv.2
    have part2 : ∀ c rest, x :: xs = c :: rest → [c] = q →
        (maskedLoop q e [t] true false true (x :: xs) = true ↔
          ∀ u v, x :: xs = u ++ t :: v → loopInside q e false false u = true) := by
      intro c rest hc hq
      simp only [List.cons.injEq] at hc
      obtain ⟨rfl, rfl⟩ := hc
      rw [cons_iff false false false true (fun u => by simp [loopInside, hq])
        (fun h => absurd (h ▸ hq) ht)]
      exact ih.1 false true
    refine ⟨fun esc inq => ?_, part2⟩
    rw [maskedLoop]
    by_cases hq : [x] = q
    · rw [if_pos hq]
      by_cases he : esc = true
      · subst he
        rw [if_pos rfl, ih.1, cons_iff true inq true inq (fun u => by simp [loopInside, hq])
          (fun h => absurd (h ▸ hq) ht)]
      · simp only [Bool.not_eq_true] at he
        subst he
        cases inq with
        | false =>
          simp only [Bool.false_eq_true, if_false, Bool.not_false, if_true]
          rw [ih.1, cons_iff false false false true (fun u => by simp [loopInside, hq])
            (fun h => absurd (h ▸ hq) ht)]
        | true =>
          simp only [Bool.false_eq_true, if_false, Bool.not_true]
          rw [cons_iff false true false false (fun u => by simp [loopInside, hq])
            (fun h => absurd (h ▸ hq) ht)]
          split
          · rename_i hh
            cases xs with
            | nil => simp at hh
            | cons y ys =>
              simp at hh
              exact ih.2 y ys rfl (by rw [hh]; exact hq)
          · exact ih.1 false false
    · rw [if_neg hq]
      by_cases hx : [x] = [t]
      · cases inq with
        | false =>
          rw [if_pos ⟨hx, rfl⟩]
          simp only [Bool.false_eq_true, false_iff, not_forall]
          refine ⟨[], xs, ?_, by simp [loopInside]⟩
          simp at hx
          rw [hx]; rfl
        | true =>
          rw [if_neg (by simp)]
          split
          · rename_i he
            rw [ih.1, cons_iff esc true true true (fun u => by rw [loopInside, if_neg hq, if_pos he]) (fun _ => rfl)]
          · rename_i he
            rw [ih.1, cons_iff esc true esc true (fun u => by simp [loopInside, hq, he]) (fun _ => rfl)]
      · rw [if_neg (fun h => hx h.1)]
        split
        · rename_i he
          rw [ih.1, cons_iff esc inq true inq (fun u => by rw [loopInside, if_neg hq, if_pos he])
            (fun h => absurd h hx)]
        · rename_i he
          rw [ih.1, cons_iff esc inq esc inq (fun u => by simp [loopInside, hq, he])
            (fun h => absurd h hx)]

theorem loopInside_esc (q e : Str) (inq : Bool) (u : Str) : loopInside q e true inq u = inq := by
  induction u with
  | nil => rfl
  | cons c u ih => simp [loopInside, ih]

/-- In closed form: the parity of the number of quotes before the first escape character. -/
theorem loopInside_eq {q e : Str} (he : e ≠ q) (inq : Bool) (u : Str) :
    loopInside q e false inq u =
      (inq ^^ decide (((u.takeWhile (fun c => [c] ≠ e)).countP (fun c => [c] = q)) % 2 = 1)) := by
  induction u generalizing inq with
  | nil => simp [loopInside]
  | cons c u ih =>
    rw [loopInside]
    by_cases hq : [c] = q
    · have hne : [c] ≠ e := fun h => he (h ▸ hq)
      rw [if_pos hq]
      simp only [Bool.false_eq_true, if_false]
      rw [ih, List.takeWhile_cons_of_pos (by simp [hne]), List.countP_cons_of_pos (by simp [hq])]
      generalize List.countP _ _ = n
      rcases Nat.mod_two_eq_zero_or_one n with h | h
      · have h' : (n + 1) % 2 = 1 := by omega
        rw [h, h']; cases inq <;> rfl
      · have h' : (n + 1) % 2 = 0 := by omega
        rw [h, h']; cases inq <;> rfl
    · rw [if_neg hq]
      by_cases hce : [c] = e
      · rw [if_pos hce, loopInside_esc]
        simp [List.takeWhile_cons, hce]
      · rw [if_neg hce, ih]
        simp [hce, hq]

end Clever
