import Verif.Model.JsonValid

/-!
# The fuel of the JSON model is sufficient
-/

namespace Clever

theorem jWs_le (s : Str) : (jWs s).length ≤ s.length := by
  induction s with
  | nil => simp [jWs]
  | cons c s ih => simp only [jWs]; split <;> simp <;> omega

theorem jString_lt (s : Str) : ∀ m r, jString m s = .ok r → r.length < s.length := by
  induction s with
  | nil => intro m r h; cases m <;> simp [jString] at h
  | cons c s ih =>
    intro m r h
    cases m <;> simp only [jString] at h <;> (repeat' split at h) <;>
      first
        | (simp only [Except.ok.injEq] at h; subst h; simp)
        | (have := ih _ _ h; simp; omega)
        | cases h

theorem jString_fuel (s : Str) : ∀ m, jString m s ≠ .error .fuel := by
  induction s with
  | nil => intro m; cases m <;> simp [jString]
  | cons c s ih =>
    intro m
    cases m <;> simp only [jString] <;> (repeat' split) <;> first | exact ih _ | simp

theorem dropWhile_le {p : Char → Bool} (s : Str) : (s.dropWhile p).length ≤ s.length :=
  (List.dropWhile_sublist p).length_le

theorem jFrac_le (s : Str) : (jFrac s).length ≤ s.length := by
  unfold jFrac
  split
  · rename_i c d rest
    split
    · have := dropWhile_le (p := isDig) rest
      simp only [List.length_cons]; omega
    · exact Nat.le_refl _
  · exact Nat.le_refl _

theorem jSign_le (s : Str) : (jSign s).length ≤ s.length := by
  unfold jSign
  split
  · split <;> simp
  · exact Nat.le_refl _

theorem jExp_le (s : Str) : (jExp s).length ≤ s.length := by
  unfold jExp
  split
  · rename_i e rest
    have h2 := jSign_le rest
    split
    · split
      · rename_i d r hr
        rw [hr] at h2
        split
        · have := dropWhile_le (p := isDig) r
          simp only [List.length_cons] at h2 ⊢
          omega
        · exact Nat.le_refl _
      · exact Nat.le_refl _
    · exact Nat.le_refl _
  · exact Nat.le_refl _

theorem jFraction_le (s : Str) : (jFraction s).2.length ≤ s.length :=
  Nat.le_trans (jExp_le _) (jFrac_le s)

theorem jDigits_lt {s ds r : Str} (h : jDigits s = some (ds, r)) : r.length < s.length := by
  unfold jDigits at h
  split at h
  · cases h
  · rename_i c rest
    have := dropWhile_le (p := isDig) rest
    split at h
    · simp only [Option.some.injEq, Prod.mk.injEq] at h; obtain ⟨-, rfl⟩ := h; simp
    · split at h
      · simp only [Option.some.injEq, Prod.mk.injEq] at h; obtain ⟨-, rfl⟩ := h; simp; omega
      · cases h

theorem jNumber_lt {env : PyEnv} {s r : Str} (h : jNumber env s = .ok r) : r.length < s.length := by
  unfold jNumber at h
  split at h
  · cases h
  · rename_i ds rest hd
    have h1 := jDigits_lt hd
    have h2 := jFraction_le rest
    simp only at h
    split at h
    · simp only [Except.ok.injEq] at h; subst h; omega
    · split at h
      · cases h
      · simp only [Except.ok.injEq] at h; subst h; omega

theorem jNumber_fuel (env : PyEnv) (s : Str) : jNumber env s ≠ .error .fuel := by
  unfold jNumber
  split
  · simp
  · simp only
    split
    · simp
    · split <;> simp

theorem jLit_lt : ∀ {p s r : Str}, p ≠ [] → jLit p s = some r → r.length < s.length := by
  intro p
  induction p with
  | nil => intro s r h; exact absurd rfl h
  | cons x p ih =>
    intro s r _ h
    cases s with
    | nil => simp [jLit] at h
    | cons c s =>
      simp only [jLit] at h
      split at h
      · cases p with
        | nil => simp only [jLit, Option.some.injEq] at h; subst h; simp
        | cons y p => have := ih (by simp) h; simp; omega
      · cases h

theorem jScalar_lt {env : PyEnv} {s r : Str} (h : jScalar env s = .ok r) : r.length < s.length := by
  unfold jScalar at h
  repeat' split at h
  all_goals
    first
      | (simp only [Except.ok.injEq] at h; subst h; rename_i h'; exact jLit_lt (by simp) h')
      | (rename_i r' h'; have h1 := jLit_lt (by simp) h'; have h2 := jNumber_lt h; omega)
      | exact jNumber_lt h

theorem jScalar_fuel (env : PyEnv) (s : Str) : jScalar env s ≠ .error .fuel := by
  unfold jScalar
  repeat' split
  all_goals first | exact jNumber_fuel _ _ | simp

theorem jParse_ok (env : PyEnv) : ∀ n,
    (∀ d s, (2 * s.length + 1 ≤ n → jValue env n d s ≠ .error .fuel) ∧
      ∀ r, jValue env n d s = .ok r → r.length < s.length) ∧
    (∀ d s, (2 * s.length + 2 ≤ n → jMembers env n d s ≠ .error .fuel) ∧
      ∀ r, jMembers env n d s = .ok r → r.length < s.length) ∧
    (∀ d s, (2 * s.length + 2 ≤ n → jElements env n d s ≠ .error .fuel) ∧
      ∀ r, jElements env n d s = .ok r → r.length < s.length) := by
  intro n
  induction n with
  | zero => simp [jValue, jMembers, jElements]
  | succ n ih =>
    obtain ⟨ih1, ih2, ih3⟩ := ih
    refine ⟨fun d s => ?_, fun d s => ?_, fun d s => ?_⟩
    · cases s with
      | nil => simp [jValue]
      | cons c rest =>
        have hw := jWs_le rest
        simp only [jValue]
        split
        · refine ⟨fun _ => jString_fuel _ _, fun r h => ?_⟩
          have := jString_lt _ _ _ h; simp; omega
        · split
          · split
            · simp
            · split
              · simp
              · rename_i x r hx
                rw [hx] at hw
                simp only [List.length_cons] at hw
                split
                · refine ⟨by simp, fun r' h => ?_⟩
                  simp only [Except.ok.injEq] at h; subst h; simp; omega
                · split
                  · refine ⟨fun hn => (ih2 _ _).1 (by simp at hn; omega), fun r' h => ?_⟩
                    have := (ih2 _ _).2 _ h
                    simp; omega
                  · simp
          · split
            · split
              · simp
              · split
                · simp
                · rename_i x r hx
                  rw [hx] at hw
                  simp only [List.length_cons] at hw
                  split
                  · refine ⟨by simp, fun r' h => ?_⟩
                    simp only [Except.ok.injEq] at h; subst h; simp; omega
                  · refine ⟨fun hn => (ih3 _ _).1 (by simp at hn ⊢; omega), fun r' h => ?_⟩
                    have := (ih3 _ _).2 _ h
                    simp at this ⊢; omega
            · exact ⟨fun _ => jScalar_fuel _ _, fun r h => jScalar_lt h⟩
    · simp only [jMembers]
      split
      · rename_i e he
        refine ⟨fun _ h => ?_, fun r h => by cases h⟩
        rw [h] at he; exact jString_fuel _ _ he
      · rename_i r hr
        have h1 := jString_lt _ _ _ hr
        have hw := jWs_le r
        split
        · simp
        · rename_i x r2 hx
          rw [hx] at hw
          simp only [List.length_cons] at hw
          have hw2 := jWs_le r2
          split
          · have hv := ih1 d (jWs r2)
            split
            · rename_i e he
              refine ⟨fun hn h => ?_, fun r h => by cases h⟩
              rw [h] at he; exact hv.1 (by omega) he
            · rename_i r3 hr3
              have h3 := hv.2 _ hr3
              have hw3 := jWs_le r3
              split
              · simp
              · rename_i y r4 hy
                rw [hy] at hw3
                simp only [List.length_cons] at hw3
                split
                · refine ⟨by simp, fun r' h => ?_⟩
                  simp only [Except.ok.injEq] at h; subst h; omega
                · split
                  · have hw4 := jWs_le r4
                    split
                    · simp
                    · rename_i z r5 hz
                      rw [hz] at hw4
                      simp only [List.length_cons] at hw4
                      split
                      · refine ⟨fun hn => (ih2 _ _).1 (by omega), fun r' h => ?_⟩
                        have := (ih2 _ _).2 _ h
                        omega
                      · simp
                  · simp
          · simp
    · simp only [jElements]
      have hv := ih1 d s
      split
      · rename_i e he
        refine ⟨fun hn h => ?_, fun r h => by cases h⟩
        rw [h] at he; exact hv.1 (by omega) he
      · rename_i r hr
        have h1 := hv.2 _ hr
        have hw := jWs_le r
        split
        · simp
        · rename_i x r2 hx
          rw [hx] at hw
          simp only [List.length_cons] at hw
          have hw2 := jWs_le r2
          split
          · refine ⟨by simp, fun r' h => ?_⟩
            simp only [Except.ok.injEq] at h; subst h; omega
          · split
            · refine ⟨fun hn => (ih3 _ _).1 (by omega), fun r' h => ?_⟩
              have := (ih3 _ _).2 _ h
              omega
            · simp

/-- The model of `json.loads` never runs out of fuel. -/
theorem jsonLoads_fuel (env : PyEnv) (s : Str) : jsonLoads env s ≠ .error .fuel := by
  unfold jsonLoads
  have hv := ((jParse_ok env (2 * s.length + 1)).1 env.jsonDepth (jWs s)).1 (by have := jWs_le s; omega)
  split
  · rename_i e he
    intro h
    have : e = .fuel := by simpa using h
    subst this
    exact hv he
  · split <;> simp

end Clever
