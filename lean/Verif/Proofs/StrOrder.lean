import Verif.Model.DialectOrder
import Verif.Proofs.Json

/-!
# The order of strings
-/

namespace Clever.Props

open Clever

theorem toNat_inj {a b : Char} (h : a.toNat = b.toNat) : a = b := by
  rw [← ofNat_toNat a, ← ofNat_toNat b, h]

theorem strLt_irrefl (a : Str) : strLt a a = false := by
  induction a with
  | nil => rfl
  | cons c cs ih => simp [strLt, ih]

theorem strLt_trans (a b c : Str) (h1 : strLt a b = true) (h2 : strLt b c = true) :
    strLt a c = true := by
  induction a generalizing b c with
  | nil =>
    cases b with
    | nil => simp [strLt] at h1
    | cons b bs =>
      cases c with
      | nil => simp [strLt] at h2
      | cons c cs => rfl
  | cons x xs ih =>
    cases b with
    | nil => simp [strLt] at h1
    | cons b bs =>
      cases c with
      | nil => simp [strLt] at h2
      | cons c cs =>
        simp only [strLt] at h1 h2 ⊢
        by_cases hxb : x = b
        · subst hxb
          by_cases hxc : x = c
          · subst hxc; simp only [if_true] at h1 h2 ⊢; exact ih _ _ h1 h2
          · simp only [hxc, if_false] at h2 ⊢; exact h2
        · by_cases hbc : b = c
          · subst hbc; simp only [hxb, if_false, decide_eq_true_eq] at h1 ⊢; exact h1
          · simp only [hxb, hbc, if_false, decide_eq_true_eq] at h1 h2
            have : x ≠ c := by rintro rfl; omega
            simp only [this, if_false, decide_eq_true_eq]; omega

theorem strLt_total (a b : Str) : strLt a b = true ∨ strLt b a = true ∨ a = b := by
  induction a generalizing b with
  | nil => cases b <;> simp [strLt]
  | cons x xs ih =>
    cases b with
    | nil => simp [strLt]
    | cons b bs =>
      simp only [strLt]
      by_cases hxb : x = b
      · subst hxb; simpa using ih bs
      · have hbx : b ≠ x := Ne.symm hxb
        have : x.toNat ≠ b.toNat := fun h => hxb (toNat_inj h)
        simp only [hxb, hbx, if_false, decide_eq_true_eq]
        omega

/-- Lexicographic comparison by code points. -/
def CodeLt (a b : Str) : Prop := a.map Char.toNat < b.map Char.toNat

theorem strLt_iff (a b : Str) : strLt a b = true ↔ CodeLt a b := by
  unfold CodeLt
  induction a generalizing b with
  | nil => cases b <;> simp [strLt]
  | cons x xs ih =>
    cases b with
    | nil => simp [strLt]
    | cons b bs =>
      simp only [strLt, List.map_cons, List.cons_lt_cons_iff]
      by_cases hxb : x = b
      · subst hxb; simp [ih]
      · have : x.toNat ≠ b.toNat := fun h => hxb (toNat_inj h)
        simp [hxb, this]

end Clever.Props
