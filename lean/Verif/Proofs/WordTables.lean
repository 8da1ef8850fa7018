import Verif.Proofs.KeptDelimiter
import Verif.Proofs.PlainIO
import Verif.Props.Cells

/-!
# Tables of words: lemmas for C118
-/

namespace Clever.Props

open Clever Spec

theorem _root_.Clever.Spec.WordTable.plain {T : List (List Str)} (h : WordTable T) : PlainTable T where
  rows := h.rows
  columns := h.columns
  rect := h.rect
  chars r hr s hs c hc := by
    rcases h.chars r hr s hs c hc with h1 | h1
    · simp only [alnum, low, Bool.or_eq_true, Bool.and_eq_true, decide_eq_true_eq] at h1
      rcases h1 with (h1 | h1) | h1
      · exact .inl ⟨(by exact h1.1 : 'a'.toNat ≤ c.toNat), (by exact h1.2 : c.toNat ≤ 'z'.toNat)⟩
      · exact .inr (.inl ⟨(by exact h1.1 : 'A'.toNat ≤ c.toNat), (by exact h1.2 : c.toNat ≤ 'Z'.toNat)⟩)
      · exact .inr (.inr (.inl ⟨(by exact h1.1 : '0'.toNat ≤ c.toNat), (by exact h1.2 : c.toNat ≤ '9'.toNat)⟩))
    · right; right; right
      simp at h1
      rcases h1 with rfl | rfl | rfl <;> decide
  ends r hr s hs := by
    have hs' := List.mem_of_mem_dropLast hs
    constructor <;> intro hl <;>
      rcases h.chars r hr s hs' _ (List.mem_of_getLast? hl) with h1 | h1 <;> exact absurd h1 (by decide)

theorem word_known {env : PyEnv} (ha : env.Ascii) {s : Str} (h : ∀ c ∈ s, alnum c = true ∨ c ∈ ".()".toList) :
    isKnownType env s false = .ok true := by
  have hasc : ∀ c ∈ s, c.toNat < 128 := by
    intro c hc
    rcases h c hc with h1 | h1
    · simp only [alnum, low, Bool.or_eq_true, Bool.and_eq_true, decide_eq_true_eq] at h1
      omega
    · simp at h1
      rcases h1 with rfl | rfl | rfl <;> decide
  by_cases h0 : maybeStrip env true s = []
  · unfold isKnownType
    rw [detectType_chain, firstType_chain, if_pos h0]
    rfl
  · refine C82_word_known env ha false true s hasc ⟨h0, fun c hc => ?_⟩
    rcases h c (mem_maybeStrip hc) with h1 | h1
    · exact .inl h1
    · refine .inr (.inl ?_)
      simp at h1
      rcases h1 with rfl | rfl | rfl <;> decide

theorem alnum_category {c : Char} (h : alnum c = true) :
    asciiCategory c ∈ ["Lu", "Ll", "Lt", "Lm", "Lo", "Nd", "Nl", "No", "Ps", "Pe", "Co"] := by
  have key : ∀ n : Nat, n < 128 → alnum (Char.ofNat n) = true →
      asciiCategory (Char.ofNat n) ∈ ["Lu", "Ll", "Lt", "Lm", "Lo", "Nd", "Nl", "No", "Ps", "Pe", "Co"] := by
    decide +kernel
  have hc : c.toNat < 128 := by
    simp only [alnum, low, Bool.or_eq_true, Bool.and_eq_true, decide_eq_true_eq] at h
    omega
  have := key c.toNat hc
  rw [Char.ofNat_toNat] at this
  exact this h

end Clever.Props
