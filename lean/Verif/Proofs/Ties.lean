import Verif.Proofs.BreakTies
import Verif.Spec.Ties

/-!
# The rules for ties
-/

namespace Clever

open Spec

theorem sameShape_iff : ∀ X Y : List (List Str), sameShape X Y = true ↔ SameShape X Y
  | [], [] => by simp [sameShape, SameShape]
  | [], y :: Y => by simp [sameShape, SameShape]
  | x :: X, [] => by simp [sameShape, SameShape]
  | x :: X, y :: Y => by
    have := sameShape_iff X Y
    unfold SameShape at this ⊢
    simp [sameShape, this]

theorem diffCells_eq : ∀ {X Y : List (List Str)}, SameShape X Y →
    diffCells X Y = (cellPairs X Y).filter (fun p => p.1 ≠ p.2)
  | [], [], _ => rfl
  | [], y :: Y, h => by simp [SameShape] at h
  | x :: X, [], h => by simp [SameShape] at h
  | x :: X, y :: Y, h => by
    simp only [SameShape, List.map_cons, List.cons.injEq] at h
    have ih := diffCells_eq (X := X) (Y := Y) h.2
    unfold diffCells cellPairs at ih ⊢
    rw [List.flatten_cons, List.flatten_cons, List.zip_append h.1, List.filter_append, ← ih]
    rfl

theorem countEscaped_eq {d : SimpleDialect} {e q : Char} (he : d.escapechar = some [e]) (hq : d.quotechar = some [q])
    (u : Str) : countEscaped d u = escapedQuotes e q u := by
  unfold countEscaped
  rw [he, hq]
  induction u with
  | nil => rfl
  | cons a u ih =>
    cases u with
    | nil => rfl
    | cons b r =>
      simp only [pairwise, escapedQuotes]
      rw [← ih, List.filter_cons]
      by_cases h : a = e ∧ b = q
      · rw [if_pos (by simp [h.1, h.2]), if_pos h, List.length_cons]; omega
      · rw [if_neg, if_neg h, Nat.zero_add]
        simp
        intro h1 h2
        exact h ⟨h1, h2⟩

theorem isInfixOf_iff (n s : Str) : isInfixOf n s = true ↔ ∃ a b, s = a ++ (n ++ b) := by
  induction s with
  | nil =>
    simp only [isInfixOf, List.isEmpty_iff]
    constructor
    · rintro rfl; exact ⟨[], [], rfl⟩
    · rintro ⟨a, b, h⟩
      have := congrArg List.length h
      simp only [List.length_nil, List.length_append] at this
      exact List.length_eq_zero_iff.1 (by omega)
  | cons c s ih =>
    simp only [isInfixOf, Bool.or_eq_true, ih, List.isPrefixOf_iff_prefix]
    constructor
    · rintro (⟨t, ht⟩ | ⟨a, b, h⟩)
      · exact ⟨[], t, ht.symm⟩
      · exact ⟨c :: a, b, by rw [h]; rfl⟩
    · rintro ⟨a, b, h⟩
      cases a with
      | nil => exact Or.inl ⟨b, h.symm⟩
      | cons x a =>
        simp only [List.cons_append, List.cons.injEq] at h
        exact Or.inr ⟨a, b, h.2⟩

/-- What `reducePairwise` returns, if the parses succeed. -/
theorem reducePairwise_same {ord : SetOrder} {limit : Int} {data : Str} {ds : List SimpleDialect}
    {ps : List (SimpleDialect × SimpleDialect)} {ans : List SimpleDialect} (h1 : equalDelim ds = true)
    (h2 : equalPairs limit data (pairwise ds) = .ok ps) (h3 : pairAnswers limit data ps = .ok ans) :
    reducePairwise ord limit data ds = .ok (some (ord.dialects
      (ans ++ ds.filter (fun d => !(ps.flatMap (fun p => [p.1, p.2])).contains d)))) := by
  unfold reducePairwise
  rw [h1, h2]
  simp only [Bool.not_true, Bool.false_eq_true, if_false, h3]

end Clever
