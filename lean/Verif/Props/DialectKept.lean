import Verif.Props.Dialects

/-!
# Exactly when the dialect object of the caller is modified (C17)
-/

namespace Clever.Props

open Clever

/-- **C17**, exactly: constructing a reader leaves an existing dialect object alone if and only if the object is not the
argument, or each of the four keys that is given already has the given value.  It does not matter whether the construction
succeeds. -/
theorem C17_iff (h : DHeap) (arg : DialectRef) (f : FmtParams) (i : Nat) (d : SimpleDialect) (hd : h[i]? = some d) :
    (makeSimpleDialectH h arg f).1[i]? = some d ↔
      arg ≠ .simple i ∨
        ((∀ x, f.delimiter = some x → d.delimiter = x) ∧ (∀ x, f.quotechar = some x → d.quotechar = x) ∧
          (∀ x, f.escapechar = some x → d.escapechar = x) ∧ ∀ x, f.strict = some x → d.strict = x) := by
  obtain ⟨hi, -⟩ := List.getElem?_eq_some_iff.mp hd
  by_cases ha : arg = .simple i
  · subst ha
    have hr : (makeSimpleDialectH h (.simple i) f).1[i]? = some (d.setParams f) := by
      have hm : (h.modify i (fun d => d.setParams f))[i]? = some (d.setParams f) := by
        rw [List.getElem?_modify, hd]
        simp
      simp only [makeSimpleDialectH, baseDialectH, hi, if_true]
      rw [hm]
      simp only
      split <;> exact hm
    rw [hr]
    have key : ∀ {α : Type} (o : Option α) (v : α), o.getD v = v ↔ ∀ x, o = some x → v = x := by
      intro α o v
      cases o with
      | none => simp
      | some y => simp [eq_comm]
    obtain ⟨a, b, c, s⟩ := d
    simp only [SimpleDialect.setParams, Option.some.injEq, SimpleDialect.mk.injEq, key, ne_eq, not_true_eq_false, false_or]
  · rw [C17_unchanged_partial h arg f i hi (.inl ha), hd]
    simp [ha]

/-- A key with the value that the dialect has already. -/
example : (makeSimpleDialectH [dialectOf (some ',') none none] (.simple 0)
    { delimiter := some (some [',']), strict := some false }).1[0]? = some (dialectOf (some ',') none none) :=
  (C17_iff _ _ _ _ _ rfl).mpr (.inr ⟨by simp [dialectOf], by simp, by simp, by simp [dialectOf]⟩)

end Clever.Props
