import Verif.Props.Wrappers
import Verif.Proofs.TempFile

/-!
# Exactly the tables for which `write_table` touches no file (C50)
-/

namespace Clever
namespace Props

/-- **C50**, exactly: a call of `write_table` is sure to leave all files alone if and only if the table is an empty list, or
`transpose` is off and the rows differ in length. -/
theorem C50_iff (table : Iter (List Str)) (p : Path) (dialect : DialectArg) (t : Bool) (enc : Option Str) :
    (∀ sys w, (writeTable sys table p dialect t enc w).2.files = w.files) ↔
      table = ⟨[], true⟩ ∨ t = false ∧ ¬ Spec.Rect table.items := by
  constructor
  · intro h
    apply Classical.byContradiction
    intro hn
    have hn1 : table ≠ ⟨[], true⟩ := fun h => hn (.inl h)
    have hf : table.falsy = false := by
      obtain ⟨items, sized⟩ := table
      cases items <;> cases sized <;> simp_all [Iter.falsy]
    have hr : ¬ ((if t then zipRows table.items else table.items).map List.length).dedup.length > 1 := by
      rw [ragged_iff]
      cases t with
      | true => simpa using zipRows_rect _
      | false =>
        simp only [Bool.false_eq_true, if_false]
        exact fun h => hn (.inr ⟨rfl, h⟩)
    have h1 := congrFun (h demoSys (demoWorld [])) p
    unfold writeTable at h1
    rw [hf] at h1
    simp only [Bool.false_eq_true, if_false] at h1
    rw [if_neg hr] at h1
    have h2 : openTextWrite demoSys p enc (demoWorld []) = (.ok asciiCodec, (demoWorld []).next.set p (some [])) := rfl
    rw [act_bind, h2] at h1
    simp only at h1
    have h3 : KeepsFile p (liftExcept (mkWriter dialect) >>= fun wd =>
        writeGen demoSys p asciiCodec (wd.writeGen (if t then zipRows table.items else table.items))) :=
      KeepsFile.bind (fun _ hw => hw) fun wd => keeps_writeGen _ _ _ _ _
    exact h3 _ (by simp) h1
  · rintro (rfl | ⟨rfl, hr⟩) sys w
    · rw [C50_empty_partial]
    · obtain ⟨m, hm⟩ := C50_ragged_partial sys table hr p dialect enc w
      rw [hm]

/-- A ragged table, and the same table with `transpose`. -/
example : ¬ Spec.Rect [["a".toList], ["b".toList, "c".toList]] := by
  intro h
  rw [← Classical.not_not (a := Spec.Rect _), ← ragged_iff] at h
  exact h (by decide)

end Props
end Clever
