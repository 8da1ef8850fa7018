import Verif.Props.Dicts
import Verif.Props.View

/-!
# Exactly when unknown keys are refused (C47), and exactly when the view command fails (C67)
-/

namespace Clever.Props

open Clever

/-- **C47**, exactly: a dictionary is refused because of its keys if and only if `extrasaction` is `"raise"` in lower case
and a key is unknown; all other dictionaries are written with the values of the known fields. -/
theorem C47_exact (w : DictWriter) (rowdict : List (Str × Str)) :
    (w.extrasaction = "raise".toList ∧ (∃ k ∈ rowdict.map Prod.fst, k ∉ w.fieldnames) →
      w.writerow rowdict = .error (.valueError "dict contains fields not in fieldnames")) ∧
    (¬ (w.extrasaction = "raise".toList ∧ ∃ k ∈ rowdict.map Prod.fst, k ∉ w.fieldnames) →
      w.writerow rowdict = w.writer.writeRow (w.fieldnames.map (Spec.fieldValue rowdict w.restval))) := by
  unfold DictWriter.writerow DictWriter.dictToList
  constructor
  · rintro ⟨h, k, hk, hf⟩
    rw [if_pos ⟨h, fun h => hf (h k hk)⟩]
    rfl
  · intro h
    rw [if_neg (fun ⟨h1, h2⟩ => h ⟨h1, by
      refine Classical.byContradiction fun hn => h2 fun k hk => ?_
      exact Classical.byContradiction fun hf => hn ⟨k, hk, hf⟩⟩)]
    simp only [bind, Except.bind, getD_fieldValue]

/-- **C47 is violated** by every other spelling of `"raise"` that the constructor accepts: unknown keys are dropped. -/
theorem C47_spelling_violated (fields : List Str) (restval action : Str) (w : DictWriter)
    (hw : mkDictWriter fields restval action = .ok w) (ha : action ≠ "raise".toList) (rowdict : List (Str × Str)) :
    w.writerow rowdict = excelWriter.writeRow (fields.map (Spec.fieldValue rowdict restval)) := by
  rcases C47_constructor fields restval action (.name "excel") {} excelWriter mkWriter_excel with ⟨-, h⟩ | ⟨-, m, h⟩
  · rw [h] at hw
    cases hw
    exact (C47_exact _ rowdict).2 (fun h => ha h.1)
  · rw [h] at hw
    cases hw

example : ∃ w, mkDictWriter ["a".toList] [] "Raise".toList = .ok w :=
  ⟨⟨["a".toList], [], "Raise".toList, excelWriter⟩, by decide +kernel⟩

/-- **C67**, exactly: the view command shows a table if and only if `read_table` returns one, except for an empty table
with `--transpose`. -/
theorem C67_iff (sys : Sys) (p : Path) (enc : Option Str) (n : Option Int) (t : Bool) (w : World) :
    (∃ T, (viewCmd sys p enc n t w).1 = .ok (0, some T)) ↔
      ∃ rows, (readTable sys p none enc n w).1 = .ok rows ∧ (t = true → rows ≠ []) := by
  by_cases h : t = false ∨ (readTable sys p none enc n w).1 ≠ .ok []
  · have := C67_view_partial sys p enc n t w h
    cases hr : (readTable sys p none enc n w).1 with
    | ok rows =>
      rw [hr] at this h
      simp only at this
      refine ⟨fun _ => ⟨rows, rfl, ?_⟩, fun _ => this⟩
      rintro rfl rfl
      simp at h
    | error e =>
      rw [hr] at this
      cases e <;> simp_all
  · have ht : t = true := by
      cases t with
      | true => rfl
      | false => exact absurd (.inl rfl) h
    have hr : (readTable sys p none enc n w).1 = .ok [] :=
      Classical.byContradiction fun hh => h (.inr hh)
    subst ht
    rw [hr]
    have hv : (viewCmd sys p enc n true w).1 = .error (.valueError "max() arg is an empty sequence") := by
      unfold viewCmd
      rcases hr' : readTable sys p none enc n w with ⟨r, w'⟩
      rw [hr'] at hr
      simp only at hr
      subst hr
      rfl
    rw [hv]
    simp

example : (∃ T, (viewCmd demoSys "f".toList none none true (demoWorld [("f", "a,b\n1\n")])).1 = .ok (0, some T)) :=
  (C67_iff ..).mpr ⟨[["a".toList, "b".toList], ["1".toList]], by decide +kernel⟩

end Clever.Props
