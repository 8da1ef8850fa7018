import Verif.Proofs.Rename

/-!
# C109: characters without a meaning make no difference

Renaming the characters of a text and of the dialect renames the result.  The characters that are not in the dialect may
be replaced by any others that are not, even the same one for all.
-/

namespace Clever.Props

open Clever Spec

/-- **C109**, `parse_string`: the cells are the renamed cells, and an exception is the same with its characters renamed. -/
theorem C109_parse_string (σ : Char → Char) (d : SimpleDialect) (h : Renames σ (dialectChars d)) (limit : Int) (t : Str) :
    parseString limit (renameDialect σ d) (t.map σ) =
      ((parseString limit d t).1.map (List.map (List.map σ)), (parseString limit d t).2.map (renameExc σ)) := by
  have hi : strItems (linesUniv (t.map σ)) = (strItems (linesUniv t)).map (Item.rename σ) := by
    rw [linesUniv_rename h]
    simp [strItems, Item.rename, Function.comp_def]
  rw [parseString, hi]
  exact parseData_rename h (fun _ _ => rfl) limit _

/-- **C109** with the quoted flags. -/
theorem C109_parse_string_quoted (σ : Char → Char) (d : SimpleDialect) (h : Renames σ (dialectChars d)) (limit : Int)
    (t : Str) :
    parseStringQuoted limit (renameDialect σ d) (t.map σ) =
      ((parseStringQuoted limit d t).1.map (List.map fun x => (x.1.map σ, x.2)),
        (parseStringQuoted limit d t).2.map (renameExc σ)) := by
  have hi : strItems (linesUniv (t.map σ)) = (strItems (linesUniv t)).map (Item.rename σ) := by
    rw [linesUniv_rename h]
    simp [strItems, Item.rename, Function.comp_def]
  rw [parseStringQuoted, hi]
  exact parseData_rename (F := fun x : Str × Bool => (x.1.map σ, x.2)) h (fun _ _ => rfl) limit _

/-- **C109**, any iterable of strings and other objects instead of the lines of a text. -/
theorem C109_parse_data (σ : Char → Char) (d : SimpleDialect) (h : Renames σ (dialectChars d)) (limit : Int)
    (items : List Item) :
    parseData limit (renameDialect σ d) mkPlain (items.map (Item.rename σ)) =
      ((parseData limit d mkPlain items).1.map (List.map (List.map σ)),
        (parseData limit d mkPlain items).2.map (renameExc σ)) :=
  parseData_rename h (fun _ _ => rfl) limit items

/-- **C109**, texts that differ in characters outside the dialect only: the same number of rows, of cells in each row and
of characters in each cell. -/
theorem C109_shape (σ : Char → Char) (d : SimpleDialect) (h : Renames σ (dialectChars d))
    (hd : ∀ c ∈ dialectChars d, σ c = c) (limit : Int) (t : Str) :
    (parseString limit d (t.map σ)).1.map (List.map List.length) =
      (parseString limit d t).1.map (List.map List.length) := by
  have hm : ∀ x : Option Str, (∀ c ∈ x.getD [], σ c = c) → x.map (List.map σ) = x := by
    intro x hx
    cases x with
    | none => rfl
    | some s =>
      simp only [Option.map_some, Option.some.injEq]
      exact (List.map_congr_left hx).trans (List.map_id' s)
  have hr : renameDialect σ d = d := by
    rcases d with ⟨a, b, c, s⟩
    simp only [dialectChars] at hd
    simp only [renameDialect]
    rw [hm a (fun c hc => hd c (by simp [hc])), hm b (fun c hc => hd c (by simp [hc])),
      hm c (fun c hc => hd c (by simp [hc]))]
  have := C109_parse_string σ d h limit t
  rw [hr] at this
  rw [this]
  simp [List.map_map, Function.comp_def]

/-- **C109**, the abstraction and the pattern score do not change at all. -/
theorem C109_pattern (σ : Char → Char) (d : SimpleDialect) (h : Renames σ (dialectChars d)) (t : Str) (eps : ℚ) :
    makeAbstraction (t.map σ) (renameDialect σ d) = makeAbstraction t d ∧
    patternScore (t.map σ) (renameDialect σ d) eps = patternScore t d eps := by
  have h1 := makeAbstraction_rename h t
  exact ⟨h1, by rw [patternScore, patternScore, h1]⟩

/-- **C109**, the writer: renaming the cells renames what is written. -/
theorem C109_writer (σ : Char → Char) (w : WDialect)
    (h : Renames σ (w.delimiter :: (w.quotechar.toList ++ w.escapechar.toList ++ w.lineterminator))) (row : List Str) :
    ({ w with delimiter := σ w.delimiter, quotechar := w.quotechar.map σ, escapechar := w.escapechar.map σ,
              lineterminator := w.lineterminator.map σ } : WDialect).writeRow (row.map (List.map σ)) =
      (w.writeRow row).map (List.map σ) :=
  writeRow_rename (w := w) h row

/-! Examples -/

/-- Exchange the comma and the semicolon, and make every letter an `x`. -/
def demoRenaming (c : Char) : Char :=
  if c = ',' then ';' else if c = ';' then ',' else if c.isAlpha then 'x' else c

theorem demoRenaming_renames : Renames demoRenaming (dialectChars (dialectOf (some ',') (some '"') (some '\\'))) := by
  refine ⟨by decide, by decide, by decide, ?_⟩
  intro x hx c hc
  have hx' : x = NUL ∨ x = '\n' ∨ x = '\r' ∨ x = ',' ∨ x = '"' ∨ x = '\\' := by
    simpa [dialectChars, dialectOf] using hx
  by_contra hne
  unfold demoRenaming at hc
  split at hc
  · rename_i h1
    subst h1
    rcases hx' with rfl | rfl | rfl | rfl | rfl | rfl <;> revert hc <;> first | exact absurd rfl hne | decide
  · split at hc
    · rename_i h1
      subst h1
      rcases hx' with rfl | rfl | rfl | rfl | rfl | rfl <;> revert hc <;> decide
    · split at hc
      · rcases hx' with rfl | rfl | rfl | rfl | rfl | rfl <;> revert hc <;> decide
      · rename_i h1 h2 h3
        rcases hx' with rfl | rfl | rfl | rfl | rfl | rfl
        · exact hne (hc.trans (by decide))
        · exact hne (hc.trans (by decide))
        · exact hne (hc.trans (by decide))
        · exact h2 (hc.trans (by decide))
        · exact hne (hc.trans (by decide))
        · exact hne (hc.trans (by decide))

example : parseString 100 (dialectOf (some ',') (some '"') (some '\\')) "abc,\"d,e\"\r\nf\\,,9".toList =
      ([["abc".toList, "d,e".toList], ["f,".toList, "9".toList]], none) ∧
    parseString 100 (renameDialect demoRenaming (dialectOf (some ',') (some '"') (some '\\')))
        ("abc,\"d,e\"\r\nf\\,,9".toList.map demoRenaming) =
      ([["xxx".toList, "x;x".toList], ["x;".toList, "9".toList]], none) := by
  decide

end Clever.Props
