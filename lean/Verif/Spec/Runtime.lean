import Verif.Spec.JsonText
import Verif.Model.Runtime

/-!
# Specification for `--add-runtime` and the explore command
-/

namespace Clever.Spec

/-- The text of a finite float: a JSON number that is not a whole number, whatever the limit on digits. -/
def FloatText (s : Str) : Prop := ∀ lim, IsJsonNumber lim s

/-- Consecutive non-empty groups of lines. -/
def Groups (lines : List Str) (groups : List (List Str)) : Prop := groups.flatten = lines ∧ ∀ g ∈ groups, g ≠ []

/-- A `with` statement needs more lines until there is an empty one, and nothing else does. -/
def WithNeedsMore (more : Str → Bool) : Prop :=
  ∀ source, more source = true ↔ "with ".toList <+: source ∧ ¬ "\n".toList <:+ source

end Clever.Spec
