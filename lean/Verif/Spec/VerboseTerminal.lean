import Verif.Spec.Terminal

/-!
# Specification: lines on standard output
-/

namespace Clever.Spec

/-- The texts that are written by printing lines. -/
def lineTexts (ls : List Str) : List Str := ls.flatMap fun l => [l, ['\n']]

/-- Only ASCII characters. -/
def Ascii (x : Str) : Prop := ∀ c ∈ x, c.toNat < 128

end Clever.Spec
