import Verif.Basic

/-!
# Newline conventions
-/

namespace Clever.Spec

/-- The text with another newline convention: `t.replace("\n", nl)`. -/
def recode (nl : Str) : Str → Str
  | [] => []
  | c :: t => (if c = '\n' then nl else [c]) ++ recode nl t

/-- The other two newline conventions. -/
def IsNewline (nl : Str) : Prop := nl = ['\r'] ∨ nl = ['\r', '\n']

/-- Some line of the text ends with the character (the last line may lack its line feed). -/
def LineEndsWith (e : Char) (t : Str) : Prop := ∃ a b, t = a ++ e :: b ∧ (b = [] ∨ b.head? = some '\n')

end Clever.Spec
