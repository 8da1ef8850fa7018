import Verif.Model.Parser

/-!
# Sizes: what the parser is fed
-/

namespace Clever.Spec

open Clever

/-- The number of characters in the lines, and one more for each line. -/
def fed : List Item → Nat
  | [] => 0
  | .str l :: rest => l.length + 1 + fed rest
  | _ :: rest => fed rest

end Clever.Spec
