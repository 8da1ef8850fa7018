import Verif.Model.World

/-!
# UTF-8, from the Lean library
-/

namespace Clever.Spec

open Clever

/-- The bytes of a text: `String.utf8EncodeChar` of the Lean library for every character. -/
def utf8 (t : Str) : Bytes := t.flatMap String.utf8EncodeChar

end Clever.Spec
