import Verif.Model.Parser
import Verif.Spec.Parse

/-!
# Sizes of inputs
-/

namespace Clever.Spec

/-- Number of characters of the strings among the items. -/
def itemChars : List Item → Nat
  | [] => 0
  | .str l :: rest => l.length + itemChars rest
  | _ :: rest => itemChars rest

/-- Number of delimiters of a line; a dialect without delimiter has NUL. -/
def delims (d : Char) (l : Str) : Nat := if d = NUL then 0 else l.count d

/-- Number of delimiters of the strings among the items. -/
def itemDelims (d : Char) : List Item → Nat
  | [] => 0
  | .str l :: rest => delims d l + itemDelims d rest
  | _ :: rest => itemDelims d rest

/-- Number of occurrences of the delimiter of a dialect in a text; zero if the dialect has none. -/
def delimiterCount (delimiter : Option Str) (t : Str) : Nat :=
  match delimiter with
  | some [c] => if c = NUL then 0 else t.count c
  | _ => 0

end Clever.Spec
