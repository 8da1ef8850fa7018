import Verif.Model.Standardize

/-!
# Specification: a run over the first files
-/

namespace Clever.Spec

/-- The same command for the first `i` files only. -/
def firstFiles (a : StdArgs) (i : Nat) : StdArgs :=
  { a with paths := a.paths.take i, outputs := a.outputs.take i,
           encodings := if a.encodings.length = 1 then a.encodings else a.encodings.take i }

end Clever.Spec
