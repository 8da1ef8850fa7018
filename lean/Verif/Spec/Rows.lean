import Verif.Spec.Parse
import Verif.Model.Potential

/-!
# Texts whose rows are compared
-/

namespace Clever.Spec

open Clever

/-- Texts that have the same non-blank lines up to order. -/
def SameLines (t t' : Str) : Prop := ((textLines t).filter (· ≠ [])).Perm ((textLines t').filter (· ≠ []))

/-- Texts for which only dialects without quotechar and escapechar are considered. -/
structure PlainText (env : PyEnv) (ds : Option (List Str)) (t : Str) : Prop where
  nonempty : t ≠ []
  noNul : NUL ∉ t
  head : ∀ c, t.head? = some c → isNL c = false
  noQuote : ∀ c ∈ defaultQuoteChars, c ∉ t
  noEscape : ∀ u c n v, t = u ++ c :: n :: v → isPotentialEscapechar env c = true → isDelimiter env ds n = false
  noUrl : filterUrls env t = t

end Clever.Spec
