import Verif.Model.Dialect
import Mathlib.Data.List.Dedup

/-!
# Python sets

A set is the list of the values that were inserted into it.  The order in which Python enumerates
a set depends on the hash seed and on the history of the set: it is a parameter of the models.
-/

namespace Clever

/-- The order in which sets are enumerated: a function of the sequence of insertions that lists every
inserted value once. -/
structure SetOrder where
  chars : List Char → List Char
  strs : List Str → List Str
  dialects : List SimpleDialect → List SimpleDialect
  chars_perm : ∀ l, (chars l).Perm l.dedup
  strs_perm : ∀ l, (strs l).Perm l.dedup
  dialects_perm : ∀ l, (dialects l).Perm l.dedup

/-- Enumeration in the order of the last insertions. -/
def SetOrder.forward : SetOrder where
  chars l := l.dedup
  strs l := l.dedup
  dialects l := l.dedup
  chars_perm _ := .refl _
  strs_perm _ := .refl _
  dialects_perm _ := .refl _

/-- The opposite order. -/
def SetOrder.backward : SetOrder where
  chars l := l.dedup.reverse
  strs l := l.dedup.reverse
  dialects l := l.dedup.reverse
  chars_perm _ := List.reverse_perm _
  strs_perm _ := List.reverse_perm _
  dialects_perm _ := List.reverse_perm _

end Clever
