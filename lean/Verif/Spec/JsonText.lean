import Verif.Spec.JsonGrammar
import Verif.Model.Json

/-!
# Specification of JSON texts of objects, with their values
-/

namespace Clever.Spec

/-- Value of a hexadecimal digit of either case. -/
def hexValue (c : Char) : Nat :=
  if digit c then c.toNat - 48 else if 97 ≤ c.toNat then c.toNat - 87 else c.toNat - 55

/-- Four hexadecimal digits that denote a number. -/
def HexText (n : Nat) (s : Str) : Prop :=
  s.length = 4 ∧ AllIn hexDig s ∧ n = s.foldl (fun v c => 16 * v + hexValue c) 0

/-- The characters after a backslash, and what they stand for. -/
def shortEscapes : List (Char × Char) :=
  [('"', '"'), ('\\', '\\'), ('/', '/'), ('b', Char.ofNat 8), ('f', Char.ofNat 12), ('n', '\n'), ('r', '\r'),
    ('t', '\t')]

/-- A way to write a character in a JSON string: as it is, with a short escape, with its number, or with a pair of
surrogates. -/
def CharText (c : Char) (s : Str) : Prop :=
  (c ≠ '"' ∧ c ≠ '\\' ∧ 32 ≤ c.toNat ∧ s = [c]) ∨
  (∃ x, (x, c) ∈ shortEscapes ∧ s = ['\\', x]) ∨
  (∃ ds, HexText c.toNat ds ∧ s = '\\' :: 'u' :: ds) ∨
  (∃ hi lo ds es, HexText hi ds ∧ HexText lo es ∧ 0xD800 ≤ hi ∧ hi < 0xDC00 ∧ 0xDC00 ≤ lo ∧ lo < 0xE000 ∧
    c.toNat = 0x10000 + ((hi - 0xD800) * 1024 + (lo - 0xDC00)) ∧ s = '\\' :: 'u' :: (ds ++ '\\' :: 'u' :: es))

/-- A way to write a text in a JSON string, without the quotes. -/
inductive BodyText : Str → Str → Prop
  | nil : BodyText [] []
  | cons {c s t r} : CharText c s → BodyText t r → BodyText (c :: t) (s ++ r)

/-- A JSON string with its quotes. -/
def StringText (t s : Str) : Prop := ∃ r, BodyText t r ∧ s = '"' :: (r ++ ['"'])

/-- A way to write a value within limits on the digits of whole numbers and on the depth.  Numbers, arrays and objects
have their texts as values, and so have strings with a surrogate that is not part of a pair. -/
def ValueText (lim d : Nat) : JVal → Str → Prop
  | .str t, s => StringText t s
  | .bool b, s => s = if b then "true".toList else "false".toList
  | .null, s => s = "null".toList
  | .other t, s => s = t ∧ IsJson pythonWords lim .value d t ∧ (∀ u, ¬ StringText u t) ∧ t ∉ jsonWords

/-- A member of an object with the white space around it. -/
def MemberText (lim d : Nat) (p : Str × JVal) (s : Str) : Prop :=
  ∃ a k b c v e, IsJsonSpace a ∧ StringText p.1 k ∧ IsJsonSpace b ∧ IsJsonSpace c ∧ ValueText lim d p.2 v ∧ IsJsonSpace e ∧
    s = a ++ (k ++ (b ++ ':' :: (c ++ (v ++ e))))

/-- The members of an object. -/
inductive MembersText (lim d : Nat) : List (Str × JVal) → Str → Prop
  | one {p s} : MemberText lim d p s → MembersText lim d [p] s
  | more {p s ps t} : MemberText lim d p s → MembersText lim d ps t → MembersText lim d (p :: ps) (s ++ ',' :: t)

/-- A JSON text of an object with the given members in this order, within the limits. -/
def ObjectText (lim depth : Nat) (ps : List (Str × JVal)) (s : Str) : Prop :=
  ∃ d a b c, depth = d + 1 ∧ IsJsonSpace a ∧ IsJsonSpace c ∧ ((ps = [] ∧ IsJsonSpace b) ∨ MembersText lim d ps b) ∧
    s = a ++ ('{' :: (b ++ ('}' :: c)))

/-- The last of the members with a key. -/
def LastValue (ps : List (Str × JVal)) (k : String) (v : JVal) : Prop :=
  ∃ a b, ps = a ++ (k.toList, v) :: b ∧ ∀ p ∈ b, p.1 ≠ k.toList

/-- The value of a component of a dialect: a string, or `null` for `None`. -/
def IsComponent (v : JVal) (x : Option Str) : Prop :=
  (v = .null ∧ x = none) ∨ ∃ s, v = .str s ∧ x = some s

end Clever.Spec
