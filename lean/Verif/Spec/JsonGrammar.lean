import Verif.Spec.Cells

/-!
# Specification of JSON texts (RFC 8259)
-/

namespace Clever.Spec

/-- An ASCII digit. -/
def digit (c : Char) : Bool := 48 ≤ c.toNat && c.toNat ≤ 57

/-- A hexadecimal digit. -/
def hexDig (c : Char) : Bool :=
  digit c || (97 ≤ c.toNat && c.toNat ≤ 102) || (65 ≤ c.toNat && c.toNat ≤ 70)

/-- White space between the tokens. -/
def IsJsonSpace (s : Str) : Prop := ∀ c ∈ s, c = ' ' ∨ c = '\t' ∨ c = '\n' ∨ c = '\r'

/-- One character of a string: any but quotes, backslashes and control characters; or an escape sequence. -/
def IsJsonChar (s : Str) : Prop :=
  (∃ c, c ≠ '"' ∧ c ≠ '\\' ∧ 32 ≤ c.toNat ∧ s = [c]) ∨
  (∃ c ∈ "\"\\/bfnrt".toList, s = ['\\', c]) ∨
  (∃ ds, ds.length = 4 ∧ AllIn hexDig ds ∧ s = '\\' :: 'u' :: ds)

/-- A string with its quotes. -/
def IsJsonString (s : Str) : Prop :=
  ∃ cs : List Str, (∀ x ∈ cs, IsJsonChar x) ∧ s = '"' :: (cs.flatten ++ ['"'])

/-- A number: an optional minus sign, a whole number, an optional fraction and an optional exponent.  Whole numbers
have at most `lim` digits, unless `lim` is zero. -/
def IsJsonNumber (lim : Nat) (s : Str) : Prop :=
  ∃ g n f e, (g = [] ∨ g = ['-']) ∧ IsWhole digit n ∧ (f = [] ∨ ∃ ds, ds ≠ [] ∧ AllIn digit ds ∧ f = '.' :: ds) ∧
    (e = [] ∨ IsExponent digit e) ∧ (f = [] → e = [] → lim = 0 ∨ n.length ≤ lim) ∧ s = g ++ (n ++ (f ++ e))

/-- The words of RFC 8259. -/
def jsonWords : List Str := ["null".toList, "true".toList, "false".toList]

/-- The words that Python knows in addition. -/
def pythonWords : List Str := jsonWords ++ ["NaN".toList, "Infinity".toList, "-Infinity".toList]

/-- Parts of a JSON text. -/
inductive JKind where
  | value
  /-- the elements of an array -/
  | elements
  /-- the members of an object -/
  | members

/-- JSON texts, with arrays and objects nested at most `d` deep. -/
inductive IsJson (words : List Str) (lim : Nat) : JKind → Nat → Str → Prop
  | word {d s} : s ∈ words → IsJson words lim .value d s
  | number {d s} : IsJsonNumber lim s → IsJson words lim .value d s
  | string {d s} : IsJsonString s → IsJson words lim .value d s
  | emptyArray {d a} : IsJsonSpace a → IsJson words lim .value (d + 1) ('[' :: (a ++ [']']))
  | array {d s} : IsJson words lim .elements d s → IsJson words lim .value (d + 1) ('[' :: (s ++ [']']))
  | emptyObject {d a} : IsJsonSpace a → IsJson words lim .value (d + 1) ('{' :: (a ++ ['}']))
  | object {d s} : IsJson words lim .members d s → IsJson words lim .value (d + 1) ('{' :: (s ++ ['}']))
  | element {d a v b} : IsJsonSpace a → IsJson words lim .value d v → IsJsonSpace b →
      IsJson words lim .elements d (a ++ (v ++ b))
  | elements {d a v b t} : IsJsonSpace a → IsJson words lim .value d v → IsJsonSpace b →
      IsJson words lim .elements d t → IsJson words lim .elements d (a ++ (v ++ (b ++ ',' :: t)))
  | member {d a k b c v e} : IsJsonSpace a → IsJsonString k → IsJsonSpace b → IsJsonSpace c →
      IsJson words lim .value d v → IsJsonSpace e →
      IsJson words lim .members d (a ++ (k ++ (b ++ ':' :: (c ++ (v ++ e)))))
  | members {d a k b c v e t} : IsJsonSpace a → IsJsonString k → IsJsonSpace b → IsJsonSpace c →
      IsJson words lim .value d v → IsJsonSpace e → IsJson words lim .members d t →
      IsJson words lim .members d (a ++ (k ++ (b ++ ':' :: (c ++ (v ++ (e ++ ',' :: t))))))

/-- The printed form of a Python bytearray. -/
def IsBytearrayText (s : Str) : Prop := ∃ t, s = "bytearray(b".toList ++ (t ++ [')'])

end Clever.Spec
