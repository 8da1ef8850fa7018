import Verif.Basic

/-!
# Specification of clock times and plain dates
-/

namespace Clever.Spec

/-- The decimal digit of a number below ten. -/
def dg (n : Nat) : Char := Char.ofNat (48 + n)

/-- A number below one hundred with two digits. -/
def pad2 (n : Nat) : Str := [dg (n / 10), dg (n % 10)]

/-- A clock time without offset: `h:mm` or `hh:mm` (hour at most 23, minute at most 59), or
`hh:mm:ss`. -/
def IsPlainClock (s : Str) : Prop :=
  (∃ h m, h < 10 ∧ m < 60 ∧ s = dg h :: ':' :: pad2 m) ∨
  (∃ h m, h < 24 ∧ m < 60 ∧ s = pad2 h ++ ':' :: pad2 m) ∨
  (∃ h m x, h < 24 ∧ m < 60 ∧ x < 60 ∧ s = pad2 h ++ ':' :: pad2 m ++ ':' :: pad2 x)

/-- A clock time: one without offset, or `hh:mm:ss` followed by a sign and an offset `hh:mm` with
hour at most 19. -/
def IsClock (s : Str) : Prop :=
  IsPlainClock s ∨
  (∃ h m x oh om, ∃ g : Char, h < 24 ∧ m < 60 ∧ x < 60 ∧ oh < 20 ∧ om < 60 ∧ (g = '+' ∨ g = '-') ∧
    s = pad2 h ++ ':' :: pad2 m ++ ':' :: pad2 x ++ g :: pad2 oh ++ ':' :: pad2 om)

/-- `yyyy-mm-dd`. -/
def isoDate (y m d : Nat) : Str :=
  pad2 (y / 100) ++ pad2 (y % 100) ++ '-' :: pad2 m ++ '-' :: pad2 d

end Clever.Spec
