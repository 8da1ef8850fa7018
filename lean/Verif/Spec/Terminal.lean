import Verif.Model.Terminal

/-!
# Specification: what reaches standard output
-/

namespace Clever.Spec

/-- The texts have been written, one after the other. -/
inductive Written (t : Terminal) : Screen → List Str → Screen → Prop where
  | nil (s : Screen) : Written t s [] s
  | cons {s s' : Screen} {x : Str} {xs : List Str} {e : Nat} {b : Bytes}
      (h : t.codec.encodeFrom s.enc (x.flatMap fun c => if c = '\n' then t.linesep else [c]) = some (e, b))
      (h' : Written t { enc := e, bytes := s.bytes ++ b } xs s') : Written t s (x :: xs) s'

/-- The text cannot be written: a character is not in the encoding. -/
def Unwritable (t : Terminal) (s : Screen) (x : Str) : Prop :=
  t.codec.encodeFrom s.enc (x.flatMap fun c => if c = '\n' then t.linesep else [c]) = none

/-- A program with this outcome if everything can be printed has this outcome on a terminal: it prints the same texts, unless
one of them cannot be written; then this raises `UnicodeEncodeError`, and the texts before have been written.  There are at most
`k` texts. -/
def OnTerminal {α : Type} (t : Terminal) (k : Nat) (w : World) (s : Screen) (plain : Except PyExc α × World)
    (real : Except PyExc α × World × Screen) : Prop :=
  ∃ texts : List Str, texts.length ≤ k ∧ plain.2.stdout = w.stdout ++ texts.flatten ∧
    ((∃ s', Written t s texts s' ∧ real = (plain.1, plain.2, s')) ∨
     (∃ before x after s', texts = before ++ x :: after ∧ Written t s before s' ∧ Unwritable t s' x ∧
       real.1 = .error .unicodeError ∧ real.2.1.stdout = w.stdout ++ before.flatten ∧ real.2.2 = s'))

/-- The encoding has all characters. -/
def HasAll (c : Codec) : Prop := ∀ s x, (c.step s x).isSome

/-- The encoding has all ASCII characters. -/
def HasAscii (c : Codec) : Prop := ∀ s (x : Char), x.toNat < 128 → (c.step s x).isSome

end Clever.Spec
