import Verif.Model.Streams
import Verif.Model.Lines

/-!
# Reading in chunks: what is to be delivered
-/

namespace Clever.Spec

open Clever

/-- The whole file can be read and decoded, and its text is `t`. -/
def Readable (f : TextIn) (t : Str) : Prop :=
  f.fails = false ∧ ∃ s, f.dec.feed 0 f.chunks.flatten = some (s, t) ∧ f.dec.atEnd s = true

/-- The text of the chunks before the error `e` is `t`: a chunk that cannot be decoded, a read that fails, or an end in the
middle of a character. -/
def Breaks (f : TextIn) (t : Str) (e : PyExc) : Prop :=
  ∃ good s, f.dec.feed 0 good.flatten = some (s, t) ∧
    ((∃ c bad, f.chunks = good ++ c :: bad ∧ f.dec.feed s c = none ∧ e = .unicodeError) ∨
      (f.chunks = good ∧ f.fails = true ∧ e = .osError) ∨
      (f.chunks = good ∧ f.fails = false ∧ f.dec.atEnd s = false ∧ e = .unicodeError))

/-- The lines of a text that have ended for certain, however it goes on: a line does not end in CR if LF comes next. -/
def endedLines (t : Str) : List Str := if t.getLast? = some '\n' then linesUniv t else (linesUniv t).dropLast

/-- The characters of a text that are certain to be delivered: a CR at the end has to wait. -/
def settled (t : Str) : Str := if t.getLast? = some '\r' then t.dropLast else t

/-- A file that has just been opened. -/
def Fresh (f : TextIn) : Prop := f.state = 0 ∧ f.cr = false ∧ f.chars = [] ∧ [] ∉ f.chunks

end Clever.Spec
