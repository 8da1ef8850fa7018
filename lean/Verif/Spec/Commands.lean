import Verif.Model.Standardize
import Verif.Spec.World
import Verif.Spec.ExactFit

/-!
# What the standardize command should do
-/

namespace Clever

/-- The encoding that is used for reading: the given one, or the one that the detector guesses. -/
def World.stdEncoding (sys : Sys) (w : World) (p : Path) (encoding : Option Str) : Option Str :=
  match truthy encoding with
  | some e => some e
  | none => w.guess sys p

/-- The encoding that is used for writing: the target encoding, or the one used for reading. -/
def stdTarget (a : StdArgs) (encoding : Option Str) : Option Str :=
  match truthy a.target with
  | some t => some t
  | none => encoding

end Clever

namespace Clever.Spec

/-- `out` is the standard text for `rows`: what a writer for the excel dialect writes. -/
def StandardText (rows : List (List Str)) (out : Str) : Prop :=
  ∃ wd, mkWriter (.name "excel") = .ok wd ∧ wd.writeRows rows = (out, none)

/-- The rows that are written. -/
def output (transpose : Bool) (rows : List (List Str)) : List (List Str) :=
  if transpose then zipRows rows else rows

/-- `bytes` represent `text` in an encoding. -/
def Encodes (sys : Sys) (encoding : Option Str) (text : Str) (bytes : Bytes) : Prop :=
  ∃ c s, sys.codec encoding = some c ∧ c.encodeFrom 0 text = some (s, bytes)

/-- Reading `out` in the excel dialect gives `rows` if they are readable (each cell, with its quotes, fits the limit), and
otherwise an error for the limit. -/
def ReadsAs (limit : Int) (out : Str) (rows : List (List Str)) : Prop :=
  (CanReadBack limit ',' '"' rows → readText limit (.name "excel") {} out = .ok rows) ∧
  (¬ CanReadBack limit ',' '"' rows → readText limit (.name "excel") {} out = .error (.parse (.fieldLimit limit)))

/-- The file `p`, read in the given encoding, has these rows in the dialect that is detected on the requested
part. -/
def DetectedRows (sys : Sys) (w : World) (p : Path) (enc : Option Str) (numChars : Option Int)
    (rows : List (List Str)) : Prop :=
  ∃ text d, w.text sys p (w.stdEncoding sys p enc) = some text ∧
    (detect sys.env sys.order w.limit (detectionPart text numChars)).result = .ok (some d) ∧
    parseString w.limit d text = (rows, none)

/-- The jobs ran one after the other, with the given outcomes. -/
inductive Ran {Job : Type} (run : Job → Act Nat) : List Job → World → List (Except PyExc Nat) → World → Prop where
  | nil (w : World) : Ran run [] w [] w
  | cons {j : Job} {js : List Job} {w w1 w2 : World} {r : Except PyExc Nat} {rs : List (Except PyExc Nat)} :
      run j w = (r, w1) → Ran run js w1 rs w2 → Ran run (j :: js) w (r :: rs) w2

/-- The arguments are inconsistent. -/
def BadArgs (a : StdArgs) : Prop :=
  (a.inPlace = true ∧ a.outputs ≠ []) ∨
  (a.outputs ≠ [] ∧ a.outputs.length ≠ a.paths.length) ∨
  (a.encodings ≠ [] ∧ a.encodings.length ≠ 1 ∧ a.encodings.length ≠ a.paths.length)

/-- File number `i`, its output and its encoding. -/
def job (a : StdArgs) (i : Nat) : Option (Path × Option Path × Option Str) :=
  a.paths[i]?.map fun p =>
    (p, a.outputs[i]?, if a.encodings.length = 1 then a.encodings[0]? else a.encodings[i]?)

end Clever.Spec
