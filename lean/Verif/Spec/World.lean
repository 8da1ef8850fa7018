import Verif.Model.Wrappers

/-!
# Texts and encodings of files
-/

namespace Clever

/-- The text of a file in an encoding. -/
def World.text (sys : Sys) (w : World) (p : Path) (encoding : Option Str) : Option Str :=
  (w.files p).bind fun b => (sys.codec encoding).bind fun c => c.decode b

/-- What `get_encoding` returns for a file. -/
def World.guess (sys : Sys) (w : World) (p : Path) : Option Str :=
  (w.files p).bind fun b => sys.sniffer.result (sniffRun sys.sniffer 65536 b).1

/-- The encoding that the wrappers use: the given one, or a guess. -/
def World.encodingFor (sys : Sys) (w : World) (p : Path) (encoding : Option Str) : Option Str :=
  match encoding with
  | some e => some e
  | none => w.guess sys p

end Clever

namespace Clever.Spec

/-- The part of the text that should be used for detection. -/
def detectionPart (text : Str) (numChars : Option Int) : Str :=
  match numChars with
  | none => text
  | some n => if 0 < n then text.take n.toNat else text

end Clever.Spec
