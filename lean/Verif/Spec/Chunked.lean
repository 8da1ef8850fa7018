import Verif.Model.Chunked
import Verif.Spec.Streams
import Verif.Spec.Commands

/-!
# Reading in chunks and writing through a buffer: what is assumed of the system
-/

namespace Clever.Spec

open Clever

/-- The reads give the bytes of the file, up to a read that fails; the incremental decoders agree with the codecs. -/
structure IoOk (sys : Sys) (io : Io) : Prop where
  nonempty : ∀ k b, [] ∉ (io.reads k b).1
  start : ∀ k b, (io.reads k b).1.flatten <+: b
  whole : ∀ k b, (io.reads k b).2 = false → (io.reads k b).1.flatten = b
  decoder : ∀ e c, sys.codec e = some c → ∃ d, io.decoder e = some d ∧ ∀ b, c.decode b = d.whole b
  lookup : ∀ e, sys.codec e = none → io.decoder e = none

/-- No read fails. -/
def IoQuiet (io : Io) : Prop := ∀ k b, (io.reads k b).2 = false

/-- The same system without faults. -/
def quiet (sys : Sys) : Sys := { sys with fault := fun _ => none }

end Clever.Spec
