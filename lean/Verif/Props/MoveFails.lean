import Verif.Props.Standardize
import Verif.Proofs.MoveFails

/-!
# How much of the file a failure can damage (C63)
-/

namespace Clever
namespace Props

open Spec

/-- **C63 between file systems**, what remains true: after a failure at any operation the file has its old contents, or it
has the first bytes of the new contents, and then the temporary file has all of them. -/
theorem C63_damage_partial (sys : Sys) (a : StdArgs) (hi : a.inPlace = true) (p : Path) (o : Option Path)
    (enc : Option Str) (w w' : World) (e : PyExc) (h : handlePath sys a p o enc w = (.error e, w')) :
    w'.files p = w.files p ∨
    sys.crossDevice = true ∧ ∃ rows out b k, DetectedRows sys w p enc a.numChars rows ∧
      StandardText (Spec.output a.transpose rows) out ∧
      Encodes sys (stdTarget a (w.stdEncoding sys p enc)) out b ∧
      w'.files (sys.tempName w.files) = some b ∧ w'.files p = some (b.take k) := by
  obtain ⟨-, h2 | ⟨hc, rows, out, b, h3, h4, h5, h6⟩⟩ := C54_failure sys a hi p o enc w w' e h
  · exact .inl h2
  rcases handlePath_error h with hf | ⟨text, d, w1, h1, -, hf, -, -, h⟩
  · exact .inl (by rw [hf])
  · unfold deliver at h
    rw [hi] at h
    simp only [if_true] at h
    obtain ⟨old, ho⟩ := text_some h1
    have hd := inPlace_damage (by rw [hf]; exact ho) h
    rw [hf] at hd
    rcases hd with hd | ⟨b', k, hb', hk⟩
    · exact .inl hd
    · rw [h6] at hb'
      cases hb'
      exact .inr ⟨hc, rows, out, b, k, h3, h4, h5, h6, hk⟩

/-- Here the copy fails after three bytes. -/
example :
    let sys := { demoSys with crossDevice := true, fault := fun i => if i = 10 then some 3 else none }
    let r := handlePath sys { paths := ["f".toList], inPlace := true } "f".toList none none
      (demoWorld [("f", "1,5;2\n2,5;3\n")])
    r.1 = .error .osError ∧ r.2.text sys "f".toList none = some "\"1,".toList ∧
      r.2.text sys "tmp".toList none = some "\"1,5\",2\r\n\"2,5\",3\r\n".toList := by
  decide +kernel

end Props
end Clever
