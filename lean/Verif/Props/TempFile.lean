import Verif.Proofs.TempFile

/-!
# Every failure after the temporary file has been made leaves it behind (C62)
-/

namespace Clever

namespace Props

/-- **C62 is violated by every failure** that comes after the temporary file has been made: in place, a run that raises
has changed no file, or it leaves the temporary file, which was not there before. -/
theorem C62_always_violated (sys : Sys) (a : StdArgs) (hi : a.inPlace = true) (p : Path) (o : Option Path)
    (enc : Option Str) (w w' : World) (e : PyExc) (h : handlePath sys a p o enc w = (.error e, w')) :
    w'.files = w.files ∨ w.files (sys.tempName w.files) = none ∧ w'.files (sys.tempName w.files) ≠ none := by
  rcases handlePath_error h with hf | ⟨text, d, w1, -, -, hf, -, -, h⟩
  · exact .inl hf
  · unfold deliver at h
    rw [hi] at h
    simp only [if_true] at h
    have := inPlace_leaves h
    rw [hf] at this
    exact this

/-- Here the last operation, the move, fails. -/
example :
    let sys := { demoSys with fault := fun i => if i = 8 then some 0 else none }
    let w := demoWorld [("f", "1,5;2\n2,5;3\n")]
    let r := handlePath sys { paths := ["f".toList], inPlace := true } "f".toList none none w
    r.1 = .error .osError ∧ r.2.files "f".toList = w.files "f".toList ∧ w.files "tmp".toList = none ∧
      (r.2.files "tmp".toList).isSome := by
  decide +kernel

end Props

end Clever
