import Verif.Proofs.TempFile

/-!
# What a failing `shutil.move` leaves (for C63)
-/

namespace Clever

variable {α β : Type}

/-- After a failure of `shutil.move` the target is as before, or it has the beginning of the source, which is intact. -/
theorem move_damage {sys : Sys} {p q : Path} (hpq : q ≠ p) {w w' : World} {e : PyExc}
    (h : move sys p q w = (.error e, w')) :
    w'.files q = w.files q ∨ ∃ b k, w'.files p = some b ∧ w'.files q = some (b.take k) := by
  unfold move at h
  split at h
  · rcases bind_error_inv h with h | ⟨b, w1, h1, h⟩
    · left
      have := only_openRead (fun _ => False) sys p w q id
      rw [h] at this
      exact this
    obtain ⟨hb, rfl⟩ := openRead_inv h1
    rcases bind_error_inv h with h | ⟨u, w2, h2, h⟩
    · left
      rw [openWrite_apply] at h
      split at h <;> cases h
      rfl
    have hw2 : w2.files p = some b ∧ w2.files q = some [] := by
      rw [openWrite_apply] at h2
      split at h2 <;> cases h2
      refine ⟨?_, by simp⟩
      rw [World.set_other _ _ (Ne.symm hpq)]
      exact hb
    right
    rcases bind_error_inv h with h | ⟨u, w3, h3, h⟩
    · rw [append_apply] at h
      cases hf : sys.fault w2.ticks with
      | none => rw [hf] at h; cases h
      | some k =>
      rw [hf] at h
      cases h
      refine ⟨b, k, ?_, ?_⟩
      · rw [World.set_other _ _ (Ne.symm hpq)]
        exact hw2.1
      · simp only [World.set_self, hw2.2, Option.getD_some, List.nil_append]
    · rw [append_apply] at h3
      split at h3 <;> cases h3
      rw [unlink_apply] at h
      split at h <;> cases h
      refine ⟨b, b.length, ?_, ?_⟩
      · show (World.set _ q _).files p = _
        rw [World.set_other _ _ (Ne.symm hpq)]
        exact hw2.1
      · show (World.set _ q _).files q = _
        simp [hw2.2]
  · left
    rw [rename_apply] at h
    split at h <;> cases h
    rfl

/-- The end of a run that failed: the file is as in `old`, or it has the beginning of the temporary file. -/
def EndsWell (p tmp : Path) (old : Option Bytes) (m : Act α) : Prop :=
  ∀ w e w', w.files p = old → m w = (.error e, w') →
    w'.files p = old ∨ ∃ b k, w'.files tmp = some b ∧ w'.files p = some (b.take k)

theorem Only.endsWell {p tmp : Path} (hp : p ≠ tmp) {old : Option Bytes} {m : Act α} {f : α → Act β}
    (hm : Only (· = tmp) m) (hf : ∀ a, EndsWell p tmp old (f a)) : EndsWell p tmp old (m >>= f) := by
  intro w e w' hw h
  have hmw := hm w p hp
  rcases bind_error_inv h with h | ⟨a, w1, h1, h⟩
  · rw [h] at hmw
    exact .inl (hmw.trans hw)
  · rw [h1] at hmw
    exact hf a w1 e w' (hmw.trans hw) h

theorem endsWell_return {p tmp : Path} {old : Option Bytes} {m : Act α} (f : α → β)
    (hm : EndsWell p tmp old m) : EndsWell p tmp old (m >>= fun a => pure (f a)) := by
  intro w e w' hw h
  rcases bind_error_inv h with h | ⟨_, _, _, h⟩
  · exact hm w e w' hw h
  · cases h

/-- If `_in_place` fails, the file is as before, or it has the beginning of the temporary file. -/
theorem inPlace_damage {sys : Sys} {t : Bool} {p : Path} {d : SimpleDialect} {enc target : Option Str}
    {w w' : World} {e : PyExc} {old : Bytes} (ho : w.files p = some old)
    (h : inPlace sys t p d enc target w = (.error e, w')) :
    w'.files p = w.files p ∨
      ∃ b k, w'.files (sys.tempName w.files) = some b ∧ w'.files p = some (b.take k) := by
  unfold inPlace at h
  rcases bind_error_inv h with h | ⟨tmp, w1, h1, h⟩
  · left
    rw [mkstemp_apply] at h
    cases hf : sys.fault w.ticks with
    | some k => rw [hf] at h; cases h; rfl
    | none =>
      rw [hf] at h
      simp only at h
      split at h
      · cases h
      · cases h; rfl
  · obtain ⟨htmp, hfresh, rfl⟩ := mkstemp_inv h1
    rw [← htmp]
    have hp : p ≠ tmp := by rintro rfl; rw [ho] at hfresh; simp at hfresh
    refine (only_getCodec _ sys target).endsWell hp (fun c => ?_) _ e w' (by rw [World.set_other _ _ hp]; rfl) h
    refine (only_writeToStream _ sys t p d enc).endsWell hp fun g => ?_
    refine (only_writeGen sys tmp c g).endsWell hp fun _ => ?_
    refine (only_sha1sum _ sys p).endsWell hp fun s => ?_
    refine (only_sha1sum _ sys tmp).endsWell hp fun s' => ?_
    split
    · refine endsWell_return _ fun w e w' hw h => .inl ?_
      rw [unlink_apply] at h
      split at h <;> cases h
      exact hw
    · refine endsWell_return _ fun w2 e w' hw h => ?_
      rw [← hw]
      exact move_damage hp h

end Clever
