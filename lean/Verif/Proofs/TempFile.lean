import Verif.Proofs.StandardizeCmd

/-!
# Actions that keep a file, and a failing `_in_place` (for C62)
-/

namespace Clever

variable {α β : Type}

/-- After the action a file that existed still exists. -/
def KeepsFile (q : Path) (m : Act α) : Prop := ∀ w, w.files q ≠ none → (m w).2.files q ≠ none

/-- The same, if the action fails. -/
def KeepsFailing (q : Path) (m : Act α) : Prop :=
  ∀ w e w', w.files q ≠ none → m w = (.error e, w') → w'.files q ≠ none

theorem Only.keeps {m : Act α} {q : Path} (h : Only (fun _ => False) m) : KeepsFile q m := by
  intro w hw
  rw [h w q id]
  exact hw

theorem KeepsFile.bind_failing {q : Path} {m : Act α} {f : α → Act β} (hm : KeepsFile q m) (hf : ∀ a, KeepsFailing q (f a)) :
    KeepsFailing q (m >>= f) := by
  intro w e w' hw h
  have hmw := hm w hw
  rcases bind_error_inv h with h | ⟨a, w1, h1, h⟩
  · rw [h] at hmw
    exact hmw
  · rw [h1] at hmw
    exact hf a w1 e w' hmw h

theorem KeepsFile.bind {q : Path} {m : Act α} {f : α → Act β} (hm : KeepsFile q m) (hf : ∀ a, KeepsFile q (f a)) :
    KeepsFile q (m >>= f) := by
  intro w hw
  have hmw := hm w hw
  rw [act_bind]
  rcases hr : m w with ⟨e | a, w1⟩
  · rw [hr] at hmw; exact hmw
  · rw [hr] at hmw; exact hf a w1 hmw

theorem KeepsFile.failing {q : Path} {m : Act α} (h : KeepsFile q m) : KeepsFailing q m := by
  intro w e w' hw hm
  have := h w hw
  rw [hm] at this
  exact this

theorem keeps_append (sys : Sys) (p q : Path) (b : Bytes) : KeepsFile q (append sys p b) := by
  intro w hw
  rw [append_apply]
  by_cases hq : q = p
  · subst hq
    cases sys.fault w.ticks <;> simp
  · cases sys.fault w.ticks <;> simp only <;> rw [World.set_other _ _ hq] <;> exact hw

theorem keeps_openWrite (sys : Sys) (p q : Path) : KeepsFile q (openWrite sys p) := by
  intro w hw
  rw [openWrite_apply]
  cases sys.fault w.ticks with
  | some k => exact hw
  | none =>
    by_cases hq : q = p
    · subst hq; simp
    · simp only
      rw [World.set_other _ _ hq]
      exact hw

theorem keeps_writePieces (sys : Sys) (p q : Path) (c : Codec) :
    ∀ (l : List Str) (s : Nat), KeepsFile q (writePieces sys p c s l)
  | [], _ => fun _ hw => hw
  | x :: xs, s => by
    intro w hw
    unfold writePieces
    cases hc : c.encodeFrom s x with
    | none => exact hw
    | some r => exact (keeps_append sys p q r.2).bind (fun _ => keeps_writePieces sys p q c xs r.1) w hw

theorem keeps_writeGen (sys : Sys) (p q : Path) (c : Codec) (g : Gen Str) : KeepsFile q (writeGen sys p c g) :=
  (keeps_writePieces sys p q c g.1 0).bind fun _ => by
    cases g.2 <;> exact fun _ hw => hw

theorem keepsFailing_unlink (sys : Sys) (p q : Path) : KeepsFailing q (unlink sys p) := by
  intro w e w' hw h
  rw [unlink_apply] at h
  cases hf : sys.fault w.ticks with
  | some k => rw [hf] at h; cases h; exact hw
  | none => rw [hf] at h; cases h

theorem keepsFailing_move (sys : Sys) (p q r : Path) : KeepsFailing r (move sys p q) := by
  unfold move
  split
  · exact (Only.keeps (only_openRead _ sys p)).bind_failing fun b => (keeps_openWrite sys q r).bind_failing fun _ =>
      (keeps_append sys q r b).bind_failing fun _ => keepsFailing_unlink sys p r
  · intro w e w' hw h
    rw [rename_apply] at h
    cases hf : sys.fault w.ticks with
    | some k => rw [hf] at h; cases h; exact hw
    | none => rw [hf] at h; cases h

/-- If `_in_place` fails, nothing has changed, or the temporary file is still there. -/
theorem inPlace_leaves {sys : Sys} {t : Bool} {p : Path} {d : SimpleDialect} {enc target : Option Str}
    {w w' : World} {e : PyExc} (h : inPlace sys t p d enc target w = (.error e, w')) :
    w'.files = w.files ∨ w.files (sys.tempName w.files) = none ∧ w'.files (sys.tempName w.files) ≠ none := by
  unfold inPlace at h
  rcases bind_error_inv h with h | ⟨tmp, w1, h1, h⟩
  · left
    rw [mkstemp_apply] at h
    cases hf : sys.fault w.ticks with
    | some k => rw [hf] at h; cases h; rfl
    | none =>
      rw [hf] at h
      simp only at h
      split at h
      · cases h
      · cases h; rfl
  · right
    obtain ⟨htmp, hfresh, rfl⟩ := mkstemp_inv h1
    rw [← htmp]
    refine ⟨hfresh, ?_⟩
    refine (Only.keeps (only_getCodec _ sys target)).bind_failing (fun c => ?_) _ e w' (by simp) h
    refine (Only.keeps (only_writeToStream _ sys t p d enc)).bind_failing fun g => ?_
    refine (keeps_writeGen sys tmp tmp c g).bind_failing fun _ => ?_
    refine (Only.keeps (only_sha1sum _ sys p)).bind_failing fun s => ?_
    refine (Only.keeps (only_sha1sum _ sys tmp)).bind_failing fun s' => ?_
    split
    · intro w e w' hw h
      rcases bind_error_inv h with h | ⟨_, _, _, h⟩
      · exact keepsFailing_unlink sys tmp tmp w e w' hw h
      · cases h
    · intro w e w' hw h
      rcases bind_error_inv h with h | ⟨_, _, _, h⟩
      · exact keepsFailing_move sys tmp p tmp w e w' hw h
      · cases h

end Clever
