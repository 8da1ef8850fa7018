import Verif.Proofs.World
import Verif.Props.Detector

/-!
# What successful and failing pieces of programs have done, whatever fails
-/

namespace Clever

variable {α β : Type}

theorem bind_inv {m : Act α} {f : α → Act β} {w w' : World} {b : β} (h : (m >>= f) w = (.ok b, w')) :
    ∃ a w1, m w = (.ok a, w1) ∧ f a w1 = (.ok b, w') := by
  rw [act_bind] at h
  rcases hm : m w with ⟨_ | a, w1⟩
  · rw [hm] at h; simp at h
  · rw [hm] at h; exact ⟨a, w1, rfl, h⟩

/-- The paths outside of `P` keep their contents. -/
def Only (P : Path → Prop) (m : Act α) : Prop := ∀ w q, ¬ P q → (m w).2.files q = w.files q

theorem Only.bind {P : Path → Prop} {m : Act α} {f : α → Act β} (hm : Only P m) (hf : ∀ a, Only P (f a)) :
    Only P (m >>= f) := by
  intro w q hq
  rw [act_bind]
  have h1 := hm w q hq
  rcases h : m w with ⟨_ | a, w1⟩
  · rw [h] at h1; exact h1
  · rw [h] at h1; simp only; rw [hf a w1 q hq]; exact h1

theorem Only.mono {P Q : Path → Prop} {m : Act α} (h : Only P m) (hPQ : ∀ q, P q → Q q) : Only Q m :=
  fun w q hq => h w q fun hp => hq (hPQ q hp)

theorem only_pure (P : Path → Prop) (a : α) : Only P (pure a) := fun _ _ _ => rfl

theorem only_raise (P : Path → Prop) (e : PyExc) : Only P (raise e : Act α) := fun _ _ _ => rfl

theorem only_liftExcept (P : Path → Prop) (x : Except PyExc α) : Only P (liftExcept x) := fun _ _ _ => rfl

theorem only_getLimit (P : Path → Prop) : Only P getLimit := fun _ _ _ => rfl

theorem only_printText (P : Path → Prop) (t : Str) :
    Only P (fun w => (.ok (), { w with stdout := w.stdout ++ t }) : Act Unit) := fun _ _ _ => rfl

theorem only_openRead (P : Path → Prop) (sys : Sys) (p : Path) : Only P (openRead sys p) := by
  intro w q _
  rw [openRead_apply]
  cases sys.fault w.ticks <;> simp only
  · cases w.files p <;> rfl
  · rfl

theorem only_openWrite (sys : Sys) (p : Path) : Only (· = p) (openWrite sys p) := by
  intro w q hq
  rw [openWrite_apply]
  cases sys.fault w.ticks <;> simp only
  · rw [World.set_other _ _ hq]; rfl
  · rfl

theorem only_append (sys : Sys) (p : Path) (b : Bytes) : Only (· = p) (append sys p b) := by
  intro w q hq
  rw [append_apply]
  cases sys.fault w.ticks <;> simp only <;> rw [World.set_other _ _ hq] <;> rfl

theorem only_unlink (sys : Sys) (p : Path) : Only (· = p) (unlink sys p) := by
  intro w q hq
  rw [unlink_apply]
  cases sys.fault w.ticks <;> simp only
  · rw [World.set_other _ _ hq]; rfl
  · rfl

theorem only_rename (sys : Sys) (p p' : Path) : Only (fun q => q = p ∨ q = p') (rename sys p p') := by
  intro w q hq
  rw [not_or] at hq
  rw [rename_apply]
  cases sys.fault w.ticks <;> simp only
  · rw [World.set_other _ _ hq.1, World.set_other _ _ hq.2]; rfl
  · rfl

theorem only_move (sys : Sys) (p p' : Path) : Only (fun q => q = p ∨ q = p') (move sys p p') := by
  unfold move
  split
  · exact (only_openRead _ sys p).bind fun b =>
      ((only_openWrite sys p').mono fun q h => .inr h).bind fun _ =>
        ((only_append sys p' b).mono fun q h => .inr h).bind fun _ =>
          (only_unlink sys p).mono fun q h => .inl h
  · exact only_rename sys p p'

theorem only_getCodec (P : Path → Prop) (sys : Sys) (e : Option Str) : Only P (getCodec sys e) := by
  unfold getCodec
  cases sys.codec e
  · exact only_raise _ _
  · exact only_pure _ _

theorem only_openText (P : Path → Prop) (sys : Sys) (p : Path) (e : Option Str) : Only P (openText sys p e) := by
  unfold openText
  refine (only_openRead _ sys p).bind fun b => (only_getCodec _ sys e).bind fun c => ?_
  cases c.decode b
  · exact only_raise _ _
  · exact only_pure _ _

theorem only_writePieces (sys : Sys) (p : Path) (c : Codec) : ∀ (pieces : List Str) (s : Nat),
    Only (· = p) (writePieces sys p c s pieces)
  | [], _ => only_pure _ _
  | x :: xs, s => by
    unfold writePieces
    cases c.encodeFrom s x with
    | none => exact only_raise _ _
    | some r => exact (only_append sys p r.2).bind fun _ => only_writePieces sys p c xs r.1

theorem only_writeGen (sys : Sys) (p : Path) (c : Codec) (g : Gen Str) : Only (· = p) (writeGen sys p c g) := by
  unfold writeGen
  refine (only_writePieces sys p c g.1 0).bind fun _ => ?_
  cases g.2
  · exact only_pure _ _
  · exact only_raise _ _

theorem only_openTextWrite (sys : Sys) (p : Path) (e : Option Str) : Only (· = p) (openTextWrite sys p e) :=
  (only_openWrite sys p).bind fun _ => only_getCodec _ sys e

theorem only_sha1sum (P : Path → Prop) (sys : Sys) (p : Path) : Only P (sha1sum sys p) :=
  (only_openRead _ sys p).bind fun _ => only_pure _ _

theorem only_getEncoding (P : Path → Prop) (sys : Sys) (p : Path) : Only P (getEncoding sys p) :=
  (only_openRead _ sys p).bind fun _ => only_pure _ _

theorem only_runDetector (P : Path → Prop) (sys : Sys) (data : Str) (m : Str) (skip : Bool) :
    Only P (runDetector sys data m skip) := fun _ _ _ => rfl

theorem only_detectDialect (P : Path → Prop) (sys : Sys) (p : Path) (n : Option Int) (e : Option Str) (m : Str)
    (skip : Bool) : Only P (detectDialect sys p n e m skip) := by
  unfold detectDialect
  simp only []
  cases truthy e
  · exact (only_getEncoding _ sys p).bind fun _ => (only_openText _ sys p _).bind fun _ => only_runDetector _ sys _ _ _
  · exact (only_pure _ _).bind fun _ => (only_openText _ sys p _).bind fun _ => only_runDetector _ sys _ _ _

/-! ## What successful operations have done -/

theorem openRead_inv {sys : Sys} {p : Path} {w w' : World} {b : Bytes} (h : openRead sys p w = (.ok b, w')) :
    w.files p = some b ∧ w' = w.next := by
  rw [openRead_apply] at h
  cases hf : sys.fault w.ticks with
  | some k => rw [hf] at h; simp at h
  | none =>
    rw [hf] at h
    cases hb : w.files p with
    | none => rw [hb] at h; simp at h
    | some b' =>
      rw [hb] at h
      simp only [Prod.mk.injEq, Except.ok.injEq] at h
      exact ⟨by rw [h.1], h.2.symm⟩

theorem getCodec_inv {sys : Sys} {e : Option Str} {w w' : World} {c : Codec}
    (h : getCodec sys e w = (.ok c, w')) : sys.codec e = some c ∧ w' = w := by
  rw [getCodec_apply] at h
  cases hc : sys.codec e with
  | none => rw [hc] at h; simp at h
  | some c' =>
    rw [hc] at h
    simp only [Prod.mk.injEq, Except.ok.injEq] at h
    exact ⟨by rw [h.1], h.2.symm⟩

theorem openText_inv {sys : Sys} {p : Path} {e : Option Str} {w w' : World} {text : Str}
    (h : openText sys p e w = (.ok text, w')) : w.text sys p e = some text ∧ w' = w.next := by
  unfold openText at h
  obtain ⟨b, w1, h1, h⟩ := bind_inv h
  obtain ⟨c, w2, h2, h⟩ := bind_inv h
  obtain ⟨h1', rfl⟩ := openRead_inv h1
  obtain ⟨h2', rfl⟩ := getCodec_inv h2
  cases hd : c.decode b with
  | none => rw [hd] at h; simp at h
  | some t =>
    rw [hd] at h
    simp only [act_pure, Prod.mk.injEq, Except.ok.injEq] at h
    refine ⟨?_, h.2.symm⟩
    unfold World.text
    rw [h1', h2', ← h.1]
    simpa using hd

theorem append_inv {sys : Sys} {p : Path} {b : Bytes} {w w' : World} {u : Unit}
    (h : append sys p b w = (.ok u, w')) : w' = w.next.set p (some ((w.files p).getD [] ++ b)) := by
  rw [append_apply] at h
  cases hf : sys.fault w.ticks with
  | some k => rw [hf] at h; simp at h
  | none => rw [hf] at h; simp only [Prod.mk.injEq] at h; exact h.2.symm

theorem openWrite_inv {sys : Sys} {p : Path} {w w' : World} {u : Unit}
    (h : openWrite sys p w = (.ok u, w')) : w' = w.next.set p (some []) := by
  rw [openWrite_apply] at h
  cases hf : sys.fault w.ticks with
  | some k => rw [hf] at h; simp at h
  | none => rw [hf] at h; simp only [Prod.mk.injEq] at h; exact h.2.symm

theorem unlink_inv {sys : Sys} {p : Path} {w w' : World} {u : Unit}
    (h : unlink sys p w = (.ok u, w')) : w' = w.next.set p none := by
  rw [unlink_apply] at h
  cases hf : sys.fault w.ticks with
  | some k => rw [hf] at h; simp at h
  | none => rw [hf] at h; simp only [Prod.mk.injEq] at h; exact h.2.symm

theorem mkstemp_inv {sys : Sys} {p : Path} {w w' : World} (h : mkstemp sys w = (.ok p, w')) :
    p = sys.tempName w.files ∧ w.files p = none ∧ w' = w.next.set p (some []) := by
  rw [mkstemp_apply] at h
  cases hf : sys.fault w.ticks with
  | some k => rw [hf] at h; simp at h
  | none =>
    rw [hf] at h
    simp only at h
    split at h
    · rename_i hn
      simp only [Prod.mk.injEq, Except.ok.injEq] at h
      obtain ⟨rfl, rfl⟩ := h
      exact ⟨rfl, hn, rfl⟩
    · simp at h

theorem writePieces_inv {sys : Sys} {p : Path} {c : Codec} : ∀ {pieces : List Str} {s : Nat} {w w' : World}
    {old : Bytes} {u : Unit}, w.files p = some old → writePieces sys p c s pieces w = (.ok u, w') →
    ∃ s' b, c.encodeFrom s pieces.flatten = some (s', b) ∧ w'.files p = some (old ++ b) ∧
      w'.limit = w.limit ∧ w'.stdout = w.stdout
  | [], s, w, w', old, u, ho, h => by
    simp only [writePieces, act_pure, Prod.mk.injEq] at h
    exact ⟨s, [], rfl, by rw [← h.2, ho, List.append_nil], by rw [h.2], by rw [h.2]⟩
  | x :: xs, s, w, w', old, u, ho, h => by
    unfold writePieces at h
    cases hx : c.encodeFrom s x with
    | none => rw [hx] at h; simp at h
    | some r =>
      rcases r with ⟨s1, b1⟩
      rw [hx] at h
      simp only at h
      obtain ⟨_, w1, h1, h2⟩ := bind_inv h
      have hw := append_inv h1
      rw [ho, Option.getD_some] at hw
      subst hw
      obtain ⟨s2, b2, h3, h4, h5, h6⟩ := writePieces_inv (old := old ++ b1) (by simp) h2
      refine ⟨s2, b1 ++ b2, ?_, by rw [h4, List.append_assoc], by simpa using h5, by simpa using h6⟩
      rw [List.flatten_cons, encodeFrom_append, hx, Option.bind_some, h3]
      rfl

theorem writeGen_inv {sys : Sys} {p : Path} {c : Codec} {g : Gen Str} {w w' : World} {old : Bytes} {u : Unit}
    (ho : w.files p = some old) (h : writeGen sys p c g w = (.ok u, w')) :
    g.2 = none ∧ ∃ s' b, c.encodeFrom 0 g.1.flatten = some (s', b) ∧ w'.files p = some (old ++ b) ∧
      w'.limit = w.limit ∧ w'.stdout = w.stdout := by
  unfold writeGen at h
  obtain ⟨_, w1, h1, h⟩ := bind_inv h
  obtain ⟨s', b, h2, h3, h4, h5⟩ := writePieces_inv ho h1
  cases hg : g.2 with
  | some e => rw [hg] at h; simp at h
  | none =>
    rw [hg] at h
    simp only [act_pure, Prod.mk.injEq] at h
    rw [← h.2]
    exact ⟨rfl, s', b, h2, h3, h4, h5⟩

theorem sha1sum_inv {sys : Sys} {p : Path} {w w' : World} {x : Str} (h : sha1sum sys p w = (.ok x, w')) :
    ∃ b, w.files p = some b ∧ x = sys.sha1 (sha1Input 65536 b) ∧ w' = w.next := by
  unfold sha1sum at h
  obtain ⟨b, w1, h1, h⟩ := bind_inv h
  obtain ⟨h1', rfl⟩ := openRead_inv h1
  simp only [act_pure, Prod.mk.injEq, Except.ok.injEq] at h
  exact ⟨b, h1', h.1.symm, h.2.symm⟩

theorem getEncoding_inv {sys : Sys} {p : Path} {w w' : World} {x : Option Str}
    (h : getEncoding sys p w = (.ok x, w')) : x = w.guess sys p ∧ w' = w.next := by
  unfold getEncoding at h
  obtain ⟨b, w1, h1, h⟩ := bind_inv h
  obtain ⟨h1', rfl⟩ := openRead_inv h1
  simp only [act_pure, Prod.mk.injEq, Except.ok.injEq] at h
  refine ⟨?_, h.2.symm⟩
  unfold World.guess
  rw [h1', ← h.1]
  rfl

theorem liftExcept_inv {x : Except PyExc α} {w w' : World} {a : α} (h : liftExcept x w = (.ok a, w')) :
    x = .ok a ∧ w' = w := by
  simp only [liftExcept_apply, Prod.mk.injEq] at h
  exact ⟨h.1, h.2.symm⟩

/-- What a successful move has done, on the same or another file system. -/
theorem move_inv {sys : Sys} {p q : Path} (hpq : p ≠ q) {w w' : World} {u : Unit} {b : Bytes}
    (hb : w.files p = some b) (h : move sys p q w = (.ok u, w')) :
    w'.files q = some b ∧ w'.files p = none ∧ w'.limit = w.limit ∧ w'.stdout = w.stdout := by
  unfold move at h
  split at h
  · obtain ⟨b', w1, h1, h⟩ := bind_inv h
    obtain ⟨h1', rfl⟩ := openRead_inv h1
    rw [hb] at h1'
    cases h1'
    obtain ⟨_, w2, h2, h⟩ := bind_inv h
    have := openWrite_inv h2
    subst this
    obtain ⟨_, w3, h3, h⟩ := bind_inv h
    have := append_inv h3
    subst this
    have := unlink_inv h
    subst this
    refine ⟨?_, by simp, rfl, rfl⟩
    rw [World.set_other _ _ (Ne.symm hpq)]
    simp
  · rw [rename_apply] at h
    cases hf : sys.fault w.ticks with
    | some k => rw [hf] at h; simp at h
    | none =>
      rw [hf] at h
      simp only [Prod.mk.injEq] at h
      rw [← h.2]
      refine ⟨?_, by simp, rfl, rfl⟩
      rw [World.set_other _ _ (Ne.symm hpq)]
      simp [hb]

/-- A move that raises has not changed the target, or its source is still there. -/
theorem move_error {sys : Sys} {p q : Path} (hpq : p ≠ q) {w w' : World} {e : PyExc}
    (h : move sys p q w = (.error e, w')) :
    w'.files q = w.files q ∧ w'.files p = w.files p ∨ sys.crossDevice = true ∧ w'.files p = w.files p := by
  unfold move at h
  split at h
  · rename_i hc
    right
    refine ⟨hc, ?_⟩
    rw [act_bind] at h
    rcases h1 : openRead sys p w with ⟨_ | b, w1⟩
    · have := only_openRead (fun _ => False) sys p w p id
      rw [h1] at h this
      simp only [Prod.mk.injEq] at h
      rw [← h.2]; exact this
    · rw [h1] at h
      simp only at h
      obtain ⟨-, rfl⟩ := openRead_inv h1
      rw [act_bind] at h
      rcases h2 : openWrite sys q w.next with ⟨_ | _, w2⟩
      · have := only_openWrite sys q w.next p hpq
        rw [h2] at h this
        simp only [Prod.mk.injEq] at h
        rw [← h.2]; exact this
      · have h2' := only_openWrite sys q w.next p hpq
        rw [h2] at h h2'
        simp only at h h2'
        rw [act_bind] at h
        rcases h3 : append sys q b w2 with ⟨_ | _, w3⟩
        · have := only_append sys q b w2 p hpq
          rw [h3] at h this
          simp only [Prod.mk.injEq] at h
          rw [← h.2, this, h2']
          rfl
        · have h3' := only_append sys q b w2 p hpq
          rw [h3] at h h3'
          simp only at h h3'
          rw [unlink_apply] at h
          cases hf : sys.fault w3.ticks with
          | none => rw [hf] at h; simp at h
          | some k =>
            rw [hf] at h
            simp only [Prod.mk.injEq] at h
            rw [← h.2, World.next_files, h3', h2']
            rfl
  · left
    rw [rename_apply] at h
    cases hf : sys.fault w.ticks with
    | none => rw [hf] at h; simp at h
    | some k =>
      rw [hf] at h
      simp only [Prod.mk.injEq] at h
      rw [← h.2]
      exact ⟨rfl, rfl⟩

end Clever
