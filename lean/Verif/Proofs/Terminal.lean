import Verif.Spec.Terminal
import Verif.Proofs.ChunkedRun

/-!
# Helper lemmas: standard output in an encoding
-/

namespace Clever

open Spec

variable {α β : Type} {t : Terminal}

theorem actE_bind (m : ActE α) (f : α → ActE β) (w : World) (s : Screen) : (m >>= f) w s =
    match m w s with
    | (.ok a, w', s') => f a w' s'
    | (.error e, w', s') => (.error e, w', s') := rfl

theorem written_append {s s1 s2 : Screen} {xs ys : List Str} (h : Written t s xs s1) (h' : Written t s1 ys s2) :
    Written t s (xs ++ ys) s2 := by
  induction h with
  | nil => exact h'
  | cons h1 _ ih => exact .cons h1 (ih h')

/-- The two versions of a program belong together, with at most `k` calls of `write`. -/
def Sim (t : Terminal) (k : Nat) (m : Act α) (n : ActE α) : Prop := ∀ w s, OnTerminal t k w s (m w) (n w s)

theorem Sim.mono {k l : Nat} {m : Act α} {n : ActE α} (h : Sim t k m n) (hkl : k ≤ l) : Sim t l m n := by
  intro w s
  obtain ⟨texts, h0, h⟩ := h w s
  exact ⟨texts, h0.trans hkl, h⟩

theorem Sim.bind {k l : Nat} {m : Act α} {n : ActE α} {f : α → Act β} {g : α → ActE β} (h : Sim t k m n)
    (hf : ∀ a, Sim t l (f a) (g a)) : Sim t (k + l) (m >>= f) (n >>= g) := by
  intro w s
  obtain ⟨texts, h0, h1, h2⟩ := h w s
  rw [act_bind, actE_bind]
  rcases hm : m w with ⟨r, w1⟩
  rw [hm] at h1 h2
  simp only at h1 h2
  rcases h2 with ⟨s1, h2, h3⟩ | ⟨before, x, after, s1, rfl, h2, h3, h4, h5, h6⟩
  · rw [h3]
    cases r with
    | error e => exact ⟨texts, by omega, h1, .inl ⟨s1, h2, rfl⟩⟩
    | ok a =>
      simp only
      obtain ⟨texts2, k0, k1, k2⟩ := hf a w1 s1
      refine ⟨texts ++ texts2, by rw [List.length_append]; omega, by rw [k1, h1]; simp, ?_⟩
      rcases k2 with ⟨s2, k2, k3⟩ | ⟨before, x, after, s2, rfl, k2, k3, k4, k5, k6⟩
      · exact .inl ⟨s2, written_append h2 k2, k3⟩
      · exact .inr ⟨texts ++ before, x, after, s2, by simp, written_append h2 k2, k3, k4, by rw [k5, h1]; simp, k6⟩
  · rcases hn : n w s with ⟨r', w2, s2⟩
    rw [hn] at h4 h5 h6
    simp only at h4 h5 h6
    subst h4 h6
    simp only
    cases r with
    | error e => exact ⟨_, by omega, h1, .inr ⟨before, x, after, s2, rfl, h2, h3, rfl, h5, rfl⟩⟩
    | ok a =>
      simp only
      obtain ⟨texts2, k0, k1, -⟩ := hf a w1 s2
      exact ⟨before ++ x :: (after ++ texts2), by simp at h0 ⊢; omega, by rw [k1, h1]; simp,
        .inr ⟨before, x, after ++ texts2, s2, rfl, h2, h3, rfl, h5, rfl⟩⟩

theorem sim_silently {m : Act α} (h : Silent m) : Sim t 0 m (silently m) :=
  fun w s => ⟨[], Nat.le_refl _, by simp [h w], .inl ⟨s, .nil s, rfl⟩⟩

theorem Sim.silent {k : Nat} {m : Act α} {f : α → Act β} {g : α → ActE β} (h : Silent m)
    (hf : ∀ a, Sim t k (f a) (g a)) : Sim t k (m >>= f) (silently m >>= g) :=
  ((sim_silently h).bind hf).mono (by omega)

theorem sim_pure (a : α) : Sim t 0 (pure a : Act α) (pure a) :=
  fun w s => ⟨[], Nat.le_refl _, by simp [act_pure], .inl ⟨s, .nil s, rfl⟩⟩

theorem sim_write (x : Str) : Sim t 1 (printText x) (writeOut t x) := by
  intro w s
  refine ⟨[x], Nat.le_refl _, by simp [printText], ?_⟩
  unfold writeOut Terminal.newlines replaceChar
  cases h : t.codec.encodeFrom s.enc (x.flatMap fun c => if c = '\n' then t.linesep else [c]) with
  | none => exact .inr ⟨[], x, [], s, rfl, .nil s, h, rfl, by simp, rfl⟩
  | some r =>
    obtain ⟨e, b⟩ := r
    exact .inl ⟨_, .cons h (.nil _), rfl⟩

theorem printText_append (x y : Str) : printText (x ++ y) = (printText x >>= fun _ => printText y) := by
  funext w
  simp [printText, act_bind]

theorem sim_line (x : Str) : Sim t 2 (printText (x ++ ['\n'])) (printLineE t x) := by
  rw [printText_append]
  exact (sim_write x).bind fun _ => sim_write _

theorem sim_lines : ∀ ls : List Str,
    Sim t (2 * ls.length) (printText (ls.flatMap fun l => l ++ ['\n'])) (printLinesE t ls)
  | [] => by
    have : printText (([] : List Str).flatMap fun l => l ++ ['\n']) = pure () := by
      funext w
      simp [printText, act_pure]
    rw [this]
    exact sim_pure ()
  | l :: ls => by
    rw [List.flatMap_cons, printText_append]
    exact ((sim_line l).bind fun _ => sim_lines ls).mono (by simp; omega)

section
variable (sys : Sys)

theorem silent_raise (e : PyExc) : Silent (raise e : Act α) := fun _ => rfl

theorem silent_tick : Silent (tick sys) := fun _ => rfl

theorem silent_openWrite (p : Path) : Silent (openWrite sys p) := by
  intro w
  rw [openWrite_apply]
  cases sys.fault w.ticks <;> rfl

theorem silent_append (p : Path) (b : Bytes) : Silent (append sys p b) := by
  intro w
  rw [append_apply]
  cases sys.fault w.ticks <;> rfl

theorem silent_unlink (p : Path) : Silent (unlink sys p) := by
  intro w
  rw [unlink_apply]
  cases sys.fault w.ticks <;> rfl

theorem silent_move (p q : Path) : Silent (move sys p q) := by
  unfold move
  split
  · exact (silent_openRead sys p).bind fun b => (silent_openWrite sys q).bind fun _ => (silent_append sys q b).bind fun _ =>
      silent_unlink sys p
  · intro w
    rw [rename_apply]
    cases sys.fault w.ticks <;> rfl

theorem silent_mkstemp : Silent (mkstemp sys) := by
  refine (silent_tick sys).bind fun x => ?_
  cases x with
  | some k => exact silent_raise _
  | none =>
    intro w
    simp only
    split <;> rfl

theorem silent_codec (e : Option Str) : Silent (getCodec sys e) := by
  unfold getCodec
  split
  · exact silent_raise _
  · exact silent_pure _

theorem silent_openText (p : Path) (e : Option Str) : Silent (openText sys p e) := by
  refine (silent_openRead sys p).bind fun b => (silent_codec sys e).bind fun c => ?_
  split
  · exact silent_raise _
  · exact silent_pure _

theorem silent_writePieces (p : Path) (c : Codec) : ∀ (l : List Str) (s : Nat), Silent (writePieces sys p c s l)
  | [], _ => silent_pure _
  | x :: xs, s => by
    rw [writePieces]
    split
    · exact silent_raise _
    · exact (silent_append sys p _).bind fun _ => silent_writePieces p c xs _

theorem silent_writeGen (p : Path) (c : Codec) (g : Gen Str) : Silent (writeGen sys p c g) := by
  refine (silent_writePieces sys p c _ _).bind fun _ => ?_
  split
  · exact silent_pure _
  · exact silent_raise _

theorem silent_sha1 (p : Path) : Silent (sha1sum sys p) := (silent_openRead sys p).bind fun _ => silent_pure _

theorem silent_encodingOr (p : Path) (e : Option Str) : Silent (encodingOr sys p e) := stdChoose_stdout sys p e

theorem silent_writeToStream (b : Bool) (p : Path) (d : SimpleDialect) (e : Option Str) : Silent (writeToStream sys b p d e) := by
  refine (silent_openText sys p e).bind fun _ => (silent_lift _).bind fun _ => silent_limit.bind fun _ => ?_
  split
  · exact (silent_lift _).bind fun _ => (silent_lift _).bind fun _ => silent_pure _
  · exact (silent_lift _).bind fun _ => silent_pure _

theorem silent_detector (data m : Str) (skip : Bool) : Silent (runDetector sys data m skip) := fun _ => rfl

theorem silent_detectDialect (p : Path) (n : Option Int) (e : Option Str) (m : Str) (skip : Bool) :
    Silent (detectDialect sys p n e m skip) := by
  have hjp : ∀ e2, Silent (do
      let text ← openText sys p e2
      runDetector sys (readSome text n) m skip : Act (Option SimpleDialect)) :=
    fun e2 => (silent_openText sys p e2).bind fun _ => silent_detector sys _ _ _
  unfold detectDialect
  dsimp only
  split
  · exact (silent_pure _).bind hjp
  · exact ((silent_openRead sys p).bind fun _ => silent_pure _).bind hjp

theorem silent_inPlace (b : Bool) (p : Path) (d : SimpleDialect) (e e' : Option Str) : Silent (inPlace sys b p d e e') := by
  refine (silent_mkstemp sys).bind fun _ => (silent_codec sys e').bind fun _ => (silent_writeToStream sys b p d e).bind fun _ =>
    (silent_writeGen sys _ _ _).bind fun _ => (silent_sha1 sys _).bind fun _ => (silent_sha1 sys _).bind fun _ => ?_
  split
  · exact (silent_unlink sys _).bind fun _ => silent_pure _
  · exact (silent_move sys _ _).bind fun _ => silent_pure _

theorem silent_toFile (b : Bool) (p o : Path) (d : SimpleDialect) (e e' : Option Str) : Silent (toFile sys b p o d e e') :=
  ((silent_openWrite sys _).bind fun _ => silent_codec sys _).bind fun _ =>
    (silent_writeToStream sys _ _ _ _).bind fun _ => (silent_writeGen sys _ _ _).bind fun _ => silent_pure _

theorem sim_toStdout (b : Bool) (p : Path) (d : SimpleDialect) (e : Option Str) :
    Sim t 1 (toStdout sys b p d e) (toStdoutE sys t b p d e) :=
  Sim.silent (silent_writeToStream sys b p d e) fun _ => Sim.silent (silent_lift _) fun _ =>
    (sim_write _).bind fun _ => sim_pure _

theorem sim_handlePath (a : StdArgs) (p : Path) (o : Option Path) (e : Option Str) :
    Sim t 1 (handlePath sys a p o e) (handlePathE sys t a p o e) := by
  rw [handlePath_eq]
  refine Sim.silent (silent_encodingOr sys p e) fun e' => Sim.silent (silent_detectDialect sys p _ _ _ _) fun r => ?_
  cases r with
  | none => exact (sim_pure _).mono (by omega)
  | some d =>
    unfold deliver
    simp only
    split
    · exact (sim_silently (silent_inPlace sys _ _ _ _ _)).mono (by omega)
    · cases o with
      | none => exact sim_toStdout sys _ _ _ _
      | some o => exact (sim_silently (silent_toFile sys _ _ _ _ _ _)).mono (by omega)

theorem sim_handleLoop (a : StdArgs) : ∀ (jobs : List (Path × Option Path × Option Str)) (g : Nat),
    Sim t jobs.length (handleLoop sys a jobs g) (handleLoopE sys t a jobs g)
  | [], _ => sim_pure _
  | (p, o, e) :: rest, g => by
    rw [handleLoop, handleLoopE]
    rw [List.length_cons, Nat.add_comm]
    refine (sim_handlePath sys a p o e).bind fun r => ?_
    simp only []
    generalize (if r > 0 ∧ g = 0 then r else g) = g'
    split
    · exact (sim_pure _).mono (by omega)
    · exact sim_handleLoop a rest g'

/-- The arguments decide which files are processed in which way. -/
theorem standardizeE_eq (a : StdArgs) :
    standardizeE sys t a = match stdJobs a with
      | none => pure 1
      | some jobs => handleLoopE sys t a jobs 0 := by
  unfold standardizeE stdJobs
  by_cases h1 : a.inPlace = true ∧ a.outputs ≠ []
  · rw [if_pos h1, if_pos h1]
  rw [if_neg h1, if_neg h1]
  simp only []
  generalize (if a.outputs.length = 0 then a.paths.map (fun _ => none) else a.outputs.map some) = O
  generalize (if a.encodings.length = 0 then a.paths.map (fun _ => none) else a.encodings.map some) = E
  by_cases h2 : a.inPlace = false ∧ O.length ≠ a.paths.length
  · rw [if_pos h2, if_pos h2]
  rw [if_neg h2, if_neg h2]
  rcases E with _ | ⟨e, _ | ⟨e', E⟩⟩
  · by_cases h3 : ([] : List (Option Str)).length ≠ a.paths.length
    · simp only [if_pos h3]
    · simp only [if_neg h3]
  · rfl
  · by_cases h3 : (e :: e' :: E).length ≠ a.paths.length
    · simp only [if_pos h3]
    · simp only [if_neg h3]

theorem stdJobs_length {a : StdArgs} {jobs : List (Path × Option Path × Option Str)} (h : stdJobs a = some jobs) :
    jobs.length ≤ a.paths.length := by
  unfold stdJobs at h
  simp only [] at h
  generalize (if a.outputs.length = 0 then a.paths.map (fun _ => none) else a.outputs.map some) = O at h
  generalize (if a.encodings.length = 0 then a.paths.map (fun _ => none) else a.encodings.map some) = E at h
  by_cases h1 : a.inPlace = true ∧ a.outputs ≠ []
  · rw [if_pos h1] at h; cases h
  rw [if_neg h1] at h
  by_cases h2 : a.inPlace = false ∧ O.length ≠ a.paths.length
  · rw [if_pos h2] at h; cases h
  rw [if_neg h2] at h
  have hz : ∀ l : List (Option Path × Option Str), (a.paths.zip l).length ≤ a.paths.length := by
    intro l
    rw [List.length_zip]
    exact Nat.min_le_left _ _
  rcases E with _ | ⟨e, _ | ⟨e', E⟩⟩
  · by_cases h3 : ([] : List (Option Str)).length ≠ a.paths.length
    · simp only [if_pos h3] at h; cases h
    · simp only [if_neg h3] at h; cases h; exact hz _
  · cases h; exact hz _
  · by_cases h3 : (e :: e' :: E).length ≠ a.paths.length
    · simp only [if_pos h3] at h; cases h
    · simp only [if_neg h3] at h; cases h; exact hz _

theorem sim_standardize (a : StdArgs) : Sim t a.paths.length (standardize sys a) (standardizeE sys t a) := by
  rw [standardize_eq, standardizeE_eq]
  cases h : stdJobs a with
  | none => exact (sim_pure _).mono (by omega)
  | some jobs => exact (sim_handleLoop sys a jobs 0).mono (stdJobs_length h)

theorem sim_code (pr : Printer) (p : Path) (e : Option Str) (n : Option Int) (b : Bool) :
    Sim t 2 (codeCmd sys pr p e n b) (codeCmdE sys t pr p e n b) := by
  refine Sim.silent (silent_encodingOr sys p e) fun e' => Sim.silent (silent_detectDialect sys p _ _ _ _) fun r => ?_
  cases r with
  | none => exact (sim_pure _).mono (by omega)
  | some d => exact Sim.silent (silent_lift _) fun _ => (sim_line _).bind fun _ => sim_pure _

theorem sim_detect (pr : Printer) (p : Path) (e : Option Str) (n : Option Int) (b b' : Bool) (f : DetectFormat) :
    Sim t 6 (detectCmd sys pr p e n b b' f) (detectCmdE sys t pr p e n b b' f) := by
  refine Sim.silent (silent_detectDialect sys p _ _ _ _) fun r => ?_
  cases r with
  | none => exact (sim_pure _).mono (by omega)
  | some d =>
    simp only
    cases hl : detectLines sys.env pr d f with
    | error x => exact (sim_silently (m := (liftExcept (.error x) : Act Nat)) (silent_lift _)).mono (by omega)
    | ok ls =>
      have : ls.length ≤ 3 := by
        cases f with
        | plain => cases hl; simp
        | default => cases hl; simp
        | json =>
          simp only [detectLines, bind, Except.bind] at hl
          split at hl
          · cases hl
          · cases hl; simp
      exact (((sim_lines ls).bind fun _ => sim_pure 0).mono (by omega) : Sim t 6 _ _)

end

/-- No file is changed. -/
def KeepsE (n : ActE α) : Prop := ∀ w s, (n w s).2.1.files = w.files

theorem KeepsE.bind {n : ActE α} {g : α → ActE β} (h : KeepsE n) (hf : ∀ a, KeepsE (g a)) : KeepsE (n >>= g) := by
  intro w s
  rw [actE_bind]
  have h1 := h w s
  rcases hn : n w s with ⟨_ | a, w1, s1⟩
  · rw [hn] at h1; exact h1
  · rw [hn] at h1
    exact (hf a w1 s1).trans h1

theorem keepsE_pure (a : α) : KeepsE (pure a : ActE α) := fun _ _ => rfl

theorem keepsE_silently {m : Act α} (h : Only (fun _ => False) m) : KeepsE (silently m) :=
  fun w _ => funext fun q => h w q id

theorem keepsE_write (x : Str) : KeepsE (writeOut t x) := by
  intro w s
  unfold writeOut
  split <;> rfl

theorem keepsE_lines : ∀ ls : List Str, KeepsE (printLinesE t ls)
  | [] => keepsE_pure _
  | _ :: ls => ((keepsE_write _).bind fun _ => keepsE_write _).bind fun _ => keepsE_lines ls

end Clever
