import Verif.Model.ChunkedRun
import Verif.Props.Chunked
import Verif.Props.Standardize

/-!
# Helper lemmas: runs over several files
-/

namespace Clever

open Spec Props

/-- What a program does does not depend on the number of operations before. -/
def Timeless {α : Type} (m : Act α) : Prop :=
  ∀ w1 w2, Same w1 w2 → (m w1).1 = (m w2).1 ∧ Same (m w1).2 (m w2).2

theorem Timeless.bind {α β : Type} {m : Act α} {f : α → Act β} (hm : Timeless m) (hf : ∀ x, Timeless (f x)) :
    Timeless (m >>= f) := by
  intro w1 w2 h
  obtain ⟨k1, k2⟩ := hm w1 w2 h
  simp only [act_bind]
  cases h1 : m w1 with
  | mk r1 v1 =>
  cases h2 : m w2 with
  | mk r2 v2 =>
  rw [h1, h2] at k1 k2
  simp only at k1 k2
  subst k1
  cases r1 with
  | error e => exact ⟨rfl, k2⟩
  | ok x => exact hf x v1 v2 k2

theorem timeless_pure {α : Type} (x : α) : Timeless (pure x : Act α) := fun _ _ h => ⟨rfl, h⟩

theorem timeless_raise {α : Type} (e : PyExc) : Timeless (raise e : Act α) := fun _ _ h => ⟨rfl, h⟩

theorem timeless_lift {α : Type} (x : Except PyExc α) : Timeless (liftExcept x) := fun _ _ h => ⟨rfl, h⟩

theorem timeless_limit : Timeless getLimit := fun w1 w2 h => ⟨by simp [getLimit, h.2.1], h⟩

theorem timeless_print (t : Str) : Timeless (printText t) :=
  fun w1 w2 h => ⟨rfl, h.1, h.2.1, by simp [printText, h.2.2]⟩

theorem timeless_detector (sys : Sys) (data m : Str) (skip : Bool) : Timeless (runDetector sys data m skip) := by
  intro w1 w2 h
  unfold runDetector
  rw [h.2.1]
  exact ⟨rfl, h.1, rfl, h.2.2⟩

section
variable {sys : Sys} (hq : Quiet sys)
include hq

theorem timeless_tick : Timeless (tick sys) := by
  intro w1 w2 h
  simp only [tick, hq _]
  exact ⟨trivial, h⟩

theorem timeless_openRead (p : Path) : Timeless (openRead sys p) := by
  refine (timeless_tick hq).bind fun x => ?_
  cases x with
  | some k => exact timeless_raise _
  | none =>
    intro w1 w2 h
    simp only [h.1]
    cases w1.files p <;> exact ⟨rfl, h⟩

theorem same_set {w1 w2 : World} (h : Same w1 w2) (p : Path) (b : Option Bytes) : Same (w1.set p b) (w2.set p b) :=
  ⟨by simp [World.set, h.1], h.2.1, h.2.2⟩

theorem timeless_openWrite (p : Path) : Timeless (openWrite sys p) := by
  refine (timeless_tick hq).bind fun x => ?_
  cases x with
  | some k => exact timeless_raise _
  | none => exact fun w1 w2 h => ⟨rfl, same_set hq h p _⟩

theorem timeless_append (p : Path) (b : Bytes) : Timeless (append sys p b) := by
  refine (timeless_tick hq).bind fun x => ?_
  cases x <;>
  · intro w1 w2 h
    simp only [h.1]
    exact ⟨trivial, same_set hq h p _⟩

theorem timeless_unlink (p : Path) : Timeless (unlink sys p) := by
  refine (timeless_tick hq).bind fun x => ?_
  cases x with
  | some k => exact timeless_raise _
  | none => exact fun w1 w2 h => ⟨rfl, same_set hq h p _⟩

theorem timeless_move (p q : Path) : Timeless (move sys p q) := by
  unfold move
  split
  · exact (timeless_openRead hq p).bind fun b => (timeless_openWrite hq q).bind fun _ =>
      (timeless_append hq q b).bind fun _ => timeless_unlink hq p
  · refine (timeless_tick hq).bind fun x => ?_
    cases x with
    | some k => exact timeless_raise _
    | none =>
      intro w1 w2 h
      simp only [h.1]
      exact ⟨trivial, same_set hq (same_set hq h q _) p _⟩

theorem timeless_mkstemp : Timeless (mkstemp sys) := by
  refine (timeless_tick hq).bind fun x => ?_
  cases x with
  | some k => exact timeless_raise _
  | none =>
    intro w1 w2 h
    simp only [h.1]
    split
    · exact ⟨rfl, same_set hq h _ _⟩
    · exact ⟨rfl, h⟩

theorem timeless_codec (e : Option Str) : Timeless (getCodec sys e) := by
  unfold getCodec
  split
  · exact timeless_raise _
  · exact timeless_pure _

theorem timeless_openText (p : Path) (e : Option Str) : Timeless (openText sys p e) := by
  refine (timeless_openRead hq p).bind fun b => (timeless_codec hq e).bind fun c => ?_
  split
  · exact timeless_raise _
  · exact timeless_pure _

theorem timeless_writePieces (p : Path) (c : Codec) : ∀ (l : List Str) (s : Nat), Timeless (writePieces sys p c s l)
  | [], _ => timeless_pure _
  | x :: xs, s => by
    rw [writePieces]
    split
    · exact timeless_raise _
    · exact (timeless_append hq p _).bind fun _ => timeless_writePieces p c xs _

theorem timeless_writeGen (p : Path) (c : Codec) (g : Gen Str) : Timeless (writeGen sys p c g) := by
  refine (timeless_writePieces hq p c _ _).bind fun _ => ?_
  split
  · exact timeless_pure _
  · exact timeless_raise _

theorem timeless_getEncoding (p : Path) : Timeless (getEncoding sys p) :=
  (timeless_openRead hq p).bind fun _ => timeless_pure _

theorem timeless_sha1 (p : Path) : Timeless (sha1sum sys p) :=
  (timeless_openRead hq p).bind fun _ => timeless_pure _

theorem timeless_writeToStream (t : Bool) (p : Path) (d : SimpleDialect) (e : Option Str) :
    Timeless (writeToStream sys t p d e) := by
  refine (timeless_openText hq p e).bind fun _ => (timeless_lift _).bind fun _ => timeless_limit.bind fun _ => ?_
  split
  · exact (timeless_lift _).bind fun _ => (timeless_lift _).bind fun _ => timeless_pure _
  · exact (timeless_lift _).bind fun _ => timeless_pure _

theorem timeless_inPlace (t : Bool) (p : Path) (d : SimpleDialect) (e e' : Option Str) : Timeless (inPlace sys t p d e e') := by
  refine (timeless_mkstemp hq).bind fun _ => (timeless_codec hq e').bind fun _ => (timeless_writeToStream hq t p d e).bind fun _ =>
    (timeless_writeGen hq _ _ _).bind fun _ => (timeless_sha1 hq _).bind fun _ => (timeless_sha1 hq _).bind fun _ => ?_
  split
  · exact (timeless_unlink hq _).bind fun _ => timeless_pure _
  · exact (timeless_move hq _ _).bind fun _ => timeless_pure _

theorem timeless_handlePath (a : StdArgs) (p : Path) (o : Option Path) (e : Option Str) : Timeless (handlePath sys a p o e) := by
  have hdet : ∀ e', Timeless (detectDialect sys p a.numChars e') := by
    intro e'
    have hjp : ∀ e2, Timeless (do
        let text ← openText sys p e2
        runDetector sys (readSome text a.numChars) : Act (Option SimpleDialect)) :=
      fun e2 => (timeless_openText hq p e2).bind fun _ => timeless_detector sys _ _ _
    unfold detectDialect
    dsimp only
    split
    · exact (timeless_pure _).bind hjp
    · exact (timeless_getEncoding hq p).bind hjp
  have hjp : ∀ e', Timeless (do
      match ← detectDialect sys p a.numChars e' with
      | none => return 1
      | some d =>
        if a.inPlace then inPlace sys a.transpose p d e' (match truthy a.target with
          | some t => some t
          | none => e')
        else
          match o with
          | none => toStdout sys a.transpose p d e'
          | some o => toFile sys a.transpose p o d e' (match truthy a.target with
            | some t => some t
            | none => e') : Act Nat) := by
    intro e'
    refine (hdet e').bind fun r => ?_
    split
    · exact timeless_pure _
    · split
      · exact timeless_inPlace hq _ _ _ _ _
      · split
        · exact (timeless_writeToStream hq _ _ _ _).bind fun _ => (timeless_lift _).bind fun _ => (timeless_print _).bind fun _ =>
            timeless_pure _
        · exact ((timeless_openWrite hq _).bind fun _ => timeless_codec hq _).bind fun _ =>
            (timeless_writeToStream hq _ _ _ _).bind fun _ => (timeless_writeGen hq _ _ _).bind fun _ => timeless_pure _
  unfold handlePath
  dsimp only
  split
  · exact (timeless_pure _).bind hjp
  · exact (timeless_getEncoding hq p).bind hjp

theorem timeless_handleLoop (a : StdArgs) : ∀ (jobs : List (Path × Option Path × Option Str)) (g : Nat),
    Timeless (handleLoop sys a jobs g)
  | [], _ => timeless_pure _
  | (p, o, e) :: rest, g => by
    rw [handleLoop]
    refine (timeless_handlePath hq a p o e).bind fun r => ?_
    simp only []
    generalize (if r > 0 ∧ g = 0 then r else g) = g'
    split
    · exact timeless_pure _
    · exact timeless_handleLoop a rest g'

end

/-- Outputs are not the inputs they are made of. -/
def Apart (a : StdArgs) (jobs : List (Path × Option Path × Option Str)) : Prop :=
  a.inPlace = true ∨ ∀ j ∈ jobs, j.2.1 ≠ some j.1

theorem apart_tail {a : StdArgs} {j : Path × Option Path × Option Str} {l : List (Path × Option Path × Option Str)}
    (h : Apart a (j :: l)) : Apart a l := h.imp_right fun h x hx => h x (by simp [hx])

theorem apart_head {a : StdArgs} {p : Path} {o : Option Path} {e : Option Str} {l : List (Path × Option Path × Option Str)}
    (h : Apart a ((p, o, e) :: l)) : a.inPlace = true ∨ o ≠ some p := h.imp_right fun h => h (p, o, e) (by simp)

theorem handleLoopC_spec {sys : Sys} {io : Io} (hio : IoOk sys io) (a : StdArgs) :
    ∀ (jobs : List (Path × Option Path × Option Str)) (_ : Apart a jobs) (g : Nat) (_ : g ≠ 1) (w w' : World)
      (r : Except PyExc Nat), handleLoopC sys io a jobs g w = (r, w') →
    (∃ c w2, r = .ok c ∧ c ≠ 1 ∧ handleLoop (quiet sys) a jobs g w = (.ok c, w2) ∧ Same w2 w') ∨
    (∃ done p o e rest g' w1 w2, jobs = done ++ (p, o, e) :: rest ∧ g' ≠ 1 ∧
      handleLoop (quiet sys) a done g w = (.ok g', w2) ∧ Same w2 w1 ∧
      handlePathC sys io a p o e w1 = (r, w') ∧ (r = .ok 1 ∨ ∃ x, r = .error x)) := by
  intro jobs
  induction jobs with
  | nil =>
    intro _ g hg w w' r h
    simp only [handleLoopC, act_pure, Prod.mk.injEq] at h
    obtain ⟨rfl, rfl⟩ := h
    exact .inl ⟨g, w, rfl, hg, rfl, rfl, rfl, rfl⟩
  | cons j rest ih =>
    obtain ⟨p, o, e⟩ := j
    intro hap g hg w w' r h
    rw [handleLoopC, act_bind] at h
    cases hp : handlePathC sys io a p o e w with
    | mk x w1 =>
    rw [hp] at h
    cases x with
    | error x =>
      simp only [Prod.mk.injEq] at h
      obtain ⟨rfl, rfl⟩ := h
      exact .inr ⟨[], p, o, e, rest, g, w, w, rfl, hg, rfl, ⟨rfl, rfl, rfl⟩, hp, .inr ⟨x, rfl⟩⟩
    | ok c =>
      simp only at h
      by_cases hc : c = 1
      · subst hc
        simp only [if_true, act_pure, Prod.mk.injEq] at h
        obtain ⟨rfl, rfl⟩ := h
        exact .inr ⟨[], p, o, e, rest, g, w, w, rfl, hg, rfl, ⟨rfl, rfl, rfl⟩, hp, .inl rfl⟩
      · rw [if_neg hc] at h
        obtain ⟨v, k1, k2, k3, k4⟩ := C124_success hio a p o (apart_head hap) e w w1 c hc hp
        have hs : Same w1 v := ⟨k2, k4, k3⟩
        have hg' : (if c > 0 ∧ g = 0 then c else g) ≠ 1 := by split <;> assumption
        have step : ∀ l g2 u, handleLoop (quiet sys) a l (if c > 0 ∧ g = 0 then c else g) w1 = (.ok g2, u) →
            ∃ u', handleLoop (quiet sys) a ((p, o, e) :: l) g w = (.ok g2, u') ∧ Same u u' := by
          intro l g2 u hu
          rw [handleLoop, act_bind_ok k1]
          simp only [if_neg hc]
          obtain ⟨t1, t2⟩ := timeless_handleLoop (quiet_quiet sys) a l (if c > 0 ∧ g = 0 then c else g) w1 v hs
          rw [hu] at t1 t2
          exact ⟨(handleLoop (quiet sys) a l (if c > 0 ∧ g = 0 then c else g) v).2, Prod.ext t1.symm rfl, t2⟩
        rcases ih (apart_tail hap) _ hg' w1 w' r h with ⟨c', u, rfl, hc', h1, h2⟩ |
          ⟨done, p', o', e', rest', g', w2, u, rfl, hg2, h1, h2, h3, h4⟩
        · obtain ⟨u', j1, j2⟩ := step rest c' u h1
          refine .inl ⟨c', u', rfl, hc', j1, h2.1.trans j2.1.symm, h2.2.1.trans j2.2.1.symm, h2.2.2.trans j2.2.2.symm⟩
        · obtain ⟨u', j1, j2⟩ := step done g' u h1
          exact .inr ⟨(p, o, e) :: done, p', o', e', rest', g', w2, u', rfl, hg2, j1,
            ⟨h2.1.trans j2.1.symm, h2.2.1.trans j2.2.1.symm, h2.2.2.trans j2.2.2.symm⟩, h3, h4⟩

theorem handleLoopC_runs {sys : Sys} {io : Io} (hio : IoOk sys io) (hq : Quiet sys) (hr : IoQuiet io) (a : StdArgs) :
    ∀ (jobs : List (Path × Option Path × Option Str)) (_ : Apart a jobs) (g : Nat) (w w2 : World) (c : Nat),
      handleLoop sys a jobs g w = (.ok c, w2) → ∃ w', handleLoopC sys io a jobs g w = (.ok c, w') ∧ Same w2 w' := by
  intro jobs
  induction jobs with
  | nil =>
    intro _ g w w2 c h
    exact ⟨w2, h, rfl, rfl, rfl⟩
  | cons j rest ih =>
    obtain ⟨p, o, e⟩ := j
    intro hap g w w2 c h
    rw [handleLoop] at h
    obtain ⟨x, v, h1, h2⟩ := bind_inv h
    obtain ⟨v', k1, k2, k3, k4⟩ := C124_runs hio hq hr a p o (apart_head hap) e w v x h1
    rw [handleLoopC, act_bind_ok k1]
    simp only at h2 ⊢
    by_cases hx : x = 1
    · rw [if_pos hx] at h2 ⊢
      simp only [act_pure, Prod.mk.injEq] at h2 ⊢
      obtain ⟨h2, rfl⟩ := h2
      exact ⟨v', ⟨h2, rfl⟩, k2, k4, k3⟩
    · rw [if_neg hx] at h2 ⊢
      obtain ⟨t1, t2⟩ := timeless_handleLoop hq a rest (if x > 0 ∧ g = 0 then x else g) v v' ⟨k2, k4, k3⟩
      rw [h2] at t1 t2
      obtain ⟨u, j1, j2⟩ := ih (apart_tail hap) _ v' (handleLoop sys a rest (if x > 0 ∧ g = 0 then x else g) v').2 c
        (Prod.ext t1.symm rfl)
      exact ⟨u, j1, j2.1.trans t2.1, j2.2.1.trans t2.2.1, j2.2.2.trans t2.2.2⟩

/-- The files to be processed, with their outputs and encodings; `none` if the arguments do not fit. -/
def stdJobs (a : StdArgs) : Option (List (Path × Option Path × Option Str)) :=
  if a.inPlace ∧ a.outputs ≠ [] then none
  else
    let outputs := if a.outputs.length = 0 then a.paths.map (fun _ => none) else a.outputs.map some
    if a.inPlace = false ∧ outputs.length ≠ a.paths.length then none
    else
      let encodings := if a.encodings.length = 0 then a.paths.map (fun _ => none) else a.encodings.map some
      match encodings with
      | [e] => some (a.paths.zip (outputs.zip (a.paths.map fun _ => e)))
      | _ =>
        if encodings.length ≠ a.paths.length then none
        else some (a.paths.zip (outputs.zip encodings))

theorem stdJobs_bad {a : StdArgs} (h : BadArgs a) : stdJobs a = none := by
  unfold stdJobs
  by_cases h1 : a.inPlace = true ∧ a.outputs ≠ []
  · rw [if_pos h1]
  rw [if_neg h1]
  simp only []
  by_cases h2 : a.outputs ≠ [] ∧ a.outputs.length ≠ a.paths.length
  · have hi : a.inPlace = false := by
      cases hb : a.inPlace with
      | false => rfl
      | true => exact absurd ⟨hb, h2.1⟩ h1
    rw [if_pos]
    refine ⟨hi, ?_⟩
    rw [if_neg (by simpa using h2.1), List.length_map]
    exact h2.2
  · have h3 : a.encodings ≠ [] ∧ a.encodings.length ≠ 1 ∧ a.encodings.length ≠ a.paths.length := by
      rcases h with h | h | h
      · exact absurd h h1
      · exact absurd h h2
      · exact h
    generalize (if a.outputs.length = 0 then a.paths.map (fun _ => none) else a.outputs.map some) = O
    by_cases h4 : a.inPlace = false ∧ O.length ≠ a.paths.length
    · rw [if_pos h4]
    · rw [if_neg h4, if_neg (show ¬ a.encodings.length = 0 by simpa using h3.1)]
      split
      · rename_i e he
        exact absurd (by rw [← List.length_map (f := some), he]; rfl) h3.2.1
      · rw [if_pos (by rw [List.length_map]; exact h3.2.2)]

theorem stdJobs_good {a : StdArgs} (h : ¬ BadArgs a) :
    ∃ jobs, (∀ i, jobs[i]? = Spec.job a i) ∧ stdJobs a = some jobs := by
  unfold BadArgs at h
  simp only [not_or, not_and, Decidable.not_not] at h
  obtain ⟨h1, h2, h3⟩ := h
  have h2' : a.outputs = [] ∨ a.outputs.length = a.paths.length := by
    by_cases h0 : a.outputs = []
    · exact .inl h0
    · exact .inr (h2 h0)
  have hjob : ∀ (E : List (Option Str)), (∀ (i : Nat) (p : Path), a.paths[i]? = some p → E[i]? =
        some (if a.encodings.length = 1 then a.encodings[0]? else a.encodings[i]?)) → ∀ i : Nat,
      (a.paths.zip ((if a.outputs.length = 0 then a.paths.map (fun _ => none) else a.outputs.map some).zip E))[i]? =
        Spec.job a i := by
    intro E hE i
    exact zip3_getElem? (fun i => a.outputs[i]?)
      (fun i => if a.encodings.length = 1 then a.encodings[0]? else a.encodings[i]?)
      (fun i p hp => ⟨outputs_getElem? h2' hp, hE i p hp⟩) i
  unfold stdJobs
  rw [if_neg (by rintro ⟨h4, h5⟩; exact h5 (h1 h4))]
  simp only []
  rw [if_neg (by
    rintro ⟨-, h5⟩
    apply h5
    split
    · simp
    · rename_i h0
      rw [List.length_map]
      exact h2 (by simpa using h0))]
  by_cases h4 : a.encodings = []
  · rw [if_pos (by simp [h4])]
    split
    · rename_i e he
      refine ⟨_, hjob _ ?_, rfl⟩
      intro i p hp
      have : e = none := by
        have : e ∈ a.paths.map fun _ => (none : Option Str) := by rw [he]; simp
        simp only [List.mem_map] at this
        obtain ⟨_, _, h⟩ := this
        exact h.symm
      rw [map_none_getElem? _ hp, this]
      simp [h4]
    · rw [if_neg (by simp)]
      refine ⟨_, hjob _ ?_, rfl⟩
      intro i p hp
      rw [map_none_getElem? _ hp]
      simp [h4]
  · rw [if_neg (by simpa using h4)]
    split
    · rename_i e he
      refine ⟨_, hjob _ ?_, rfl⟩
      intro i p hp
      have hl : a.encodings.length = 1 := by rw [← List.length_map (f := some), he]; rfl
      rw [map_none_getElem? _ hp, if_pos hl]
      have : (a.encodings.map some)[0]? = some e := by rw [he]; rfl
      rw [List.getElem?_map] at this
      cases h5 : a.encodings[0]? with
      | none => rw [h5] at this; simp at this
      | some x => rw [h5] at this; simpa using this.symm
    · rename_i hne
      have hl1 : a.encodings.length ≠ 1 := by
        intro hl
        rcases hx : a.encodings with _ | ⟨x, _ | ⟨y, xs⟩⟩
        · exact h4 hx
        · exact hne (some x) (by rw [hx]; rfl)
        · rw [hx] at hl; simp at hl
      have hlen : a.encodings.length = a.paths.length := h3 h4 hl1
      rw [if_neg (by rw [List.length_map]; exact fun h => h hlen)]
      refine ⟨_, hjob _ ?_, rfl⟩
      intro i p hp
      rw [if_neg hl1]
      exact map_some_getElem? hlen hp

/-- The arguments decide which files are processed in which way. -/
theorem standardizeC_eq (sys : Sys) (io : Io) (a : StdArgs) :
    standardizeC sys io a = match stdJobs a with
      | none => pure 1
      | some jobs => handleLoopC sys io a jobs 0 := by
  unfold standardizeC stdJobs
  by_cases h1 : a.inPlace = true ∧ a.outputs ≠ []
  · rw [if_pos h1, if_pos h1]
  rw [if_neg h1, if_neg h1]
  simp only []
  generalize (if a.outputs.length = 0 then a.paths.map (fun _ => none) else a.outputs.map some) = O
  generalize (if a.encodings.length = 0 then a.paths.map (fun _ => none) else a.encodings.map some) = E
  by_cases h2 : a.inPlace = false ∧ O.length ≠ a.paths.length
  · rw [if_pos h2, if_pos h2]
  rw [if_neg h2, if_neg h2]
  rcases E with _ | ⟨e, _ | ⟨e', E⟩⟩
  · by_cases h3 : ([] : List (Option Str)).length ≠ a.paths.length
    · simp only [if_pos h3]
    · simp only [if_neg h3]
  · rfl
  · by_cases h3 : (e :: e' :: E).length ≠ a.paths.length
    · simp only [if_pos h3]
    · simp only [if_neg h3]

theorem standardize_eq (sys : Sys) (a : StdArgs) :
    standardize sys a = match stdJobs a with
      | none => pure 1
      | some jobs => handleLoop sys a jobs 0 := by
  unfold standardize stdJobs
  by_cases h1 : a.inPlace = true ∧ a.outputs ≠ []
  · rw [if_pos h1, if_pos h1]
  rw [if_neg h1, if_neg h1]
  simp only []
  generalize (if a.outputs.length = 0 then a.paths.map (fun _ => none) else a.outputs.map some) = O
  generalize (if a.encodings.length = 0 then a.paths.map (fun _ => none) else a.encodings.map some) = E
  by_cases h2 : a.inPlace = false ∧ O.length ≠ a.paths.length
  · rw [if_pos h2, if_pos h2]
  rw [if_neg h2, if_neg h2]
  rcases E with _ | ⟨e, _ | ⟨e', E⟩⟩
  · by_cases h3 : ([] : List (Option Str)).length ≠ a.paths.length
    · simp only [if_pos h3]
    · simp only [if_neg h3]
  · rfl
  · by_cases h3 : (e :: e' :: E).length ≠ a.paths.length
    · simp only [if_pos h3]
    · simp only [if_neg h3]

end Clever
