import Verif.Model.Messages
import Verif.Props.Process

/-!
# C132: failures are explained on standard error

A command that ends with exit code 1 has written one line to standard error, and no other command that returns has written one.
-/

namespace Clever

/-- The command without its messages. -/
def MAct.erase {α : Type} (m : MAct α) : Act α := fun w => ((m w).1, (m w).2.1)

/-- The command writes a single line from the list to standard error if it returns 1, and nothing otherwise (also when it raises
an exception). -/
def Spec.Explained (lines : List Str) (m : MAct Nat) : Prop :=
  ∀ w, ((m w).1 = .ok 1 → ∃ line ∈ lines, (m w).2.2 = [line]) ∧ ((m w).1 ≠ .ok 1 → (m w).2.2 = [])

open Spec

theorem mact_bind {α β : Type} (m : MAct α) (f : α → MAct β) (w : World) :
    (m >>= f) w = match m w with
      | (.ok a, w', s) => ((f a w').1, (f a w').2.1, s ++ (f a w').2.2)
      | (.error e, w', s) => (.error e, w', s) := rfl

theorem quietly_bind {α β : Type} (m : Act α) (f : α → MAct β) (w : World) :
    (quietly m >>= f) w = match m w with
      | (.ok a, w') => f a w'
      | (.error e, w') => (.error e, w', []) := by
  rw [mact_bind, quietly]
  rcases m w with ⟨e | a, w'⟩ <;> rfl

theorem erase_bind {α β : Type} (m : MAct α) (f : α → MAct β) : (m >>= f).erase = m.erase >>= fun a => (f a).erase := by
  funext w
  rw [act_bind, MAct.erase, mact_bind, MAct.erase]
  rcases m w with ⟨e | a, w', s⟩ <;> rfl

theorem erase_quietly {α : Type} (m : Act α) : (quietly m).erase = m := rfl

theorem erase_pure {α : Type} (a : α) : (pure a : MAct α).erase = pure a := rfl

theorem erase_complain {α : Type} (line : Str) (a : α) : (complain line >>= fun _ => (pure a : MAct α)).erase = pure a := rfl

/-! ## The messages change nothing -/

theorem erase_handlePath (sys : Sys) (a : StdArgs) (p : Path) (o : Option Path) (e : Option Str) :
    (handlePathM sys a p o e).erase = handlePath sys a p o e := by
  unfold handlePathM handlePath encodingOr
  rw [erase_bind]
  have main : ∀ (e : Option Str), MAct.erase (do
      match ← quietly (detectDialect sys p a.numChars e) with
      | none =>
        complain msgFailed
        return 1
      | some d =>
        if a.inPlace then quietly (inPlace sys a.transpose p d e (match truthy a.target with
          | some t => some t
          | none => e))
        else
          match o with
          | none => quietly (toStdout sys a.transpose p d e)
          | some o => quietly (toFile sys a.transpose p o d e (match truthy a.target with
            | some t => some t
            | none => e))) = (do
      match ← detectDialect sys p a.numChars e with
      | none => return 1
      | some d =>
        if a.inPlace then inPlace sys a.transpose p d e (match truthy a.target with
          | some t => some t
          | none => e)
        else
          match o with
          | none => toStdout sys a.transpose p d e
          | some o => toFile sys a.transpose p o d e (match truthy a.target with
            | some t => some t
            | none => e)) := by
    intro e
    rw [erase_bind]
    refine congrArg _ (funext fun r => ?_)
    cases r with
    | none => rfl
    | some d =>
      simp only
      split
      · rfl
      · cases o <;> rfl
  generalize truthy e = te
  cases te with
  | none => exact congrArg _ (funext main)
  | some e => exact congrArg _ (funext main)

theorem erase_handleLoop (sys : Sys) (a : StdArgs) : ∀ (l : List (Path × Option Path × Option Str)) (g : Nat),
    (handleLoopM sys a l g).erase = handleLoop sys a l g
  | [], _ => rfl
  | (p, o, e) :: rest, g => by
    rw [handleLoopM, handleLoop, erase_bind, erase_handlePath]
    refine congrArg _ (funext fun r => ?_)
    simp only
    by_cases h : r = 1
    · rw [if_pos h, if_pos h]
      rfl
    · rw [if_neg h, if_neg h]
      exact erase_handleLoop sys a rest _

namespace Props

/-- **C132 (the messages change nothing).**  Results, files, standard output and exceptions are those of the commands without
their messages. -/
theorem C132_same (sys : Sys) (pr : Printer) (con : Console) (a : StdArgs) (p : Path) (enc : Option Str) (n : Option Int)
    (x y : Bool) (f : DetectFormat) (rt : Option Elapsed) :
    (standardizeM sys a).erase = standardize sys a ∧
    (codeCmdM sys pr p enc n x).erase = codeCmd sys pr p enc n x ∧
    (detectCmdM sys pr p enc n x y f rt).erase = detectCmdT sys pr p enc n x y f rt ∧
    (exploreCmdM sys pr con p enc n x).erase = exploreCmd sys pr con p enc n x := by
  refine ⟨?_, ?_, ?_, ?_⟩
  · unfold standardizeM standardize
    split
    · rfl
    · generalize (if a.outputs.length = 0 then a.paths.map (fun _ => none) else a.outputs.map some) = os
      generalize (if a.encodings.length = 0 then a.paths.map (fun _ => none) else a.encodings.map some) = es
      simp only
      split
      · rfl
      · rcases es with _ | ⟨e, _ | ⟨e', r⟩⟩
        · simp only
          split
          · rfl
          · exact erase_handleLoop _ _ _ _
        · exact erase_handleLoop _ _ _ _
        · simp only
          split
          · rfl
          · exact erase_handleLoop _ _ _ _
  · unfold codeCmdM codeCmd
    rw [erase_bind]
    refine congrArg _ (funext fun e => ?_)
    rw [erase_bind]
    refine congrArg _ (funext fun r => ?_)
    cases r with
    | none => rfl
    | some d => simp only [erase_bind, erase_quietly, erase_pure]
  · unfold detectCmdM detectCmdT
    simp only
    rw [erase_bind]
    refine congrArg _ (funext fun r => ?_)
    cases r with
    | none => rfl
    | some d => simp only [erase_bind, erase_quietly, erase_pure]
  · unfold exploreCmdM exploreCmd
    rw [erase_bind]
    refine congrArg _ (funext fun e => ?_)
    rw [erase_bind]
    refine congrArg _ (funext fun r => ?_)
    cases r with
    | none => rfl
    | some d =>
      simp only [erase_bind, erase_quietly]
      refine congrArg _ (funext fun lines => ?_)
      split
      · simp only [erase_bind, erase_quietly, erase_pure]
      · simp only [erase_bind, erase_quietly, erase_pure]

end Props

/-! ## A line just for exit code 1 -/

theorem explained_mono {l l' : List Str} {m : MAct Nat} (h : Explained l m) (hl : ∀ x ∈ l, x ∈ l') : Explained l' m := by
  intro w
  refine ⟨fun h1 => ?_, (h w).2⟩
  obtain ⟨x, hx, h2⟩ := (h w).1 h1
  exact ⟨x, hl x hx, h2⟩

theorem explained_bind {α : Type} {l : List Str} {m : Act α} {f : α → MAct Nat} (h : ∀ a, Explained l (f a)) :
    Explained l (quietly m >>= f) := by
  intro w
  rw [quietly_bind]
  cases m w with
  | mk x w' =>
    cases x with
    | error e => exact ⟨fun h => (by cases h), fun _ => rfl⟩
    | ok a => exact h a w'

theorem explained_quiet {l : List Str} {m : Act Nat} (h : ∀ w, (m w).1 ≠ .ok 1) : Explained l (quietly m) :=
  fun w => ⟨fun h1 => absurd h1 (h w), fun _ => rfl⟩

theorem explained_pure {l : List Str} {n : Nat} (h : n ≠ 1) : Explained l (pure n) :=
  explained_quiet (m := pure n) fun _ h1 => h (Except.ok.inj h1)

theorem explained_complain {l : List Str} {line : Str} (h : line ∈ l) : Explained l (complain line >>= fun _ => pure 1) :=
  fun _ => ⟨fun _ => ⟨line, h, rfl⟩, fun h1 => absurd rfl h1⟩

/-- The action does not return 1. -/
def NotOne (m : Act Nat) : Prop := ∀ w, (m w).1 ≠ .ok 1

theorem NotOne.bind {α : Type} {m : Act α} {f : α → Act Nat} (h : ∀ a, NotOne (f a)) : NotOne (m >>= f) := by
  intro w
  rw [act_bind]
  rcases m w with ⟨e | a, w1⟩
  · intro h
    cases h
  · exact h a w1

theorem NotOne.pure {n : Nat} (h : n ≠ 1) : NotOne (pure n) := by
  intro w hx
  cases hx
  exact h rfl

theorem explained_handlePath (sys : Sys) (a : StdArgs) (p : Path) (o : Option Path) (e : Option Str) :
    Explained [msgFailed] (handlePathM sys a p o e) := by
  unfold handlePathM
  refine explained_bind fun e => explained_bind fun r => ?_
  cases r with
  | none => exact explained_complain (by simp)
  | some d =>
    simp only
    split
    · refine explained_quiet (m := inPlace _ _ _ _ _ _) ?_
      show NotOne _
      unfold inPlace
      refine .bind fun _ => .bind fun _ => .bind fun _ => .bind fun _ => .bind fun _ => .bind fun _ => ?_
      split
      · exact .bind fun _ => .pure (by decide)
      · exact .bind fun _ => .pure (by decide)
    · cases o with
      | none =>
        refine explained_quiet (m := toStdout _ _ _ _ _) ?_
        show NotOne _
        unfold toStdout
        exact .bind fun _ => .bind fun _ => .bind fun _ => .pure (by decide)
      | some o =>
        refine explained_quiet (m := toFile _ _ _ _ _ _ _) ?_
        show NotOne _
        unfold toFile
        exact .bind fun _ => .bind fun _ => .bind fun _ => .pure (by decide)

theorem explained_handleLoop (sys : Sys) (a : StdArgs) : ∀ (l : List (Path × Option Path × Option Str)) (g : Nat), g ≠ 1 →
    Explained [msgFailed] (handleLoopM sys a l g)
  | [], g, h => explained_pure h
  | (p, o, e) :: rest, g, hg => by
    intro w
    have hp := explained_handlePath sys a p o e w
    rw [handleLoopM, mact_bind]
    rcases hx : handlePathM sys a p o e w with ⟨x | r, w1, s⟩
    · rw [hx] at hp
      exact ⟨fun h => by simp at h, fun _ => hp.2 (by simp)⟩
    · rw [hx] at hp
      simp only at hp ⊢
      by_cases hr : r = 1
      · subst hr
        obtain ⟨line, hl, rfl⟩ := hp.1 rfl
        simp only [if_pos rfl]
        exact ⟨fun _ => ⟨line, hl, rfl⟩, fun h => absurd rfl h⟩
      · have hs : s = [] := hp.2 fun h => hr (by injection h)
        subst hs
        simp only [if_neg hr, List.nil_append]
        exact explained_handleLoop sys a rest _ (by split <;> omega) w1

namespace Props

/-- **C132 (explained failures).**  The commands standardize, detect and code write one line to standard error just if they
return 1. -/
theorem C132_explained (sys : Sys) (pr : Printer) (a : StdArgs) (p : Path) (enc : Option Str) (n : Option Int)
    (x y : Bool) (f : DetectFormat) (rt : Option Elapsed) :
    Explained [msgIncompatible, msgOutputs, msgEncodings, msgFailed] (standardizeM sys a) ∧
    Explained [msgFailed] (codeCmdM sys pr p enc n x) ∧
    Explained [msgFailedDetect] (detectCmdM sys pr p enc n x y f rt) := by
  refine ⟨?_, ?_, ?_⟩
  · unfold standardizeM
    split
    · exact explained_complain (by simp)
    · generalize (if a.outputs.length = 0 then a.paths.map (fun _ => none) else a.outputs.map some) = os
      generalize (if a.encodings.length = 0 then a.paths.map (fun _ => none) else a.encodings.map some) = es
      simp only
      split
      · exact explained_complain (by simp)
      · split
        · exact explained_mono (explained_handleLoop _ _ _ 0 (by decide)) (by simp)
        · split
          · exact explained_complain (by simp)
          · exact explained_mono (explained_handleLoop _ _ _ 0 (by decide)) (by simp)
  · unfold codeCmdM
    refine explained_bind fun e => explained_bind fun r => ?_
    cases r with
    | none => exact explained_complain (by simp)
    | some d => exact explained_bind fun _ => explained_bind fun _ => explained_pure (by decide)
  · unfold detectCmdM
    refine explained_bind fun r => ?_
    cases r with
    | none => exact explained_complain (by simp)
    | some d => exact explained_bind fun _ => explained_bind fun _ => explained_pure (by decide)

/-- **C132 (wrong numbers of options).**  Standardize refuses its options, with the message for them and before it touches any
file, in these three cases, looked at in this order.  In all others the only message is that detection failed. -/
theorem C132_options (sys : Sys) (a : StdArgs) (w : World) :
    (a.inPlace = true → a.outputs ≠ [] → standardizeM sys a w = (.ok 1, w, [msgIncompatible])) ∧
    (a.inPlace = false → a.outputs ≠ [] → a.outputs.length ≠ a.paths.length →
      standardizeM sys a w = (.ok 1, w, [msgOutputs])) ∧
    (¬ (a.inPlace = true ∧ a.outputs ≠ []) → (a.outputs ≠ [] → a.outputs.length = a.paths.length) →
      (2 ≤ a.encodings.length ∧ a.encodings.length ≠ a.paths.length →
        standardizeM sys a w = (.ok 1, w, [msgEncodings])) ∧
      (¬ (2 ≤ a.encodings.length ∧ a.encodings.length ≠ a.paths.length) →
        (standardizeM sys a w).2.2 = [] ∨ (standardizeM sys a w).2.2 = [msgFailed])) := by
  have loop : ∀ l, (handleLoopM sys a l 0 w).2.2 = [] ∨ (handleLoopM sys a l 0 w).2.2 = [msgFailed] := by
    intro l
    have h := explained_handleLoop sys a l 0 (by decide) w
    by_cases h1 : (handleLoopM sys a l 0 w).1 = .ok 1
    · obtain ⟨x, hx, h2⟩ := h.1 h1
      rw [List.mem_singleton] at hx
      exact .inr (by rw [h2, hx])
    · exact .inl (h.2 h1)
  refine ⟨fun h1 h2 => ?_, fun h1 h2 h3 => ?_, fun h1 h2 => ⟨fun h3 => ?_, fun h3 => ?_⟩⟩
  · unfold standardizeM
    rw [if_pos ⟨h1, h2⟩]
    rfl
  · unfold standardizeM
    rw [if_neg (by simp [h1])]
    have : ¬ a.outputs.length = 0 := by simpa using h2
    simp only [if_neg this, h1, List.length_map]
    rw [if_pos ⟨trivial, h3⟩]
    rfl
  · unfold standardizeM
    rw [if_neg h1]
    have hlen : (if a.outputs.length = 0 then a.paths.map (fun _ => none) else a.outputs.map some).length = a.paths.length := by
      split
      · simp
      · rename_i h
        simpa using h2 (by simpa using h)
    simp only [hlen]
    rw [if_neg (by simp), if_neg (by omega)]
    rcases he : a.encodings with _ | ⟨x, _ | ⟨y, r⟩⟩
    · simp [he] at h3
    · simp [he] at h3
    · rw [he] at h3
      simp only [List.map_cons, List.length_cons, List.length_map]
      rw [if_pos (by simpa using h3.2)]
      rfl
  · unfold standardizeM
    rw [if_neg h1]
    have hlen : (if a.outputs.length = 0 then a.paths.map (fun _ => none) else a.outputs.map some).length = a.paths.length := by
      split
      · simp
      · rename_i h
        simpa using h2 (by simpa using h)
    simp only [hlen]
    rw [if_neg (by simp)]
    have helen : ∀ es : List (Option Str), es = (if a.encodings.length = 0 then a.paths.map (fun _ => none) else a.encodings.map some) →
        es.length = 1 ∨ es.length = a.paths.length := by
      rintro es rfl
      split
      · simp
      · simp only [List.length_map]
        omega
    generalize he : (if a.encodings.length = 0 then a.paths.map (fun _ => none) else a.encodings.map some) = es at *
    split
    · exact loop _
    · rename_i hne
      rcases helen es rfl with h | h
      · obtain ⟨x, rfl⟩ := List.length_eq_one_iff.1 h
        exact absurd rfl (hne x)
      · rw [if_neg (by simp [h])]
        exact loop _

/-- **C132 (explore).**  The explore command writes a line just if no dialect was found. -/
theorem C132_explore_partial (sys : Sys) (pr : Printer) (con : Console) (p : Path) (enc : Option Str) (n : Option Int)
    (x : Bool) (w : World) :
    ((codeCmd sys pr p enc n x w).1 = .ok 1 → (exploreCmdM sys pr con p enc n x w).1 = .ok (1, none) ∧
      (exploreCmdM sys pr con p enc n x w).2.2 = [msgFailed]) ∧
    ((codeCmd sys pr p enc n x w).1 ≠ .ok 1 → (exploreCmdM sys pr con p enc n x w).2.2 = []) := by
  rw [exploreCmdM, codeCmd, quietly_bind, act_bind]
  cases encodingOr sys p enc w with
  | mk x1 w1 =>
    cases x1 with
    | error e => exact ⟨fun h => (by cases h), fun _ => rfl⟩
    | ok e =>
      simp only
      rw [quietly_bind, act_bind]
      cases detectDialect sys p n e "auto".toList true w1 with
      | mk x2 w2 =>
        cases x2 with
        | error e => exact ⟨fun h => (by cases h), fun _ => rfl⟩
        | ok r =>
          cases r with
          | none => exact ⟨fun _ => ⟨rfl, rfl⟩, fun h => absurd rfl h⟩
          | some d =>
            simp only
            rw [quietly_bind, act_bind]
            cases liftExcept (generateCode pr p d e x) w2 with
            | mk x3 w3 =>
              cases x3 with
              | error e => exact ⟨fun h => (by cases h), fun _ => rfl⟩
              | ok lines =>
                simp only
                refine ⟨fun h => (by cases h), fun _ => ?_⟩
                split <;> rfl

/-- **C132 is violated** by explore: if the console does not accept the code, the command returns 1, and the explanation goes to
standard output. -/
theorem C132_explore_violated :
    let r := exploreCmdM demoSys demoPrinter (pyConsole fun _ => true) "f".toList none none false (demoWorld [("f", "x,y\n1,2\n")])
    r.1.toOption.map (·.1) = some 1 ∧ r.2.2 = [] ∧ r.2.1.stdout ≠ [] := by
  decide +kernel

-- a file without a dialect, after one that is printed
example :
    let r := standardizeM demoSys { paths := ["f".toList, "g".toList, "f".toList] }
      (demoWorld [("f", "x;y\n1;2\n"), ("g", ",;")])
    r.1 = .ok 1 ∧ r.2.2 = [msgFailed] ∧ r.2.1.stdout = "x,y\r\n1,2\r\n".toList := by
  decide +kernel

example :
    let r := standardizeM demoSys { paths := ["f".toList], outputs := ["a".toList, "b".toList] } (demoWorld [("f", "x;y\n1;2\n")])
    r.1 = .ok 1 ∧ r.2.2 = [msgOutputs] := by
  decide +kernel

end Props

end Clever
