import Verif.Model.Process
import Verif.Props.DataFrame
import Verif.Props.View

/-!
# Property C131: what the process shows and its exit status
-/

namespace Clever

namespace Spec

/-- The package can be used: it can be imported, and its version, if it has one, is not older than the minimum. -/
def Usable (im : Importer) (name minVersion : String) : Prop :=
  ∃ v, im.installed name.toList = some v ∧ ∀ s, v = some s → im.older s minVersion.toList = some false

end Spec

namespace Props

theorem usable_iff {im : Importer} {name minVersion : String}
    (h : ⟨name.toList, name.toList, minVersion.toList⟩ ∈ optionalDependencies) :
    importOptional im name.toList = .ok true ↔ Spec.Usable im name minVersion := by
  rw [C88_found]
  have hu : ∀ a ∈ optionalDependencies, ∀ b ∈ optionalDependencies, a.importName = b.importName → a = b := by decide
  constructor
  · rintro ⟨v, hv, dep, hm, hn, hs⟩
    have := hu dep hm _ h hn
    subst this
    exact ⟨v, hv, hs⟩
  · rintro ⟨v, hv, hs⟩
    exact ⟨v, hv, _, h, rfl, hs⟩

theorem import_raises {im : Importer} {name : Str} (h : importOptional im name ≠ .ok true) :
    ∃ e, importOptional im name = .error e := by
  cases hx : importOptional im name with
  | error e => exact ⟨e, rfl⟩
  | ok b =>
    cases b with
    | true => exact absurd hx h
    | false =>
      have := (C88_none im name true).1 hx
      simp at this

/-- Everything about a run of the view command. -/
theorem viewHost_eq (h : Host) (sys : Sys) (p : Path) (enc : Option Str) (n : Option Int) (t : Bool) (w : World) :
    viewHost h sys p enc n t w =
      match viewCmd sys p enc n t w with
      | (.error e, w') => (.error e, w', .nothing)
      | (.ok (code, none), w') => (.ok code, w', ⟨[], ["Error: dialect detection failed.".toList]⟩)
      | (.ok (code, some T), w') =>
        match tabview h T with
        | (.error e, s) => (.error e, w', s)
        | (.ok _, s) => (.ok code, w', s) := by
  unfold viewHost viewCmd
  rcases readTable sys p none enc n w with ⟨e | rows, w'⟩
  · cases e <;> rfl
  · cases t with
    | false => rfl
    | true =>
      simp only [if_true]
      cases viewTranspose rows <;> rfl

/-- **C131 (view).**  Where `tabview` can be used, the view command gives it exactly the table of the model without `tabview`,
writes nothing on standard error, and has its exit code, unless `tabview` raises an exception. -/
theorem C131_view (h : Host) (hw : h.windows = false) (hu : Spec.Usable h.importer "tabview" "1.4") (sys : Sys) (p : Path)
    (enc : Option Str) (n : Option Int) (t : Bool) (w w' : World) (code : Nat) (T : List (List (Option Str)))
    (hv : viewCmd sys p enc n t w = (.ok (code, some T), w')) :
    viewHost h sys p enc n t w = ((h.show_ T).map fun _ => code, w', ⟨[T], []⟩) := by
  rw [viewHost_eq, hv]
  simp only [tabview, hw, Bool.false_eq_true, if_false, (usable_iff (by decide)).2 hu]
  cases h.show_ T <;> rfl

/-- **C131 (no tabview).**  Where `tabview` is missing or too old, and not on Windows, the command raises an exception for every
file that can be read, shows nothing, and has done everything else before. -/
theorem C131_view_missing (h : Host) (hw : h.windows = false) (hu : ¬ Spec.Usable h.importer "tabview" "1.4") (sys : Sys)
    (p : Path) (enc : Option Str) (n : Option Int) (t : Bool) (w w' : World) (code : Nat) (T : List (List (Option Str)))
    (hv : viewCmd sys p enc n t w = (.ok (code, some T), w')) :
    ∃ e, importOptional h.importer "tabview".toList = .error e ∧
      viewHost h sys p enc n t w = (.error e, w', ⟨[], []⟩) := by
  obtain ⟨e, he⟩ := import_raises fun hx => hu ((usable_iff (by decide)).1 hx)
  refine ⟨e, he, ?_⟩
  rw [viewHost_eq, hv]
  simp only [tabview, hw, Bool.false_eq_true, if_false, he]
  rfl

/-- **C131 (failures of view).**  If the file cannot be read, nothing is shown; standard error has a line just if no dialect was
found, and then the exit code is 1. -/
theorem C131_view_fails (h : Host) (sys : Sys) (p : Path) (enc : Option Str) (n : Option Int) (t : Bool) (w : World) :
    match viewCmd sys p enc n t w with
    | (.error e, w') => viewHost h sys p enc n t w = (.error e, w', ⟨[], []⟩)
    | (.ok (_, none), w') => ∃ line, viewHost h sys p enc n t w = (.ok 1, w', ⟨[], [line]⟩)
    | (.ok (code, some _), _) => code = 0 := by
  rw [viewHost_eq]
  unfold viewCmd
  rcases readTable sys p none enc n w with ⟨e | rows, w'⟩
  · cases e <;> first | rfl | exact ⟨_, rfl⟩
  · cases t with
    | false => rfl
    | true =>
      simp only [if_true]
      cases viewTranspose rows <;> rfl

/-- **C131 (the exit status tells whether the table was shown).**  Not on Windows: status 0 just if the table was given to
`tabview` and that returned. -/
theorem C131_view_status_partial (h : Host) (hw : h.windows = false) (sys : Sys) (p : Path) (enc : Option Str) (n : Option Int)
    (t : Bool) (w : World) :
    (viewHost h sys p enc n t w).1 = .ok 0 ↔
      ∃ T, (viewCmd sys p enc n t w).1 = .ok (0, some T) ∧ (viewHost h sys p enc n t w).2.2.tables = [T] ∧
        h.show_ T = .ok () := by
  have hf := C131_view_fails h sys p enc n t w
  rcases hv : viewCmd sys p enc n t w with ⟨e | ⟨code, o⟩, w'⟩
  · rw [hv] at hf
    simp only at hf
    simp [hf]
  · cases o with
    | none =>
      rw [hv] at hf
      obtain ⟨line, hf⟩ := hf
      simp [hf]
    | some T =>
      rw [hv] at hf
      obtain rfl : code = 0 := hf
      by_cases hu : Spec.Usable h.importer "tabview" "1.4"
      · rw [C131_view h hw hu sys p enc n t w w' 0 T hv]
        simp only [Except.ok.injEq, Prod.mk.injEq, Option.some.injEq, true_and]
        constructor
        · intro hx
          refine ⟨T, rfl, rfl, ?_⟩
          cases hs : h.show_ T with
          | ok u => rfl
          | error e =>
            rw [hs] at hx
            cases hx
        · rintro ⟨T', rfl, -, hs⟩
          rw [hs]
          rfl
      · obtain ⟨e, -, he⟩ := C131_view_missing h hw hu sys p enc n t w w' 0 T hv
        rw [he]
        simp

/-- **C131 (entry point).**  Without the package `wilderness`, or with one that is too old, the process ends with status 1 and has
done nothing.  Otherwise the status is 0 just if the command returned a multiple of 256 (the commands return 0, 1 and 2), and the
command has run once. -/
theorem C131_main (im : Importer) (realmain : World → Except PyExc Nat × World × Seen) (w : World) :
    (¬ Spec.Usable im "wilderness" "0.1.5" → runMain im realmain w = (1, w, ⟨[], []⟩)) ∧
    (Spec.Usable im "wilderness" "0.1.5" → (runMain im realmain w).2 = (realmain w).2 ∧
      ((runMain im realmain w).1 = 0 ↔ ∃ code, (realmain w).1 = .ok code ∧ code % 256 = 0) ∧
      (∀ e, (realmain w).1 = .error e → (runMain im realmain w).1 = 1)) := by
  constructor
  · intro hu
    obtain ⟨e, he⟩ := import_raises fun hx => hu ((usable_iff (by decide)).1 hx)
    rw [runMain, he]
    rfl
  · intro hu
    have hi := (usable_iff (by decide)).2 hu
    simp only [runMain, hi]
    rcases realmain w with ⟨e | code, w', s⟩ <;> simp

/-! ## The exit codes of the commands -/

/-- The command returns 0, 1 or 2. -/
def Codes (m : Act Nat) : Prop := ∀ w c w', m w = (.ok c, w') → c ≤ 2

theorem Codes.bind {α : Type} {m : Act α} {f : α → Act Nat} (h : ∀ a, Codes (f a)) : Codes (m >>= f) := by
  intro w c w' hx
  rw [act_bind] at hx
  rcases hm : m w with ⟨e | a, w1⟩
  · rw [hm] at hx
    cases hx
  · rw [hm] at hx
    exact h a w1 c w' hx

theorem Codes.pure {n : Nat} (h : n ≤ 2) : Codes (pure n) := by
  intro w c w' hx
  cases hx
  exact h

theorem codes_inPlace (sys : Sys) (t : Bool) (p : Path) (d : SimpleDialect) (e g : Option Str) : Codes (inPlace sys t p d e g) := by
  unfold inPlace
  refine .bind fun _ => .bind fun _ => .bind fun _ => .bind fun _ => .bind fun _ => .bind fun _ => ?_
  split
  · exact .bind fun _ => .pure (by decide)
  · exact .bind fun _ => .pure (by decide)

theorem codes_handlePath (sys : Sys) (a : StdArgs) (p : Path) (o : Option Path) (e : Option Str) :
    Codes (handlePath sys a p o e) := by
  have main : ∀ (e target : Option Str) (r : Option SimpleDialect), Codes (match r with
      | none => return 1
      | some d =>
        if a.inPlace then inPlace sys a.transpose p d e target
        else
          match o with
          | none => toStdout sys a.transpose p d e
          | some o => toFile sys a.transpose p o d e target) := by
    intro e target r
    cases r with
    | none => exact .pure (by decide)
    | some d =>
      simp only
      split
      · exact codes_inPlace _ _ _ _ _ _
      · cases o with
        | none =>
          unfold toStdout
          exact .bind fun _ => .bind fun _ => .bind fun _ => .pure (by decide)
        | some o =>
          unfold toFile
          exact .bind fun _ => .bind fun _ => .bind fun _ => .pure (by decide)
  unfold handlePath
  simp only
  split
  · exact .bind fun e => .bind fun r => main e _ r
  · exact .bind fun e => .bind fun r => main e _ r

theorem codes_handleLoop (sys : Sys) (a : StdArgs) : ∀ (l : List (Path × Option Path × Option Str)) (g : Nat), g ≤ 2 →
    Codes (handleLoop sys a l g)
  | [], g, h => .pure h
  | (p, o, e) :: rest, g, h => by
    intro w c w' hx
    rw [handleLoop, act_bind] at hx
    rcases hp : handlePath sys a p o e w with ⟨x | r, w1⟩
    · rw [hp] at hx
      cases hx
    · rw [hp] at hx
      have hr := codes_handlePath sys a p o e w r w1 hp
      simp only at hx
      split at hx
      · cases hx
        exact hr
      · exact codes_handleLoop sys a rest _ (by split <;> omega) w1 c w' hx

theorem codes_standardize (sys : Sys) (a : StdArgs) : Codes (standardize sys a) := by
  unfold standardize
  split
  · exact .pure (by decide)
  · generalize (if a.outputs.length = 0 then a.paths.map (fun _ => none) else a.outputs.map some) = os
    generalize (if a.encodings.length = 0 then a.paths.map (fun _ => none) else a.encodings.map some) = es
    simp only
    split
    · exact .pure (by decide)
    · split
      · exact codes_handleLoop _ _ _ _ (by decide)
      · split
        · exact .pure (by decide)
        · exact codes_handleLoop _ _ _ _ (by decide)

/-- **C131 (exit codes).**  Every command returns 0, 1 or 2, if it returns. -/
theorem C131_codes (sys : Sys) (pr : Printer) (toInt : Str → Option Int) (rt : Elapsed) (ts : List Str) :
    Codes (detectMain sys pr toInt rt ts) ∧ Codes (codeMain sys pr toInt ts) ∧ Codes (standardizeMain sys toInt ts) := by
  refine ⟨?_, ?_, ?_⟩
  · unfold detectMain
    split
    · unfold detectCmdT
      refine .bind fun r => ?_
      cases r with
      | none => exact .pure (by decide)
      | some d => exact .bind fun _ => .bind fun _ => .pure (by decide)
    · exact .pure (by decide)
  · unfold codeMain
    split
    · unfold codeCmd
      refine .bind fun _ => .bind fun r => ?_
      cases r with
      | none => exact .pure (by decide)
      | some d => exact .bind fun _ => .bind fun _ => .pure (by decide)
    · exact .pure (by decide)
  · unfold standardizeMain
    split
    · exact codes_standardize _ _
    · exact .pure (by decide)

/-- **C131 (the exit status of these commands).**  With `wilderness`, the exit status of a command that returns 0, 1 or 2 is what
it returns, or 1 after an exception. -/
theorem C131_status (im : Importer) (hu : Spec.Usable im "wilderness" "0.1.5") (m : Act Nat) (hm : Codes m) (w : World) :
    (runMain im (plainMain m) w).2.1 = (m w).2 ∧
      ((runMain im (plainMain m) w).1 = 0 ↔ (m w).1 = .ok 0) ∧
      ((runMain im (plainMain m) w).1 = 2 ↔ (m w).1 = .ok 2) ∧
      ((runMain im (plainMain m) w).1 = 1 ↔ (m w).1 = .ok 1 ∨ ∃ e, (m w).1 = .error e) := by
  have hi := (usable_iff (by decide)).2 hu
  simp only [runMain, hi, plainMain]
  rcases hx : m w with ⟨e | code, w'⟩
  · simp
  · have := hm w code w' hx
    have hc : code % 256 = code := Nat.mod_eq_of_lt (by omega)
    simp [hc]

/-- The exit status 2 has two meanings: the arguments were not understood, and a file was changed in place. -/
theorem C131_two_meanings :
    let go := fun ts : List Str => runMain ⟨fun _ => some none, fun _ _ => some false⟩
      (plainMain (standardizeMain demoSys (fun _ => none) ts)) (demoWorld [("f", "a;b\nc;d\n")])
    (go ["-i".toList, "f".toList]).1 = 2 ∧ (go ["-i".toList]).1 = 2 ∧
      (go ["-i".toList, "f".toList]).2.1.files "f".toList ≠ (demoWorld [("f", "a;b\nc;d\n")]).files "f".toList ∧
      (go ["-i".toList]).2.1.files "f".toList = (demoWorld [("f", "a;b\nc;d\n")]).files "f".toList := by
  decide +kernel

/-! ## Windows -/

/-- A host where everything can be used. -/
def demoHost (windows : Bool) : Host where
  windows := windows
  importer := ⟨fun _ => some none, fun _ _ => some false⟩
  show_ _ := .ok ()

/-- **C131 is violated** on Windows: the exit status is 0 although nothing was shown and an error was reported. -/
theorem C131_windows_violated :
    let r := runMain (demoHost true).importer
      (viewHost (demoHost true) demoSys "f".toList (some "ascii".toList) none false) (demoWorld [("f", "a,b\nc,d\n")])
    r.1 = 0 ∧ r.2.2.tables = [] ∧ r.2.2.errors.length = 1 := by
  decide +kernel

/-- On Windows the view command never shows a table. -/
theorem C131_windows (h : Host) (hw : h.windows = true) (sys : Sys) (p : Path) (enc : Option Str) (n : Option Int) (t : Bool)
    (w : World) : (viewHost h sys p enc n t w).2.2.tables = [] ∧
      (viewHost h sys p enc n t w).1 = (viewCmd sys p enc n t w).1.map Prod.fst := by
  rw [viewHost_eq]
  rcases viewCmd sys p enc n t w with ⟨e | ⟨code, o⟩, w'⟩
  · exact ⟨rfl, rfl⟩
  · cases o with
    | none => exact ⟨rfl, rfl⟩
    | some T =>
      simp only [tabview, hw, if_true]
      exact ⟨trivial, rfl⟩

/-- The same file elsewhere. -/
example :
    let r := runMain (demoHost false).importer
      (viewHost (demoHost false) demoSys "f".toList (some "ascii".toList) none false) (demoWorld [("f", "a,b\nc,d\n")])
    r.1 = 0 ∧ r.2.2.tables = [[[some "a".toList, some "b".toList], [some "c".toList, some "d".toList]]] ∧
      r.2.2.errors = [] := by
  decide +kernel

/-- Another command, with the file of a ragged table; and the same without `wilderness`. -/
example :
    let m := plainMain (standardizeMain demoSys (fun _ => none) ["f".toList])
    (runMain (demoHost false).importer m (demoWorld [("f", "a;b\nc\n")])).1 = 0 ∧
    (runMain (demoHost false).importer m (demoWorld [("f", "a;b\nc\n")])).2.1.stdout ≠ [] ∧
    (runMain ⟨fun _ => none, fun _ _ => none⟩ m (demoWorld [("f", "a;b\nc\n")])).1 = 1 ∧
    (runMain ⟨fun _ => none, fun _ _ => none⟩ m (demoWorld [("f", "a;b\nc\n")])).2.1.stdout = [] := by
  decide +kernel

/-- The packages of `demoHost` are usable; one that is not installed is not. -/
example : Spec.Usable (demoHost false).importer "tabview" "1.4" ∧
    ¬ Spec.Usable ⟨fun _ => none, fun _ _ => some false⟩ "tabview" "1.4" := by
  constructor
  · exact ⟨none, rfl, by simp⟩
  · rintro ⟨v, hv, -⟩
    cases hv

end Props

end Clever
