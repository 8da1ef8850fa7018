import Verif.Proofs.ChunkedRun
import Verif.Spec.ChunkedRun

/-!
# C127: the standardize command for several files, in chunks and with buffers
-/

namespace Clever.Props

open Clever Spec

/-- Inconsistent arguments: exit code 1, and nothing has happened. -/
theorem C127_bad_args (sys : Sys) (io : Io) (a : StdArgs) (h : BadArgs a) (w : World) : standardizeC sys io a w = (.ok 1, w) := by
  rw [standardizeC_eq, stdJobs_bad h]
  rfl

theorem firstFiles_good {a : StdArgs} (h : ¬ BadArgs a) (i : Nat) (hi : i ≤ a.paths.length) : ¬ BadArgs (firstFiles a i) := by
  unfold BadArgs at h ⊢
  simp only [not_or, not_and, Decidable.not_not] at h ⊢
  obtain ⟨h1, h2, h3⟩ := h
  refine ⟨fun h => ?_, fun h => ?_, fun h => ?_⟩
  · simp [firstFiles, h1 h]
  · simp only [firstFiles] at h ⊢
    have : a.outputs ≠ [] := by rintro h0; simp [h0] at h
    simp [h2 this]
  · simp only [firstFiles] at h ⊢
    split
    · rename_i hl
      intro h'
      exact absurd hl h'
    · rename_i hl
      rw [if_neg hl] at h
      intro _
      have : a.encodings ≠ [] := by rintro h0; simp [h0] at h
      simp [h3 this hl]

theorem firstFiles_job {a : StdArgs} (h : ¬ BadArgs a) (i k : Nat) (hk : k < i) (hi : i ≤ a.paths.length) :
    job (firstFiles a i) k = job a k := by
  unfold BadArgs at h
  simp only [not_or, not_and, Decidable.not_not] at h
  obtain ⟨-, -, h3⟩ := h
  unfold job firstFiles
  simp only [List.getElem?_take, hk, if_true]
  congr 1
  funext p
  congr 2
  by_cases hl : a.encodings.length = 1
  · simp [hl]
  · simp only [hl, if_false]
    by_cases h0 : a.encodings = []
    · simp [h0]
    · have := h3 h0 hl
      split
      · rename_i h1
        rw [List.length_take] at h1
        have : k = 0 := by omega
        subst this
        simp [List.getElem?_take, hk]
      · simp [hk]

theorem handleLoop_firstFiles (sys : Sys) (a : StdArgs) (i : Nat) : ∀ (jobs : List (Path × Option Path × Option Str)) (g : Nat),
    handleLoop sys (firstFiles a i) jobs g = handleLoop sys a jobs g
  | [], _ => rfl
  | (p, o, e) :: rest, g => by
    have hp : handlePath sys (firstFiles a i) p o e = handlePath sys a p o e := rfl
    rw [handleLoop, handleLoop, hp]
    simp only [handleLoop_firstFiles sys a i rest]

theorem standardize_firstFiles {a : StdArgs} (h : ¬ BadArgs a) {jobs : List (Path × Option Path × Option Str)}
    (hj : ∀ i, jobs[i]? = job a i) {i : Nat} (hi : i ≤ a.paths.length) (sys : Sys) :
    standardize sys (firstFiles a i) = handleLoop sys a (jobs.take i) 0 := by
  obtain ⟨l, h1, h2⟩ := stdJobs_good (firstFiles_good h i hi)
  rw [standardize_eq, h2]
  have : l = jobs.take i := by
    apply List.ext_getElem?
    intro k
    rw [h1, List.getElem?_take]
    split
    · rename_i hk
      rw [firstFiles_job h i k hk hi, hj]
    · rename_i hk
      unfold job firstFiles
      simp only [List.getElem?_take, hk, if_false, Option.map_none]
  rw [this]
  exact handleLoop_firstFiles sys a i _ _

theorem jobs_apart {a : StdArgs} {jobs : List (Path × Option Path × Option Str)} (hj : ∀ i, jobs[i]? = job a i)
    (h : a.inPlace = true ∨ ∀ (i : Nat) (p : Path), a.paths[i]? = some p → a.outputs[i]? ≠ some p) : Apart a jobs := by
  refine h.imp_right fun h j hm => ?_
  obtain ⟨i, hi⟩ := List.mem_iff_getElem?.1 hm
  rw [hj] at hi
  unfold job at hi
  cases hp : a.paths[i]? with
  | none => simp [hp] at hi
  | some p =>
    simp only [hp, Option.map_some, Option.some.injEq] at hi
    subst hi
    exact h i p hp

/-- **C127**, the run: either the command succeeds for all files, and then it has done what it does if files are read at once and
written without a buffer and nothing fails; or it stops at one file, for which no dialect is detected or an exception is raised,
and up to there it has done exactly what it does if it is called for the files before this one and nothing fails. -/
theorem C127_run {sys : Sys} {io : Io} (hio : IoOk sys io) (a : StdArgs) (h : ¬ BadArgs a)
    (hap : a.inPlace = true ∨ ∀ (i : Nat) (p : Path), a.paths[i]? = some p → a.outputs[i]? ≠ some p) (w w' : World)
    (r : Except PyExc Nat) (hr : standardizeC sys io a w = (r, w')) :
    (∃ c w2, r = .ok c ∧ c ≠ 1 ∧ standardize (quiet sys) a w = (.ok c, w2) ∧ Same w2 w') ∨
    (∃ i p o e c w1 w2, job a i = some (p, o, e) ∧ c ≠ 1 ∧
      standardize (quiet sys) (firstFiles a i) w = (.ok c, w2) ∧ Same w2 w1 ∧
      handlePathC sys io a p o e w1 = (r, w') ∧ (r = .ok 1 ∨ ∃ x, r = .error x)) := by
  obtain ⟨jobs, hj, h1⟩ := stdJobs_good h
  rw [standardizeC_eq, h1] at hr
  rcases handleLoopC_spec hio a jobs (jobs_apart hj hap) 0 (by decide) w w' r hr with
    ⟨c, w2, k1, k2, k3, k4⟩ | ⟨done, p, o, e, rest, g, w1, w2, rfl, k2, k3, k4, k5, k6⟩
  · exact .inl ⟨c, w2, k1, k2, by rw [standardize_eq, h1]; exact k3, k4⟩
  · have hjob : job a done.length = some (p, o, e) := by rw [← hj]; simp
    have hi : done.length ≤ a.paths.length := by
      unfold job at hjob
      cases hp : a.paths[done.length]? with
      | none => simp [hp] at hjob
      | some x => exact Nat.le_of_lt (List.getElem?_eq_some_iff.1 hp).1
    refine .inr ⟨done.length, p, o, e, g, w1, w2, hjob, k2, ?_, k4, k5, k6⟩
    rw [standardize_firstFiles h hj hi]
    simpa using k3

/-- **C127**, if nothing fails: the command does what it does if files are read at once and written without a buffer. -/
theorem C127_runs {sys : Sys} {io : Io} (hio : IoOk sys io) (hq : Quiet sys) (hr : IoQuiet io) (a : StdArgs)
    (hap : a.inPlace = true ∨ ∀ (i : Nat) (p : Path), a.paths[i]? = some p → a.outputs[i]? ≠ some p) (w w2 : World) (c : Nat)
    (h : standardize sys a w = (.ok c, w2)) : ∃ w', standardizeC sys io a w = (.ok c, w') ∧ Same w2 w' := by
  by_cases hb : BadArgs a
  · rw [C55_bad_args sys a hb] at h
    cases h
    exact ⟨w, C127_bad_args sys io a hb w, rfl, rfl, rfl⟩
  · obtain ⟨jobs, hj, h1⟩ := stdJobs_good hb
    rw [standardize_eq, h1] at h
    rw [standardizeC_eq, h1]
    exact handleLoopC_runs hio hq hr a jobs (jobs_apart hj hap) 0 w w2 c h

/-- **C127**, what is left when the command stops early: compared with a run over the files before (`w2`), nothing has changed if
no dialect is detected; only the output file of the file at which it stops, if there is one; and in place only the temporary file,
and the file itself only if that is on another file system.  Nothing of this file has been printed. -/
theorem C127_stopped {sys : Sys} {io : Io} (hio : IoOk sys io) (a : StdArgs) (h : ¬ BadArgs a)
    (hap : a.inPlace = true ∨ ∀ (i : Nat) (p : Path), a.paths[i]? = some p → a.outputs[i]? ≠ some p) (w w' : World)
    (r : Except PyExc Nat) (hr : standardizeC sys io a w = (r, w')) (hs : r = .ok 1 ∨ ∃ x, r = .error x) :
    ∃ i p o e c w2, job a i = some (p, o, e) ∧ c ≠ 1 ∧ standardize (quiet sys) (firstFiles a i) w = (.ok c, w2) ∧
      (r = .ok 1 → Same w2 w') ∧
      (a.inPlace = false → w'.stdout = w2.stdout ∧ ∀ q, o ≠ some q → w'.files q = w2.files q) ∧
      (a.inPlace = true → (∀ q, q ≠ p → q ≠ sys.tempName w2.files → w'.files q = w2.files q) ∧
        (sys.crossDevice = false → w'.files p = w2.files p)) := by
  rcases C127_run hio a h hap w w' r hr with ⟨c, w2, rfl, hc, -⟩ | ⟨i, p, o, e, c, w1, w2, k1, k2, k3, k4, k5, -⟩
  · rcases hs with hs | ⟨x, hs⟩
    · exact absurd (Except.ok.inj hs) hc
    · cases hs
  · refine ⟨i, p, o, e, c, w2, k1, k2, k3, ?_⟩
    obtain ⟨f1, f2, f3⟩ := k4
    rcases hs with rfl | ⟨x, rfl⟩
    · obtain ⟨j1, j2, j3, -⟩ := C124_one hio a p o e w1 w' k5
      have e1 : w'.files = w2.files := j1.trans f1
      exact ⟨fun _ => ⟨e1, j3.trans f2, j2.trans f3⟩, fun _ => ⟨j2.trans f3, fun q _ => by rw [e1]⟩,
        fun _ => ⟨fun q _ _ => by rw [e1], fun _ => by rw [e1]⟩⟩
    · refine ⟨(fun h => by cases h), fun hi => ?_, fun hi => ?_⟩
      · cases o with
        | none =>
          obtain ⟨j1, j2⟩ := C124_failure_stdout hio a hi p e w1 w' x k5
          exact ⟨j2.trans f3, fun q _ => by rw [j1, f1]⟩
        | some o =>
          have hpo : p ≠ o := by
            rintro rfl
            rcases hap with hap | hap
            · rw [hi] at hap; cases hap
            · unfold job at k1
              cases hp : a.paths[i]? with
              | none => simp [hp] at k1
              | some y =>
                simp only [hp, Option.map_some, Option.some.injEq, Prod.mk.injEq] at k1
                obtain ⟨rfl, k1, -⟩ := k1
                exact hap i y hp k1
          obtain ⟨j1, j2, -⟩ := C124_failure_file hio a hi p o hpo e w1 w' x k5
          refine ⟨j2.trans f3, fun q hq => ?_⟩
          rw [j1 q (by rintro rfl; exact hq rfl), f1]
      · obtain ⟨j1, j2⟩ := C124_failure_in_place hio a hi p o e w1 w' x k5
        rw [f1] at j1 j2
        refine ⟨j1, fun hd => ?_⟩
        rcases j2 with j2 | ⟨j2, -⟩
        · exact j2
        · rw [hd] at j2; cases j2

/-! ## Examples -/

/-- Two files; a read of the second fails: the output of the first has been printed. -/
example :
    let w := demoWorld [("f", "a;b\n"), ("g", "c;d\n1;2\n")]
    let r := standardizeC demoSys brokenIo { paths := ["f".toList, "g".toList] } w
    let r1 := standardize (quiet demoSys) (firstFiles { paths := ["f".toList, "g".toList] } 1) w
    r.1 = .error .osError ∧ r.2.stdout = "a,b\r\n".toList ∧ r1.1 = .ok 0 ∧ r1.2.stdout = "a,b\r\n".toList := by decide +kernel

example : ¬ BadArgs { paths := ["f".toList, "g".toList] } := by simp [BadArgs]

/-- Two files in place, in chunks: both are standardised. -/
example :
    let w := demoWorld [("f", "a;b\n"), ("g", "c;d\n1;2\n")]
    let r := standardizeC demoSys demoIo { paths := ["f".toList, "g".toList], inPlace := true } w
    r.1 = .ok 2 ∧ r.2.text demoSys "f".toList none = some "a,b\r\n".toList ∧
    r.2.text demoSys "g".toList none = some "c,d\r\n1,2\r\n".toList := by decide +kernel

end Clever.Props
