import Verif.Proofs.Terminal
import Verif.Props.Utf8
import Verif.Props.ChunkedRun
import Verif.Props.JsonText

/-!
# C128: standard output in an encoding
-/

namespace Clever.Props

open Clever Spec

/-- **C128**, the standardize command: what is printed is printed in the encoding of standard output, with one call of `write`
per file at most; the first text that cannot be encoded raises `UnicodeEncodeError`, and those before have been written. -/
theorem C128_standardize (sys : Sys) (t : Terminal) (a : StdArgs) (w : World) (s : Screen) :
    OnTerminal t a.paths.length w s (standardize sys a w) (standardizeE sys t a w s) :=
  sim_standardize sys a w s

/-- **C128**, a file is printed as a whole or not at all. -/
theorem C128_file (sys : Sys) (t : Terminal) (a : StdArgs) (p : Path) (o : Option Path) (e : Option Str) (w : World) (s : Screen) :
    OnTerminal t 1 w s (handlePath sys a p o e w) (handlePathE sys t a p o e w s) :=
  sim_handlePath sys a p o e w s

/-- **C128**, the code command. -/
theorem C128_code (sys : Sys) (t : Terminal) (pr : Printer) (p : Path) (e : Option Str) (n : Option Int) (pandas : Bool)
    (w : World) (s : Screen) : OnTerminal t 2 w s (codeCmd sys pr p e n pandas w) (codeCmdE sys t pr p e n pandas w s) :=
  sim_code sys pr p e n pandas w s

/-- **C128**, the detect command. -/
theorem C128_detect (sys : Sys) (t : Terminal) (pr : Printer) (p : Path) (e : Option Str) (n : Option Int) (c ns : Bool)
    (f : DetectFormat) (w : World) (s : Screen) :
    OnTerminal t 6 w s (detectCmd sys pr p e n c ns f w) (detectCmdE sys t pr p e n c ns f w s) :=
  sim_detect sys pr p e n c ns f w s

theorem written_flatten {t : Terminal} {s s' : Screen} {xs : List Str} (h : Written t s xs s') :
    ∃ b, t.codec.encodeFrom s.enc (xs.flatten.flatMap fun c => if c = '\n' then t.linesep else [c]) = some (s'.enc, b) ∧
      s'.bytes = s.bytes ++ b := by
  induction h with
  | nil => exact ⟨[], rfl, by simp⟩
  | @cons s0 _ _ _ _ b h _ ih =>
    obtain ⟨b2, k1, k2⟩ := ih
    refine ⟨b ++ b2, ?_, by rw [k2, List.append_assoc]⟩
    rw [List.flatten_cons, List.flatMap_append, encodeFrom_append, h]
    simp only [Option.bind_some, k1, Option.map_some]

theorem encodeFrom_isSome {c : Codec} : ∀ (x : Str) (s : Nat), (∀ y ∈ x, ∀ s, (c.step s y).isSome) → ∃ r, c.encodeFrom s x = some r
  | [], s, _ => ⟨_, rfl⟩
  | y :: x, s, h => by
    obtain ⟨r, hr⟩ := Option.isSome_iff_exists.1 (h y (by simp) s)
    obtain ⟨r2, hr2⟩ := encodeFrom_isSome x r.1 fun z hz => h z (by simp [hz])
    exact ⟨(r2.1, r.2 ++ r2.2), by simp only [Codec.encodeFrom, hr, hr2]⟩

/-- If the encoding has all the characters, everything is printed. -/
theorem onTerminal_printable {α : Type} {t : Terminal} {k : Nat} {w : World} {s : Screen} {plain : Except PyExc α × World}
    {real : Except PyExc α × World × Screen} {text : Str} (h : OnTerminal t k w s plain real)
    (hp : plain.2.stdout = w.stdout ++ text) (ht : ∀ c ∈ text, ∀ s, (t.codec.step s c).isSome)
    (hl : ∀ c ∈ t.linesep, ∀ s, (t.codec.step s c).isSome) :
    ∃ s' b, real = (plain.1, plain.2, s') ∧ s'.bytes = s.bytes ++ b ∧
      t.codec.encodeFrom s.enc (text.flatMap fun c => if c = '\n' then t.linesep else [c]) = some (s'.enc, b) := by
  obtain ⟨texts, -, h1, h2⟩ := h
  rw [hp] at h1
  have h1 := List.append_cancel_left h1
  subst h1
  rcases h2 with ⟨s', h2, h3⟩ | ⟨before, x, after, s', rfl, -, h3, -⟩
  · obtain ⟨b, k1, k2⟩ := written_flatten h2
    exact ⟨s', b, h3, k2, k1⟩
  · exfalso
    unfold Unwritable at h3
    obtain ⟨r, hr⟩ := encodeFrom_isSome (c := t.codec) (x.flatMap fun c => if c = '\n' then t.linesep else [c]) s'.enc (by
      intro y hy
      obtain ⟨z, hz, hy⟩ := List.mem_flatMap.1 hy
      split at hy
      · exact hl y hy
      · rw [List.mem_singleton] at hy
        subst hy
        exact ht y (by simp [hz]))
    rw [hr] at h3
    cases h3

/-- **C128**, if the encoding has all characters (UTF-8): the command does what it does if everything can be printed, and its
output is encoded. -/
theorem C128_complete (sys : Sys) (t : Terminal) (hc : HasAll t.codec) (a : StdArgs) (w : World) (s : Screen) :
    ∃ text s' b, (standardize sys a w).2.stdout = w.stdout ++ text ∧
      standardizeE sys t a w s = ((standardize sys a w).1, (standardize sys a w).2, s') ∧ s'.bytes = s.bytes ++ b ∧
      t.codec.encodeFrom s.enc (text.flatMap fun c => if c = '\n' then t.linesep else [c]) = some (s'.enc, b) := by
  have h := C128_standardize sys t a w s
  have h0 := h
  obtain ⟨texts, -, h1, -⟩ := h0
  obtain ⟨s', b, h2, h3, h4⟩ := onTerminal_printable h h1 (fun c _ s => hc s c) (fun c _ s => hc s c)
  exact ⟨_, s', b, h1, h2, h3, h4⟩

/-- A program that prints only certain characters. -/
def Prints {α : Type} (P : Char → Prop) (m : Act α) : Prop := ∀ w, ∃ x, (m w).2.stdout = w.stdout ++ x ∧ ∀ c ∈ x, P c

theorem Prints.bind {α β : Type} {P : Char → Prop} {m : Act α} {f : α → Act β} (h : Prints P m) (hf : ∀ a, Prints P (f a)) :
    Prints P (m >>= f) := by
  intro w
  obtain ⟨x, h1, h2⟩ := h w
  rw [act_bind]
  rcases hm : m w with ⟨_ | a, w1⟩
  · rw [hm] at h1
    exact ⟨x, h1, h2⟩
  · rw [hm] at h1
    obtain ⟨y, k1, k2⟩ := hf a w1
    refine ⟨x ++ y, ?_, fun c hc => ?_⟩
    · show (f a w1).2.stdout = _
      rw [k1, ← List.append_assoc, ← h1]
    · rcases List.mem_append.1 hc with hc | hc
      · exact h2 c hc
      · exact k2 c hc

theorem prints_silent {α : Type} {P : Char → Prop} {m : Act α} (h : Silent m) : Prints P m := fun w => ⟨[], by simp [h w], by simp⟩

/-- **C128**, JSON: the detect command with `--json` never fails for want of a character, if the encoding has ASCII. -/
theorem C128_json (sys : Sys) (t : Terminal) (hc : HasAscii t.codec) (hl : ∀ c ∈ t.linesep, c.toNat < 128) (pr : Printer)
    (p : Path) (e : Option Str) (n : Option Int) (c ns : Bool) (w : World) (s : Screen) :
    ∃ s', detectCmdE sys t pr p e n c ns .json w s =
      ((detectCmd sys pr p e n c ns .json w).1, (detectCmd sys pr p e n c ns .json w).2, s') := by
  have hp : Prints (fun c => c.toNat < 128) (detectCmd sys pr p e n c ns .json) := by
    refine (prints_silent (silent_detectDialect sys p _ _ _ _)).bind fun r => ?_
    cases r with
    | none => exact prints_silent (silent_pure _)
    | some d =>
      simp only
      have hd : detectLines sys.env pr d .json = match d.serialize with
          | .error x => .error x
          | .ok x => .ok [x] := by
        simp only [detectLines, SimpleDialect.serialize]
        cases d.toDict <;> rfl
      rw [hd]
      cases hs : d.serialize with
      | error x => exact fun w => ⟨[], by simp [liftExcept, act_bind], by simp⟩
      | ok x =>
        intro w
        refine ⟨x ++ ['\n'], by simp [liftExcept, act_bind, printText, act_pure], fun c hc => ?_⟩
        rcases List.mem_append.1 hc with hc | hc
        · have := ((C103_serialize hs).2 c hc).2
          omega
        · rw [List.mem_singleton] at hc
          subst hc
          decide
  obtain ⟨x, h1, h2⟩ := hp w
  obtain ⟨s', b, h3, -⟩ := onTerminal_printable (C128_detect sys t pr p e n c ns .json w s) h1 (fun c hx s => hc s c (h2 c hx))
    (fun c hx s => hc s c (hl c hx))
  exact ⟨s', h3⟩

theorem newlines_same {t : Terminal} (h : t.linesep = ['\n']) (x : Str) :
    (x.flatMap fun c => if c = '\n' then t.linesep else [c]) = x := by
  rw [h]
  induction x with
  | nil => rfl
  | cons c x ih =>
    rw [List.flatMap_cons, ih]
    split
    · rename_i hc; rw [hc]; rfl
    · rfl

/-- **C128**, redirection: if standard output has the encoding that an output file would have and LF is written as it is, then
standard output gets the bytes that the output file would get (and vice versa: `C128_redirect_runs`).
The full property, for all encodings and platforms, is false: `C128_windows_violated`, `C128_encoding_violated`. -/
theorem C128_redirect_partial {sys : Sys} (hq : Quiet sys) {t : Terminal} (ht : t.linesep = ['\n']) (a : StdArgs)
    (hi : a.inPlace = false) (p o : Path) (hpo : p ≠ o) (e : Option Str) (w w' : World) (s' : Screen) (c : Nat) (hc : c ≠ 1)
    (hcodec : sys.codec (stdTarget a (w.stdEncoding sys p e)) = some t.codec)
    (h : handlePathE sys t a p none e w {} = (.ok c, w', s')) :
    ∃ w2, handlePath sys a p (some o) e w = (.ok c, w2) ∧ w2.files o = some s'.bytes := by
  obtain ⟨texts, -, h1, h2⟩ := C128_file sys t a p none e w {}
  rcases h2 with ⟨s2, h2, h3⟩ | ⟨before, x, after, s2, -, -, -, h3, -⟩
  swap
  · rw [h] at h3; cases h3
  rw [h] at h3
  rcases hpl : handlePath sys a p none e w with ⟨r, w1⟩
  rw [hpl] at h1 h3
  simp only [Prod.mk.injEq] at h3
  obtain ⟨rfl, rfl, rfl⟩ := h3
  obtain ⟨b, k1, k2⟩ := written_flatten h2
  rw [newlines_same ht] at k1
  obtain ⟨text, r, v, j1, j2, j3, j4, j5, j | ⟨d, rfl, j⟩⟩ := handlePath_inv hpl
  · exact absurd j.2.1 hc
  unfold deliver at j
  rw [hi] at j
  simp only [Bool.false_eq_true, if_false] at j
  obtain ⟨text', rows, i1, i2, i3, -, rfl, -⟩ := toStdout_inv j
  rw [text_files (w := w) (by rw [j3]), j1] at i1
  cases i1
  rw [j5, h1] at i3
  have i3 := List.append_cancel_left i3
  rw [i3] at k1
  have hv : d.validate = .ok () := (C40_valid _ _ _ _ _ _ _ _ (by simp) j2).1
  obtain ⟨v2, g1, g2, g3, g4⟩ := handlePath_ok hq a (some o) j1 j2
  have henc : encoded sys (stdTarget a (w.stdEncoding sys p e)) (excelText (shown a.transpose rows)) = some b :=
    encoded_of_encodes ⟨t.codec, _, hcodec, k1⟩
  obtain ⟨w2, f1⟩ := toFile_ok hq hpo (t := a.transpose) (w := v2) (target := stdTarget a (w.stdEncoding sys p e))
    hv (by rw [text_files (w := w) (by rw [g1])]; exact j1) (by rw [g2, ← j4]; exact i2) henc
  obtain ⟨text2, rows2, b2, f2, f3, f4, -, -, -, f5, -⟩ := toFile_inv hpo f1
  rw [text_files (w := w) (by rw [g1]), j1] at f2
  cases f2
  rw [g2, ← j4, i2] at f3
  cases f3
  rw [henc] at f4
  cases f4
  refine ⟨w2, ?_, by rw [f5, k2]; rfl⟩
  rw [g4]
  unfold deliver
  rw [hi]
  exact f1

/-- **C128**, the other direction: if the command with an output file succeeds, then so does the redirected one, and standard output
gets the bytes of the file. -/
theorem C128_redirect_runs {sys : Sys} (hq : Quiet sys) {t : Terminal} (ht : t.linesep = ['\n']) (a : StdArgs)
    (hi : a.inPlace = false) (p o : Path) (hpo : p ≠ o) (e : Option Str) (w w2 : World) (c : Nat) (hc : c ≠ 1)
    (hcodec : sys.codec (stdTarget a (w.stdEncoding sys p e)) = some t.codec)
    (h : handlePath sys a p (some o) e w = (.ok c, w2)) :
    ∃ w' s', handlePathE sys t a p none e w {} = (.ok c, w', s') ∧ w2.files o = some s'.bytes := by
  obtain ⟨text, r, v, j1, j2, j3, j4, j5, j | ⟨d, rfl, j⟩⟩ := handlePath_inv h
  · exact absurd j.2.1 hc
  unfold deliver at j
  rw [hi] at j
  simp only [Bool.false_eq_true, if_false] at j
  obtain ⟨text', rows, b, i1, i2, i3, -, -, rfl, i4, -⟩ := toFile_inv hpo j
  rw [text_files (w := w) (by rw [j3]), j1] at i1
  cases i1
  have hv : d.validate = .ok () := (C40_valid _ _ _ _ _ _ _ _ (by simp) j2).1
  obtain ⟨v2, g1, g2, g3, g4⟩ := handlePath_ok hq a none j1 j2
  obtain ⟨v3, f1⟩ := toStdout_ok hq (t := a.transpose) (w := v2) hv
    (by rw [text_files (w := w) (by rw [g1])]; exact j1) (by rw [g2, ← j4]; exact i2)
  have hpl : handlePath sys a p none e w = (.ok 0, v3) := by
    rw [g4]
    unfold deliver
    rw [hi]
    exact f1
  obtain ⟨text2, rows2, f2, f3, f4, -, -, -⟩ := toStdout_inv f1
  rw [text_files (w := w) (by rw [g1]), j1] at f2
  cases f2
  rw [g2, ← j4, i2] at f3
  cases f3
  obtain ⟨cd, st, e1, e2⟩ := encoded_some i3
  rw [hcodec] at e1
  cases e1
  obtain ⟨texts, h0, h1, h2⟩ := C128_file sys t a p none e w {}
  rw [hpl] at h1 h2
  simp only at h1 h2
  rw [f4, g3] at h1
  have h1 := List.append_cancel_left h1
  rcases h2 with ⟨s', h2, h3⟩ | ⟨before, x, after, s', rfl, hw, h3, -⟩
  · obtain ⟨b2, k1, k2⟩ := written_flatten h2
    rw [newlines_same ht, ← h1, show (({} : Screen).enc) = 0 from rfl, e2] at k1
    simp only [Option.some.injEq, Prod.mk.injEq] at k1
    refine ⟨v3, s', h3, ?_⟩
    rw [i4, k2, k1.2]
    rfl
  · exfalso
    have hb : before = [] ∧ after = [] := by
      simp only [List.length_append, List.length_cons] at h0
      exact ⟨List.length_eq_zero_iff.1 (by omega), List.length_eq_zero_iff.1 (by omega)⟩
    obtain ⟨rfl, rfl⟩ := hb
    cases hw
    unfold Unwritable at h3
    rw [newlines_same ht] at h3
    simp only [List.nil_append, List.flatten_cons, List.flatten_nil, List.append_nil] at h1
    rw [← h1, show (({} : Screen).enc) = 0 from rfl, e2] at h3
    cases h3

/-- **C128**, several files: if the command is stopped by an exception, it has done what it does for the files before the one at
which it is stopped. -/
theorem C128_stopped (sys : Sys) (t : Terminal) (a : StdArgs) (h : ¬ BadArgs a) (w w' : World) (s s' : Screen) (x : PyExc)
    (hr : standardizeE sys t a w s = (.error x, w', s')) :
    ∃ i p o e c w1 s1, job a i = some (p, o, e) ∧ c ≠ 1 ∧ standardizeE sys t (firstFiles a i) w s = (.ok c, w1, s1) ∧
      handlePathE sys t a p o e w1 s1 = (.error x, w', s') := by
  have loop : ∀ (jobs : List (Path × Option Path × Option Str)) (g : Nat) (_ : g ≠ 1) (w : World) (s : Screen),
      handleLoopE sys t a jobs g w s = (.error x, w', s') →
      ∃ done p o e rest c w1 s1, jobs = done ++ (p, o, e) :: rest ∧ c ≠ 1 ∧
        handleLoopE sys t a done g w s = (.ok c, w1, s1) ∧ handlePathE sys t a p o e w1 s1 = (.error x, w', s') := by
    intro jobs
    induction jobs with
    | nil => intro g _ w s h; cases h
    | cons j rest ih =>
      obtain ⟨p, o, e⟩ := j
      intro g hg w s h
      rw [handleLoopE, actE_bind] at h
      rcases hp : handlePathE sys t a p o e w s with ⟨y | c, w1, s1⟩
      · rw [hp] at h
        exact ⟨[], p, o, e, rest, g, w, s, rfl, hg, rfl, hp.trans h⟩
      · rw [hp] at h
        simp only at h
        by_cases hc : c = 1
        · rw [if_pos hc] at h; cases h
        · rw [if_neg hc] at h
          obtain ⟨done, p2, o2, e2, rest2, c2, w2, s2, rfl, k1, k2, k3⟩ := ih _ (by split <;> assumption) w1 s1 h
          refine ⟨(p, o, e) :: done, p2, o2, e2, rest2, c2, w2, s2, rfl, k1, ?_, k3⟩
          rw [handleLoopE, actE_bind, hp]
          simp only [if_neg hc]
          exact k2
  obtain ⟨jobs, hj, h1⟩ := stdJobs_good h
  rw [standardizeE_eq, h1] at hr
  obtain ⟨done, p, o, e, rest, c, w1, s1, rfl, k1, k2, k3⟩ := loop jobs 0 (by decide) w s hr
  have hjob : job a done.length = some (p, o, e) := by rw [← hj]; simp
  have hi : done.length ≤ a.paths.length := by
    unfold job at hjob
    cases hp : a.paths[done.length]? with
    | none => simp [hp] at hjob
    | some x => exact Nat.le_of_lt (List.getElem?_eq_some_iff.1 hp).1
  refine ⟨done.length, p, o, e, c, w1, s1, hjob, k1, ?_, k3⟩
  obtain ⟨l, h2, h3⟩ := stdJobs_good (firstFiles_good h done.length hi)
  have hl : l = done := by
    apply List.ext_getElem?
    intro k
    rw [h2]
    by_cases hk : k < done.length
    · rw [firstFiles_job h _ k hk hi, ← hj, List.getElem?_append_left hk]
    · unfold job firstFiles
      simp only [List.getElem?_take, hk, if_false, Option.map_none]
      rw [List.getElem?_eq_none (by omega)]
  rw [standardizeE_eq, h3, hl]
  have hsame : ∀ (jobs : List (Path × Option Path × Option Str)) (g : Nat),
      handleLoopE sys t (firstFiles a done.length) jobs g = handleLoopE sys t a jobs g := by
    intro jobs
    induction jobs with
    | nil => intro g; rfl
    | cons j rest ih =>
      obtain ⟨p, o, e⟩ := j
      intro g
      have hp : handlePathE sys t (firstFiles a done.length) p o e = handlePathE sys t a p o e := rfl
      rw [handleLoopE, handleLoopE, hp]
      simp only [ih]
  exact (congrFun (congrFun (hsame done 0) w) s).trans k2

/-- **C128**, without `-i` and `-o` no file is changed, whatever can be printed. -/
theorem C128_files (sys : Sys) (t : Terminal) (a : StdArgs) (hi : a.inPlace = false) (ho : a.outputs = []) (w : World) (s : Screen) :
    (standardizeE sys t a w s).2.1.files = w.files := by
  have hpath : ∀ p e, KeepsE (handlePathE sys t a p none e) := by
    intro p e
    refine (keepsE_silently (only_stdChoose _ sys p e)).bind fun e' =>
      (keepsE_silently (only_detectDialect _ sys p _ _ _ _)).bind fun r => ?_
    cases r with
    | none => exact keepsE_pure _
    | some d =>
      rw [hi]
      exact (keepsE_silently (only_writeToStream _ sys _ _ _ _)).bind fun _ => (keepsE_silently (only_liftExcept _ _)).bind fun _ =>
        (keepsE_write _).bind fun _ => keepsE_pure _
  have loop : ∀ (jobs : List (Path × Option Path × Option Str)) (_ : ∀ j ∈ jobs, j.2.1 = none) (g : Nat),
      KeepsE (handleLoopE sys t a jobs g) := by
    intro jobs
    induction jobs with
    | nil => intro _ g; exact keepsE_pure _
    | cons j rest ih =>
      obtain ⟨p, o, e⟩ := j
      intro hj g
      have : o = none := hj (p, o, e) (by simp)
      subst this
      rw [handleLoopE]
      refine (hpath p e).bind fun r => ?_
      simp only []
      generalize (if r > 0 ∧ g = 0 then r else g) = g'
      split
      · exact keepsE_pure _
      · exact ih (fun j hm => hj j (by simp [hm])) g'
  rw [standardizeE_eq]
  by_cases hb : BadArgs a
  · rw [stdJobs_bad hb]
    rfl
  · obtain ⟨jobs, hj, h1⟩ := stdJobs_good hb
    rw [h1]
    refine loop jobs (fun j hm => ?_) 0 w s
    obtain ⟨i, hi⟩ := List.mem_iff_getElem?.1 hm
    rw [hj] at hi
    unfold job at hi
    cases hp : a.paths[i]? with
    | none => simp [hp] at hi
    | some p =>
      simp only [hp, Option.map_some, Option.some.injEq] at hi
      subst hi
      simp [ho]

/-- **C128**, without `-i` and `-o` the option `--target-encoding` has no effect: the encoding is that of standard output. -/
theorem C128_target (sys : Sys) (t : Terminal) (a : StdArgs) (hi : a.inPlace = false) (ho : a.outputs = []) (target : Option Str) :
    standardizeE sys t { a with target := target } = standardizeE sys t a := by
  have hpath : ∀ p e, handlePathE sys t { a with target := target } p none e = handlePathE sys t a p none e := by
    intro p e
    unfold handlePathE
    simp only [hi, Bool.false_eq_true, if_false]
  have loop : ∀ (jobs : List (Path × Option Path × Option Str)) (_ : ∀ j ∈ jobs, j.2.1 = none) (g : Nat),
      handleLoopE sys t { a with target := target } jobs g = handleLoopE sys t a jobs g := by
    intro jobs
    induction jobs with
    | nil => intro _ g; rfl
    | cons j rest ih =>
      obtain ⟨p, o, e⟩ := j
      intro hj g
      have : o = none := hj (p, o, e) (by simp)
      subst this
      rw [handleLoopE, handleLoopE, hpath]
      have := ih fun j hm => hj j (by simp [hm])
      simp only [this]
  rw [standardizeE_eq, standardizeE_eq]
  have hjobs : stdJobs { a with target := target } = stdJobs a := rfl
  rw [hjobs]
  by_cases hb : BadArgs a
  · rw [stdJobs_bad hb]
  · obtain ⟨jobs, hj, h1⟩ := stdJobs_good hb
    rw [h1]
    refine loop jobs (fun j hm => ?_) 0
    obtain ⟨i, hi⟩ := List.mem_iff_getElem?.1 hm
    rw [hj] at hi
    unfold job at hi
    cases hp : a.paths[i]? with
    | none => simp [hp] at hi
    | some p =>
      simp only [hp, Option.map_some, Option.some.injEq] at hi
      subst hi
      simp [ho]

/-! ## Violations and examples -/

/-- Standard output in ASCII. -/
def asciiOut : Terminal := { codec := asciiCodec }

/-- Standard output in ASCII on Windows. -/
def windowsOut : Terminal := { codec := asciiCodec, linesep := "\r\n".toList }

/-- On Windows the redirected output is not that of `-o`: every line ends in CR CR LF, and reading it gives an empty row after
every row. -/
theorem C128_windows_violated :
    let w := demoWorld [("f", "a;b\n1;2\n")]
    let a : StdArgs := { paths := ["f".toList] }
    let r := handlePathE demoSys windowsOut a "f".toList none none w {}
    let r2 := handlePath demoSys a "f".toList (some "g".toList) none w
    r.1 = .ok 0 ∧ r2.1 = .ok 0 ∧
    asciiCodec.decode r.2.2.bytes = some "a,b\r\r\n1,2\r\r\n".toList ∧
    (r2.2.files "g".toList).bind asciiCodec.decode = some "a,b\r\n1,2\r\n".toList ∧
    readText 131072 (.name "excel") {} "a,b\r\r\n1,2\r\r\n".toList =
      .ok [["a".toList, "b".toList], [], ["1".toList, "2".toList], []] ∧
    readText 131072 (.name "excel") {} "a,b\r\n1,2\r\n".toList = .ok [["a".toList, "b".toList], ["1".toList, "2".toList]] := by
  decide +kernel

/-- A file in UTF-8 can be standardized with `-o`, but not printed if the encoding of standard output lacks a character; the file
before it has been printed, and no encoding given on the command line helps (`C128_target`). -/
theorem C128_encoding_violated :
    let w : World := { demoWorld [("f", "a;b\n1;2\n")] with
      files := fun p => if p = "f".toList then some (utf8 "a;b\n1;2\n".toList)
        else if p = "g".toList then some (utf8 "é;b\n1;2\n".toList) else none }
    let a : StdArgs := { paths := ["f".toList, "g".toList], target := some "utf-8".toList }
    let r := standardizeE utf8Sys asciiOut a w {}
    let r2 := standardize utf8Sys { a with outputs := ["f2".toList, "g2".toList] } w
    r.1 = .error .unicodeError ∧ asciiCodec.decode r.2.2.bytes = some "a,b\r\n1,2\r\n".toList ∧
    r2.1 = .ok 0 ∧ r2.2.files "g2".toList = some (utf8 "é,b\r\n1,2\r\n".toList) := by
  decide +kernel

/-- The hypotheses of `C128_redirect_partial`: a file that is printed and one that cannot be printed. -/
example :
    let w := demoWorld [("f", "a;b\n1;2\n")]
    let r := handlePathE demoSys asciiOut { paths := ["f".toList] } "f".toList none none w {}
    r.1 = .ok 0 ∧ asciiCodec.decode r.2.2.bytes = some "a,b\r\n1,2\r\n".toList ∧ asciiOut.linesep = ['\n'] ∧
    (demoSys.codec none).isSome := by decide +kernel

/-- ASCII is enough for JSON; a dialect with another character cannot be printed in the default format. -/
example : HasAscii asciiCodec := fun s x h => by simp [asciiCodec, h]

example :
    let env := { asciiEnv with category := fun c => if c = '§' then "Po" else asciiEnv.category c,
                               letter := fun c => c ≠ '§' && asciiEnv.letter c }
    let w : World := { demoWorld [] with
      files := fun p => if p = "f".toList then some (utf8 "a§b§c\n1§2§3\n4§5§6\n".toList) else none }
    let r (f : DetectFormat) := detectCmdE { utf8Sys with env := env } asciiOut ⟨[], fun _ => true⟩ "f".toList none none
      false false f w {}
    (r .json).1 = .ok 0 ∧ asciiCodec.decode (r .json).2.2.bytes =
      some ("{\"delimiter\": \"\\u00a7\", \"quotechar\": \"\", \"escapechar\": \"\", \"strict\": false}\n".toList) ∧
    (r .default).1 = .error .unicodeError ∧ (r .default).2.2.bytes = [] := by decide +kernel

example : HasAll utf8Codec := fun _ _ => rfl

end Clever.Props
