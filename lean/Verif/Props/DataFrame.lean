import Verif.Model.DataFrame
import Verif.Props.Code

/-!
# C88-C90: optional dependencies, `read_dataframe` and the explore command
-/

namespace Clever.Props

open Clever

/-! ## C88 Optional dependencies -/

theorem dependency_find (name : Str) : (∃ dep, optionalDependencies.reverse.find? (fun d => d.importName = name) = some dep ∧
      dep ∈ optionalDependencies ∧ dep.importName = name ∧
      ∀ d ∈ optionalDependencies, d.importName = name → d = dep) ∨
    (optionalDependencies.reverse.find? (fun d => d.importName = name) = none ∧
      ∀ d ∈ optionalDependencies, d.importName ≠ name) := by
  cases h : optionalDependencies.reverse.find? (fun d => d.importName = name) with
  | none =>
    refine .inr ⟨rfl, fun d hd => ?_⟩
    simpa using List.find?_eq_none.1 h d (by simpa using hd)
  | some dep =>
    have h1 := List.mem_of_find?_eq_some h
    have h2 : dep.importName = name := by simpa using List.find?_some h
    refine .inl ⟨dep, rfl, by simpa using h1, h2, ?_⟩
    subst h2
    have : ∀ a ∈ optionalDependencies, ∀ b ∈ optionalDependencies, a.importName = b.importName → a = b := by decide
    exact fun d hd he => this d hd dep (by simpa using h1) he

/-- **C88** `import_optional_dependency` returns the module exactly if it can be imported, is in the list, and has no
version or one that is not older than the minimum. -/
theorem C88_found (im : Importer) (name : Str) (r : Bool) : importOptional im name r = .ok true ↔
    ∃ v, im.installed name = some v ∧ ∃ dep ∈ optionalDependencies, dep.importName = name ∧
      ∀ s, v = some s → im.older s dep.minVersion = some false := by
  unfold importOptional
  cases hi : im.installed name with
  | none => cases r <;> simp
  | some v =>
    rcases dependency_find name with ⟨dep, hf, hm, hn, hu⟩ | ⟨hf, hno⟩
    · simp only [hf]
      cases v with
      | none => simp only [true_iff]; exact ⟨none, rfl, dep, hm, hn, by simp⟩
      | some s =>
        simp only
        constructor
        · intro h
          refine ⟨some s, rfl, dep, hm, hn, fun s' hs => ?_⟩
          cases hs
          split at h
          · cases h
          · cases h
          · assumption
        · rintro ⟨v, hv, dep', hm', hn', h⟩
          cases hv
          rw [hu dep' hm' hn'] at h
          rw [h s rfl]
    · simp only [hf, reduceCtorEq, false_iff, not_exists, not_and]
      exact fun _ _ dep hm hn => absurd hn (hno dep hm)

/-- None is returned exactly if the module cannot be imported and no exception is requested. -/
theorem C88_none (im : Importer) (name : Str) (r : Bool) : importOptional im name r = .ok false ↔
    im.installed name = none ∧ r = false := by
  unfold importOptional
  cases hi : im.installed name with
  | none => cases r <;> simp
  | some v =>
    rcases dependency_find name with ⟨dep, hf, hm, hn, hu⟩ | ⟨hf, hno⟩
    · simp only [hf]
      cases v with
      | none => simp
      | some s =>
        simp only [reduceCtorEq, false_and, iff_false]
        split <;> simp
    · simp [hf]

/-- **C88** fails: `raise_on_missing=False` does not prevent an exception.  With an outdated version of `cchardet`, the
encoding of a file cannot be determined, though `chardet` is there. -/
theorem C88_violated :
    let im : Importer := ⟨fun _ => some (some "2.1.7".toList), fun _ _ => some true⟩
    importOptional im "cchardet".toList false = .error (.importError "requires a newer version") ∧
    ∀ a b, chooseSniffer im a b true = .error (.importError "requires a newer version") := by
  constructor
  · decide
  · intro a b
    rfl

/-- C88 as far as it holds: a detector is chosen unless `cchardet` is installed, asked for, and has an outdated or invalid
version; and it is that of `cchardet` exactly if that is asked for and installed. -/
theorem C88_encoding_partial (im : Importer) (a b : EncDetector) (try_ : Bool) (h : try_ = true →
      ∀ v, im.installed "cchardet".toList = some (some v) → im.older v "2.1.18".toList = some false) :
    chooseSniffer im a b try_ = .ok (if try_ = true ∧ im.installed "cchardet".toList ≠ none then b else a) := by
  unfold chooseSniffer
  cases try_ with
  | false => simp
  | true =>
    simp only [if_true, true_and]
    cases hi : im.installed "cchardet".toList with
    | none => rw [(C88_none im _ false).2 ⟨hi, rfl⟩]; simp
    | some v =>
      rw [(C88_found im _ false).2 ⟨v, hi, ⟨"cchardet".toList, "faust-cchardet".toList, "2.1.18".toList⟩, by decide, rfl,
        fun s hs => h rfl s (by rw [hi, hs])⟩]
      simp

/-- The four modules and the versions from which on they are accepted. -/
theorem C88_versions (im : Importer) (name : Str) (r : Bool) (s : Str) (hi : im.installed name = some (some s))
    (m : Str) (h : (name, m) ∈ [("tabview".toList, "1.4".toList), ("pandas".toList, "0.24.1".toList),
      ("cchardet".toList, "2.1.18".toList), ("wilderness".toList, "0.1.5".toList)]) :
    importOptional im name r = match im.older s m with
      | none => .error (.valueError "Invalid version")
      | some true => .error (.importError "requires a newer version")
      | some false => .ok true := by
  have : ∃ dep, optionalDependencies.reverse.find? (fun d => d.importName = name) = some dep ∧ dep.minVersion = m := by
    simp only [List.mem_cons, Prod.mk.injEq, List.not_mem_nil, or_false] at h
    rcases h with ⟨rfl, rfl⟩ | ⟨rfl, rfl⟩ | ⟨rfl, rfl⟩ | ⟨rfl, rfl⟩
    · exact ⟨⟨"tabview".toList, "tabview".toList, "1.4".toList⟩, by decide, rfl⟩
    · exact ⟨⟨"pandas".toList, "pandas".toList, "0.24.1".toList⟩, by decide, rfl⟩
    · exact ⟨⟨"cchardet".toList, "faust-cchardet".toList, "2.1.18".toList⟩, by decide, rfl⟩
    · exact ⟨⟨"wilderness".toList, "wilderness".toList, "0.1.5".toList⟩, by decide, rfl⟩
  obtain ⟨dep, hf, rfl⟩ := this
  unfold importOptional
  simp only [hi, hf]
  rcases im.older s dep.minVersion with _ | _ | _ <;> rfl

/-- A case: `pandas` is installed, `cchardet` is not. -/
example : let im : Importer := ⟨fun n => if n = "pandas".toList then some (some "2.0".toList) else none, fun _ _ => some false⟩
    importOptional im "pandas".toList = .ok true ∧ importOptional im "cchardet".toList false = .ok false ∧
    importOptional im "cchardet".toList = .error (.importError "is missing") := by decide

/-! ## C89 `read_dataframe` -/

theorem kwSet_lookup (k : Str) (v : KwVal) : ∀ l : List (Str × KwVal), (kwSet l k v).lookup k = some v ∧
    ∀ k', k' ≠ k → (kwSet l k v).lookup k' = l.lookup k'
  | [] => by
    refine ⟨by simp [kwSet], fun k' h => ?_⟩
    have : (k' == k) = false := by simpa using h
    simp [kwSet, List.lookup, this]
  | (a, b) :: l => by
    obtain ⟨h1, h2⟩ := kwSet_lookup k v l
    unfold kwSet
    split
    · rename_i h
      subst h
      refine ⟨by simp, fun k' h => ?_⟩
      have : (k' == a) = false := by simpa using h
      simp [List.lookup, this]
    · rename_i h
      refine ⟨?_, fun k' h' => ?_⟩
      · have : (k == a) = false := by simpa using fun hh => h hh.symm
        simp only [List.lookup, this]
        exact h1
      · simp only [List.lookup]
        split
        · rfl
        · exact h2 k' h'

/-- The argument `encoding` as Python sees it. -/
def encodingArg : Option Str → KwVal
  | none => .none
  | some e => .str e

/-- The outcome of `read_dataframe` in terms of that of `detect_dialect`. -/
def frameOutcome (p : Path) (args : List KwVal) (kwargs : List (Str × KwVal)) :
    Except PyExc (Option SimpleDialect) → Except PyExc PandasCall
  | .error e => .error e
  | .ok none => .error .noDetectionResult
  | .ok (some d) =>
    match d.toCsvDialect with
    | .error e => .error e
    | .ok c => .ok ⟨p, args, c, kwargs⟩

theorem frameEncoding_eq (sys : Sys) (p : Path) (kwargs : List (Str × KwVal)) (enc : Option Str) (w : World)
    (henc : kwargs.lookup "encoding".toList = none ∧ enc = none ∨
      kwargs.lookup "encoding".toList = some (encodingArg enc)) :
    frameEncoding sys p kwargs w = match encodingOr sys p enc w with
      | (.ok e, w') => (.ok (encodingArg e), w')
      | (.error e, w') => (.error e, w') := by
  have guess : (do
      match ← getEncoding sys p with
      | some e => return .str e
      | Option.none => return .none : Act KwVal) w = match getEncoding sys p w with
      | (.ok e, w') => (.ok (encodingArg e), w')
      | (.error e, w') => (.error e, w') := by
    rw [act_bind]
    rcases getEncoding sys p w with ⟨_ | _ | _, _⟩ <;> rfl
  unfold frameEncoding encodingOr
  rcases henc with ⟨h, rfl⟩ | h
  · simp only [h, truthy]
    exact guess
  · simp only [h]
    cases enc with
    | none => simp only [encodingArg, truthy]; exact guess
    | some e =>
      cases e with
      | nil => simp only [encodingArg, truthy, if_true]; exact guess
      | cons c e => simp [encodingArg, truthy]

/-- **C89** Given pandas and an existing file, `read_dataframe` does what `detect_dialect` does with the same file, number
of characters and encoding; if that finds a dialect, then `read_csv` is called with it, with the encoding that was used,
and with the other arguments as they were given; if not, the exception is passed on, or `NoDetectionResult` raised. -/
theorem C89_read_dataframe (sys : Sys) (im : Importer) (p : Path) (args : List KwVal) (n : Option Int)
    (kwargs : List (Str × KwVal)) (enc : Option Str) (w : World) (hp : w.files p ≠ none)
    (him : importOptional im "pandas".toList = .ok true)
    (henc : kwargs.lookup "encoding".toList = none ∧ enc = none ∨
      kwargs.lookup "encoding".toList = some (encodingArg enc)) (hdia : kwargs.lookup "dialect".toList = none) :
    readDataframe sys im p args n kwargs w =
      (frameOutcome p args (kwSet kwargs "encoding".toList (encodingArg (w.stdEncoding sys p enc)))
        (detectDialect sys p n enc "auto".toList true w).1, (detectDialect sys p n enc "auto".toList true w).2) := by
  have hf : (w.files p).isNone = false := by
    cases hh : w.files p with
    | none => exact absurd hh hp
    | some b => rfl
  unfold readDataframe
  rw [hf]
  simp only [Bool.false_eq_true, if_false]
  rw [act_bind_ok (by rw [liftExcept_apply, him])]
  simp only [Bool.not_true, Bool.false_eq_true, if_false]
  have hd : detectDialect sys p n enc "auto".toList true w =
      (encodingOr sys p enc >>= fun e => openText sys p e >>= fun text =>
        runDetector sys (readSome text n) "auto".toList true) w := by
    unfold detectDialect encodingOr
    cases truthy enc <;> rfl
  rw [hd]
  clear hd
  rw [act_bind, act_bind, frameEncoding_eq sys p kwargs enc w henc]
  rcases he : encodingOr sys p enc w with ⟨e | e, w1⟩
  · rfl
  · have hen : e = w.stdEncoding sys p enc := (stdChoose_inv (he : stdChoose sys p enc w = (.ok e, w1))).1
    subst hen
    simp only
    rw [act_bind_ok (a := w.stdEncoding sys p enc) (w' := w1) (by cases w.stdEncoding sys p enc <;> rfl)]
    rw [act_bind, act_bind]
    rcases openText sys p (w.stdEncoding sys p enc) w1 with ⟨_ | text, w2⟩
    · rfl
    · simp only
      rw [act_bind]
      have hlk : ((kwSet kwargs "encoding".toList (encodingArg (w.stdEncoding sys p enc))).lookup "dialect".toList).isSome =
          false := by
        rw [(kwSet_lookup _ _ kwargs).2 _ (by decide), hdia]
        rfl
      rcases runDetector sys (readSome text n) "auto".toList true w2 with ⟨_ | _ | d, w3⟩
      · rfl
      · rfl
      · simp only [frameOutcome]
        rw [act_bind, liftExcept_apply]
        rcases d.toCsvDialect with e | c
        · rfl
        · simp only [hlk, Bool.false_eq_true, if_false, act_pure]

/-- In the other cases nothing is called: the file does not exist, pandas is missing or outdated, or a dialect is given
(which the function does not support: Python raises a TypeError, or an exception came earlier). -/
theorem C89_refused (sys : Sys) (im : Importer) (p : Path) (args : List KwVal) (n : Option Int)
    (kwargs : List (Str × KwVal)) (w : World) (h : w.files p = none ∨ importOptional im "pandas".toList ≠ .ok true ∨
      kwargs.lookup "dialect".toList ≠ none) : ∃ e, (readDataframe sys im p args n kwargs w).1 = .error e := by
  cases hr : readDataframe sys im p args n kwargs w with
  | mk r w' =>
    cases r with
    | error e => exact ⟨e, rfl⟩
    | ok call =>
      exfalso
      unfold readDataframe at hr
      split at hr
      · cases hr
      · rename_i hf
        obtain ⟨found, w1, h1, hr⟩ := bind_inv hr
        obtain ⟨h1', rfl⟩ := liftExcept_inv h1
        cases found with
        | false => cases hr
        | true =>
          simp only [Bool.not_true, Bool.false_eq_true, if_false] at hr
          obtain ⟨enc, w2, h2, hr⟩ := bind_inv hr
          obtain ⟨enc', w3, h3, hr⟩ := bind_inv hr
          obtain ⟨text, w4, h4, hr⟩ := bind_inv hr
          obtain ⟨d, w5, h5, hr⟩ := bind_inv hr
          cases d with
          | none => cases hr
          | some d =>
            obtain ⟨c, w6, h6, hr⟩ := bind_inv hr
            rcases h with h | h | h
            · exact hf (by rw [h]; rfl)
            · exact h h1'
            · rw [if_pos (by
                rw [(kwSet_lookup _ _ kwargs).2 _ (by decide)]
                exact Option.isSome_iff_ne_none.2 h)] at hr
              cases hr

/-- A file that does not exist, or is not a regular one, is refused with a ValueError before anything is imported or
read. -/
theorem C89_missing (sys : Sys) (im : Importer) (p : Path) (args : List KwVal) (n : Option Int)
    (kwargs : List (Str × KwVal)) (w : World) (h : w.files p = none) :
    ∃ m, readDataframe sys im p args n kwargs w = (.error (.valueError m), w) := by
  unfold readDataframe
  rw [h]
  exact ⟨_, rfl⟩

/-- An argument `encoding` that is neither a string nor None: a false one counts as not given; a true one is refused
with a TypeError by `open`, after pandas has been imported. -/
theorem C89_other_encoding (sys : Sys) (im : Importer) (p : Path) (args : List KwVal) (n : Option Int)
    (kwargs : List (Str × KwVal)) (w : World) (hp : w.files p ≠ none) (him : importOptional im "pandas".toList = .ok true)
    (i : Nat) (t : Bool) (h : kwargs.lookup "encoding".toList = some (.other i t)) :
    (t = false → readDataframe sys im p args n kwargs w =
      readDataframe sys im p args n (kwSet kwargs "encoding".toList .none) w) ∧
    (t = true → ∃ m, readDataframe sys im p args n kwargs w = (.error (.typeError m), w)) := by
  have hf : (w.files p).isNone = false := by
    cases hh : w.files p with
    | none => exact absurd hh hp
    | some b => rfl
  have hset : ∀ (l : List (Str × KwVal)) (k : Str) (v v' : KwVal), kwSet (kwSet l k v) k v' = kwSet l k v' := by
    intro l k v v'
    induction l with
    | nil => simp [kwSet]
    | cons a l ih =>
      obtain ⟨a, b⟩ := a
      by_cases ha : a = k
      · simp [kwSet, ha]
      · simp [kwSet, ha, ih]
  constructor
  · rintro rfl
    have he : frameEncoding sys p kwargs = frameEncoding sys p (kwSet kwargs "encoding".toList .none) := by
      unfold frameEncoding
      rw [h, (kwSet_lookup _ _ kwargs).1]
      simp
    unfold readDataframe
    simp only [he, hset]
  · rintro rfl
    unfold readDataframe
    rw [hf]
    simp only [Bool.false_eq_true, if_false]
    rw [act_bind_ok (by rw [liftExcept_apply, him])]
    simp only [Bool.not_true, Bool.false_eq_true, if_false]
    rw [act_bind_ok (a := .other i true) (w' := w) (by unfold frameEncoding; simp only [h]; rfl)]
    exact ⟨_, rfl⟩

/-- A case: the encoding 0. -/
example : (readDataframe demoSys ⟨fun n => if n = "pandas".toList then some (some "2.0".toList) else none, fun _ _ => some false⟩
      "f".toList [] none [("encoding".toList, .other 0 false)] (demoWorld [("f", "a;b\nc;d\n")])).1 =
    .ok ⟨"f".toList, [], ⟨some [';'], some ['"'], none, true, false, some ['\n'], .none, none⟩,
      [("encoding".toList, .str "ascii".toList)]⟩ := by
  decide +kernel

/-- What the call passes to pandas: the encoding that was used, every other keyword argument as it was, and a dialect from
which the detected one can be read off. -/
theorem C89_arguments (p : Path) (args : List KwVal) (kwargs : List (Str × KwVal)) (e : KwVal)
    (x : Except PyExc (Option SimpleDialect)) (call : PandasCall)
    (h : frameOutcome p args (kwSet kwargs "encoding".toList e) x = .ok call) :
    call.filename = p ∧ call.args = args ∧ call.kwargs.lookup "encoding".toList = some e ∧
      (∀ k, k ≠ "encoding".toList → call.kwargs.lookup k = kwargs.lookup k) ∧
      ∃ d, x = .ok (some d) ∧ call.dialect.delimiter = d.delimiter ∧
        fromCsvDialect { call.dialect with strict := some d.strict } =
          .ok { d with escapechar := some (d.escapechar.getD []) } := by
  unfold frameOutcome at h
  split at h
  · cases h
  · cases h
  · rename_i d
    split at h
    · cases h
    · rename_i c hc
      cases h
      refine ⟨rfl, rfl, (kwSet_lookup _ _ kwargs).1, (kwSet_lookup _ _ kwargs).2, d, rfl, ?_⟩
      unfold SimpleDialect.toCsvDialect at hc
      split at hc
      · cases hc
      · rename_i hd
        cases hc
        refine ⟨rfl, ?_⟩
        obtain ⟨dl, q, e, s⟩ := d
        cases dl with
        | none => exact absurd rfl hd
        | some dl =>
          cases e with
          | none => by_cases hq : q = some [] <;> simp [fromCsvDialect, hq]
          | some e =>
            by_cases he : e = []
            · by_cases hq : q = some [] <;> simp [fromCsvDialect, hq, he]
            · by_cases hq : q = some [] <;> simp [fromCsvDialect, hq, he]

/-- The import system of the examples. -/
def demoImporter : Importer := ⟨fun n => if n = "pandas".toList then some (some "2.0".toList) else none, fun _ _ => some false⟩

/-- A case: the encoding is guessed, and recorded before the other keyword arguments that follow. -/
example : (readDataframe demoSys demoImporter "f".toList [] (some 3) [("sep".toList, .str ";".toList)]
      (demoWorld [("f", "a;b\nc;d\n")])).1 =
    .ok ⟨"f".toList, [], ⟨some [';'], some ['"'], none, true, false, some ['\n'], .none, none⟩,
      [("sep".toList, .str ";".toList), ("encoding".toList, .str "ascii".toList)]⟩ := by
  decide +kernel

/-- **C89** fails for files with a single column: the dialect handed to pandas has the empty string as delimiter, which is
not a valid `csv` dialect. -/
theorem C89_column_violated :
    let c : CsvDialect := ⟨some [], some ['"'], none, true, false, some ['\n'], .none, none⟩
    (readDataframe demoSys demoImporter "f".toList [] none [] (demoWorld [("f", "abc\ndef\n")])).1 =
      .ok ⟨"f".toList, [], c, [("encoding".toList, .str "ascii".toList)]⟩ ∧
    ∃ m, mkWDialect c = .error (.typeError m) := by
  exact ⟨by decide +kernel, _, rfl⟩

/-! ## C90 The explore command -/

theorem pushAll_eq (con : Console) : ∀ (lines : List Str) (s : con.State) (r : Bool),
    (pushAll con s r lines).1 = lines.foldl (fun s l => (con.push s l).1) s ∧
    (∀ l ∈ lines.getLast?, (pushAll con s r lines).2 = (con.push (lines.dropLast.foldl (fun s l => (con.push s l).1) s) l).2)
  | [], s, r => by simp [pushAll]
  | [l], s, r => by simp [pushAll]
  | l :: m :: ls, s, r => by
    obtain ⟨h1, h2⟩ := pushAll_eq con (m :: ls) (con.push s l).1 (con.push s l).2
    refine ⟨h1, fun x hx => ?_⟩
    exact h2 x (by simpa using hx)

/-- **C90** The explore command feeds the console, one after the other, the lines that the code command prints for the
same arguments, all of them.  It does not touch the file.  It exits with 1 if no dialect is found, or if the console
waits for more after the last line, in which case it prints the lines; otherwise a session starts with the console in
the state after the last line. -/
theorem C90_explore (sys : Sys) (pr : Printer) (con : Console) (p : Path) (enc : Option Str) (n : Option Int)
    (pandas : Bool) (w w' : World) (c : Nat) (o : Option (con.State × Str))
    (h : exploreCmd sys pr con p enc n pandas w = (.ok (c, o), w')) :
    w'.files = w.files ∧ w'.limit = w.limit ∧
    ((c = 1 ∧ o = none ∧ w'.stdout = w.stdout ∧ (codeCmd sys pr p enc n pandas w).1 = .ok 1) ∨
     ∃ lines, (codeCmd sys pr p enc n pandas w).1 = .ok 0 ∧
      (codeCmd sys pr p enc n pandas w).2.stdout = w.stdout ++ joinLines lines ++ ['\n'] ∧
      let run := fun (ls : List Str) => ls.foldl (fun s l => (con.push s l).1) con.init
      ∃ last, lines.getLast? = some last ∧
       (((con.push (run lines.dropLast) last).2 = true ∧ c = 1 ∧ o = none ∧ ∃ m, w'.stdout = w.stdout ++ m ++
          joinLines lines ++ ['\n']) ∨
        ((con.push (run lines.dropLast) last).2 = false ∧ c = 0 ∧
          ∃ banner, o = some (run lines, banner ++ if pandas then "df".toList else "rows".toList)))) := by
  unfold exploreCmd at h
  unfold codeCmd
  obtain ⟨e, w1, h1, h⟩ := bind_inv h
  rw [act_bind_ok h1]
  obtain ⟨-, hf, hl, hs⟩ := stdChoose_inv (h1 : stdChoose sys p enc w = (.ok e, w1))
  obtain ⟨r, w2, h2, h⟩ := bind_inv h
  rw [act_bind_ok h2]
  obtain ⟨text, -, -, g3, g4, g5⟩ := detectDialect_inv h2
  cases r with
  | none =>
    cases h
    exact ⟨g3.trans hf, g4.trans hl, .inl ⟨rfl, rfl, g5.trans hs, rfl⟩⟩
  | some d =>
    obtain ⟨lines, w3, h3, h5⟩ := bind_inv h
    simp only
    rw [act_bind_ok h3]
    obtain ⟨h3', rfl⟩ := liftExcept_inv h3
    have hlast : ∃ last, lines.getLast? = some last := by
      unfold generateCode at h3'
      split at h3'
      · cases h3'
      · split at h3'
        · cases h3'; exact ⟨_, rfl⟩
        · cases h3'; exact ⟨_, rfl⟩
    obtain ⟨last, hlast⟩ := hlast
    obtain ⟨k1, k2⟩ := pushAll_eq con lines con.init false
    have k3 := k2 last (by rw [hlast]; rfl)
    cases hb : (pushAll con con.init false lines).2 with
    | true =>
      simp only [hb, if_true] at h5
      cases h5
      refine ⟨g3.trans hf, g4.trans hl, .inr ⟨lines, rfl, ?_, last, hlast, .inl ⟨by rw [← k3]; exact hb, rfl, rfl, ?_⟩⟩⟩
      · show w3.stdout ++ _ = _
        rw [g5, hs, List.append_assoc]
      · refine ⟨"An error occurred starting the interactive console. Printing commands instead:\n\n".toList, ?_⟩
        show w3.stdout ++ _ ++ _ = _
        rw [g5, hs]
        simp only [List.append_assoc]
    | false =>
      simp only [hb, Bool.false_eq_true, if_false] at h5
      cases h5
      refine ⟨g3.trans hf, g4.trans hl, .inr ⟨lines, rfl, ?_, last, hlast, .inr ⟨by rw [← k3]; exact hb, rfl, ?_⟩⟩⟩
      · show w3.stdout ++ _ = _
        rw [g5, hs, List.append_assoc]
      · refine ⟨"CleverCSV has loaded the data into the variable: ".toList, ?_⟩
        rw [k1]

/-- A console that remembers the lines, and asks for more after a line that ends with a colon. -/
def demoConsole : Console := ⟨List Str, [], fun s l => (s ++ [l], l.getLast? = some ':')⟩

instance : DecidableEq demoConsole.State := inferInstanceAs (DecidableEq (List Str))

/-- A case: the lines for a file with two columns. -/
example : (exploreCmd demoSys demoPrinter demoConsole "f".toList none none false (demoWorld [("f", "a;b\nc;d\n")])).1 =
    .ok (0, some (([[], "# Code generated with CleverCSV version 0.8.3".toList, [], "import clevercsv".toList, [],
      "with open(\"f\", \"r\", newline=\"\", encoding=\"ascii\") as fp:".toList,
      "    reader = clevercsv.reader(fp, delimiter=\";\", quotechar=\"\", escapechar=\"\")".toList,
      "    rows = list(reader)".toList, []] : List Str),
      "CleverCSV has loaded the data into the variable: rows".toList)) := by
  decide +kernel

end Clever.Props
