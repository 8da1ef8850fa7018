import Verif.Model.Code
import Verif.Model.DataFrame
import Verif.Model.View

/-!
# The option `verbose`

The functions of detection, the wrappers and the commands with the argument `verbose`.  Messages are printed on the
standard output; the functions return the lines that they print, also when they raise an exception.  The functions
without this argument are those of the other modules.
-/

namespace Clever

/-- Decimal digits. -/
def decDigits (n : Nat) : Str := Nat.toDigits 10 n

/-- `s` with spaces in front up to `n` characters. -/
def padLeft (n : Nat) (s : Str) : Str := List.replicate (n - s.length) ' ' ++ s

/-- `"%.6f" % q` for a double that is not negative: six decimals, ties to even. -/
def fixed6 (q : ℚ) : Str :=
  let n := (roundEven (q * 1000000)).toNat
  decDigits (n / 1000000) ++ '.' :: (List.replicate (6 - (decDigits (n % 1000000)).length) '0' ++ decDigits (n % 1000000))

/-- The line for the scores of a dialect, clevercsv/consistency.py:167 and 175-178. -/
def scoreLine (pr : Printer) (d : SimpleDialect) (s : ConsistencyScore) : Str :=
  padLeft 15 (d.repr pr) ++ ":\tP = ".toList ++ padLeft 15 (fixed6 s.P) ++
    match s.T, s.Q with
    | some t, some q => "\tT = ".toList ++ padLeft 15 (fixed6 t) ++ "\tQ = ".toList ++ padLeft 15 (fixed6 q)
    | _, _ => "\tskip.".toList

/-- A line if the option is given. -/
def say (verbose : Bool) (l : Str) : List Str := if verbose then [l] else []

/-- The loop of `compute_consistency_scores`, clevercsv/consistency.py:160-179, with the lines printed. -/
def scoreLoopV (pr : Printer) (verbose : Bool) (pat : SimpleDialect → Except PyExc ℚ)
    (typ : TypeCache → SimpleDialect → Except PyExc ℚ × TypeCache) (skip : Bool) :
    List SimpleDialect → Option ℚ → TypeCache → List (SimpleDialect × ConsistencyScore) →
      (Except PyExc (List (SimpleDialect × ConsistencyScore)) × TypeCache) × List Str
  | [], _, cache, scores => ((.ok scores, cache), [])
  | d :: ds, inc, cache, scores =>
    match pat d with
    | .error e => ((.error e, cache), [])
    | .ok P =>
      if belowIncumbent P inc && skip then
        let r := scoreLoopV pr verbose pat typ skip ds inc cache (dictSet scores d ⟨P, none, none⟩)
        (r.1, say verbose (scoreLine pr d ⟨P, none, none⟩) ++ r.2)
      else
        match typ cache d with
        | (.error e, cache') => ((.error e, cache'), [])
        | (.ok T, cache') =>
          let s : ConsistencyScore := ⟨P, some T, some (fl (P * T))⟩
          let r := scoreLoopV pr verbose pat typ skip ds (some (maxScore inc (fl (P * T)))) cache' (dictSet scores d s)
          (r.1, say verbose (scoreLine pr d s) ++ r.2)

/-- `compute_consistency_scores`, clevercsv/consistency.py:132-179. -/
def computeConsistencyScoresV (pr : Printer) (verbose : Bool) (env : PyEnv) (cap : Option Nat) (skip : Bool)
    (cache : TypeCache) (limit : Int) (data : Str) (dialects : List SimpleDialect) :
    (Except PyExc (List (SimpleDialect × ConsistencyScore)) × TypeCache) × List Str :=
  match sortDialects dialects with
  | .error e => ((.error e, cache), [])
  | .ok ds =>
    scoreLoopV pr verbose (fun d => patternScore data d) (fun c d => computeTypeScore env cap c limit data d) skip
      ds none cache []

/-- `ConsistencyDetector.detect`, clevercsv/consistency.py:90-130. -/
def consistencyDetectV (pr : Printer) (verbose : Bool) (env : PyEnv) (ord : SetOrder) (cap : Option Nat) (skip : Bool)
    (limit : Int) (data : Str) (delimiters : Option (List Str)) :
    (Except PyExc (Option SimpleDialect) × Int) × List Str :=
  let dialects := getDialects env ord data delimiters
  let newLimit : Int := data.length + 1
  let c := computeConsistencyScoresV pr verbose env cap skip [] newLimit data dialects
  match c.1.1 with
  | .error e => ((.error e, newLimit), c.2)
  | .ok scores =>
    match getBestDialects scores with
    | [d] => ((.ok (some d), limit), c.2)
    | best =>
      match tieBreaker ord newLimit data best with
      | .error e => ((.error e, newLimit), c.2)
      | .ok r => ((.ok r, limit), c.2)

/-- `detect_dialect_normal`, clevercsv/normal_form.py:33-102. -/
def detectDialectNormalV (verbose : Bool) (env : PyEnv) (data : Str) (delimiters : Option (List Str)) :
    Option SimpleDialect × List Str :=
  let ds := delimiters.getD nfDelims
  if ds.any (fun d => nfQuotechars.any (fun q => maybeHasEscapechar env data d q)) then
    (none, say verbose "Not normal, has potential escapechar.".toList)
  else
    match (formTests ds).find? (fun t => t.holds (splitFile data)) with
    | some t => (some t.dialect, say verbose ("Matched normal form ".toList ++ decDigits t.form ++ ['.']))
    | none => (none, say verbose "Didn't match any normal forms.".toList)

/-- `Detector.detect`, clevercsv/detect.py:64-127. -/
def detectV (pr : Printer) (verbose : Bool) (env : PyEnv) (ord : SetOrder) (limit : Int) (sample : Str)
    (delimiters : Option (List Str)) (method : DetectionMethod) (skip : Bool) : Detection × List Str :=
  let byConsistency : Detection × List Str :=
    let r := consistencyDetectV pr verbose env ord (some 100000) skip limit sample delimiters
    (⟨r.1.1, some .consistency, r.1.2⟩, say verbose "Running data consistency measure ...".toList ++ r.2)
  if method = .normal ∨ method = .auto then
    let n := detectDialectNormalV verbose env sample delimiters
    let l := say verbose "Running normal form detection ...".toList ++ n.2
    match n.1 with
    | some d => (⟨.ok (some d), some .normal, limit⟩, l)
    | none => (byConsistency.1, l ++ byConsistency.2)
  else byConsistency

/-- `Detector.detect` with the method given as a string. -/
def detectStrV (pr : Printer) (verbose : Bool) (env : PyEnv) (ord : SetOrder) (limit : Int) (sample : Str)
    (delimiters : Option (List Str)) (method : Str) (skip : Bool) : Detection × List Str :=
  match DetectionMethod.ofString method with
  | .error e => (⟨.error e, none, limit⟩, [])
  | .ok m => detectV pr verbose env ord limit sample delimiters m skip

/-- `Detector().detect(data, verbose=verbose, ...)`. -/
def runDetectorV (sys : Sys) (pr : Printer) (verbose : Bool) (data : Str) (method : Str := "auto".toList)
    (skip : Bool := true) : Act (Option SimpleDialect) := fun w =>
  let r := detectStrV pr verbose sys.env sys.order w.limit data none method skip
  (r.1.result, { w with limit := r.1.limit, stdout := w.stdout ++ r.2.flatMap fun l => l ++ ['\n'] })

/-- clevercsv/wrappers.py:94-100, 276-281. -/
def chooseDialectV (sys : Sys) (pr : Printer) (verbose : Bool) (dialect : Option DialectArg) (text : Str)
    (numChars : Option Int) : Act DialectArg :=
  match dialect with
  | some d => pure d
  | none => do
    match ← runDetectorV sys pr verbose (readSome text numChars) with
    | none => raise .noDetectionResult
    | some d => return .simple d

/-- `stream_table`, clevercsv/wrappers.py:225-283. -/
def streamTableV (sys : Sys) (pr : Printer) (verbose : Bool) (p : Path) (dialect : Option DialectArg)
    (encoding : Option Str) (numChars : Option Int) : Act (Gen (List Str)) := do
  let encoding ← chooseEncoding sys p encoding
  let text ← openText sys p encoding
  let d ← chooseDialectV sys pr verbose dialect text numChars
  let r ← liftExcept (mkReader (.stream (strItems (linesUniv text))) d)
  return r.readAll (← getLimit)

/-- `read_table`, clevercsv/wrappers.py:166-222. -/
def readTableV (sys : Sys) (pr : Printer) (verbose : Bool) (p : Path) (dialect : Option DialectArg)
    (encoding : Option Str) (numChars : Option Int) : Act (List (List Str)) :=
  listOf (streamTableV sys pr verbose p dialect encoding numChars)

/-- `stream_dicts`, clevercsv/wrappers.py:43-104. -/
def streamDictsV (sys : Sys) (pr : Printer) (verbose : Bool) (p : Path) (dialect : Option DialectArg)
    (encoding : Option Str) (numChars : Option Int) : Act (Gen (List (Key × DVal))) := do
  let encoding ← chooseEncoding sys p encoding
  let text ← openText sys p encoding
  let d ← chooseDialectV sys pr verbose dialect text numChars
  let r ← liftExcept (mkDictReader (.stream (strItems (linesUniv text))) d)
  return r.readAll (← getLimit)

/-- `read_dicts`, clevercsv/wrappers.py:107-163. -/
def readDictsV (sys : Sys) (pr : Printer) (verbose : Bool) (p : Path) (dialect : Option DialectArg)
    (encoding : Option Str) (numChars : Option Int) : Act (List (List (Key × DVal))) :=
  listOf (streamDictsV sys pr verbose p dialect encoding numChars)

/-- `detect_dialect`, clevercsv/wrappers.py:350-401. -/
def detectDialectV (sys : Sys) (pr : Printer) (verbose : Bool) (p : Path) (numChars : Option Int)
    (encoding : Option Str) (method : Str := "auto".toList) (skip : Bool := true) : Act (Option SimpleDialect) := do
  let enc ← match truthy encoding with
    | some e => pure (some e)
    | none => getEncoding sys p
  let text ← openText sys p enc
  runDetectorV sys pr verbose (readSome text numChars) method skip

/-- `handle` of the detect command, clevercsv/console/commands/detect.py:103-139, without `--add-runtime`. -/
def detectCmdV (sys : Sys) (pr : Printer) (verbose : Bool) (p : Path) (encoding : Option Str) (numChars : Option Int)
    (consistency noSkip : Bool) (format : DetectFormat) : Act Nat := do
  let method := if consistency then "consistency".toList else "auto".toList
  match ← detectDialectV sys pr verbose p numChars encoding method (!noSkip) with
  | none => return 1
  | some d =>
    let lines ← liftExcept (detectLines sys.env pr d format)
    printText (lines.flatMap fun l => l ++ ['\n'])
    return 0

/-- `handle` of the code command, clevercsv/console/commands/code.py:60-78. -/
def codeCmdV (sys : Sys) (pr : Printer) (verbose : Bool) (p : Path) (encoding : Option Str) (numChars : Option Int)
    (usePandas : Bool) : Act Nat := do
  let encoding ← encodingOr sys p encoding
  match ← detectDialectV sys pr verbose p numChars encoding with
  | none => return 1
  | some d =>
    let lines ← liftExcept (generateCode pr p d encoding usePandas)
    printText (joinLines lines ++ ['\n'])
    return 0

/-- `handle` of the view command, clevercsv/console/commands/view.py:69-95. -/
def viewCmdV (sys : Sys) (pr : Printer) (verbose : Bool) (p : Path) (encoding : Option Str) (numChars : Option Int)
    (transpose : Bool) : Act (Nat × Option (List (List (Option Str)))) := fun w =>
  match readTableV sys pr verbose p none encoding numChars w with
  | (.error .noDetectionResult, w') => (.ok (1, none), w')
  | (.error e, w') => (.error e, w')
  | (.ok rows, w') =>
    if transpose then
      match viewTranspose rows with
      | .error e => (.error e, w')
      | .ok t => (.ok (0, some t), w')
    else (.ok (0, some (rows.map (·.map some))), w')

/-- `handle` of the explore command, clevercsv/console/commands/explore.py:62-98. -/
def exploreCmdV (sys : Sys) (pr : Printer) (verbose : Bool) (con : Console) (p : Path) (encoding : Option Str)
    (numChars : Option Int) (usePandas : Bool) : Act (Nat × Option (con.State × Str)) := do
  let encoding ← encodingOr sys p encoding
  match ← detectDialectV sys pr verbose p numChars encoding with
  | none => return (1, none)
  | some d =>
    let lines ← liftExcept (generateCode pr p d encoding usePandas)
    let r := pushAll con con.init false lines
    if r.2 then
      printText ("An error occurred starting the interactive console. Printing commands instead:\n\n".toList)
      printText (joinLines lines ++ ['\n'])
      return (1, none)
    else
      printText ("Dropping you into an interactive shell.\n\n".toList)
      return (0, some (r.1, "CleverCSV has loaded the data into the variable: ".toList ++
        (if usePandas then "df".toList else "rows".toList)))

/-- `handle_path` of the standardize command, clevercsv/console/commands/standardize.py:176-198. -/
def handlePathV (sys : Sys) (pr : Printer) (verbose : Bool) (a : StdArgs) (p : Path) (output : Option Path)
    (encoding : Option Str) : Act Nat := do
  let encoding ← match truthy encoding with
    | some e => pure (some e)
    | none => getEncoding sys p
  let target := match truthy a.target with
    | some t => some t
    | none => encoding
  match ← detectDialectV sys pr verbose p a.numChars encoding with
  | none => return 1
  | some d =>
    if a.inPlace then inPlace sys a.transpose p d encoding target
    else
      match output with
      | none => toStdout sys a.transpose p d encoding
      | some o => toFile sys a.transpose p o d encoding target

/-- clevercsv/console/commands/standardize.py:160-174. -/
def handleLoopV (sys : Sys) (pr : Printer) (verbose : Bool) (a : StdArgs) :
    List (Path × Option Path × Option Str) → Nat → Act Nat
  | [], globalRetval => return globalRetval
  | (p, output, encoding) :: rest, globalRetval => do
    let retval ← handlePathV sys pr verbose a p output encoding
    let globalRetval := if retval > 0 ∧ globalRetval = 0 then retval else globalRetval
    if retval = 1 then return retval
    else handleLoopV sys pr verbose a rest globalRetval

/-- `handle` of the standardize command, clevercsv/console/commands/standardize.py:115-174. -/
def standardizeV (sys : Sys) (pr : Printer) (verbose : Bool) (a : StdArgs) : Act Nat :=
  if a.inPlace ∧ a.outputs ≠ [] then return 1
  else
    let outputs := if a.outputs.length = 0 then a.paths.map (fun _ => none) else a.outputs.map some
    if a.inPlace = false ∧ outputs.length ≠ a.paths.length then return 1
    else
      let encodings := if a.encodings.length = 0 then a.paths.map (fun _ => none) else a.encodings.map some
      match encodings with
      | [e] => handleLoopV sys pr verbose a (a.paths.zip (outputs.zip (a.paths.map fun _ => e))) 0
      | _ =>
        if encodings.length ≠ a.paths.length then return 1
        else handleLoopV sys pr verbose a (a.paths.zip (outputs.zip encodings)) 0

end Clever
