import Verif.Model.Verbose
import Verif.Model.Terminal

/-!
# The option `verbose` and the encoding of standard output

Detection with messages on a standard output that may lack characters (Model/Terminal).  A message that cannot be encoded raises
`UnicodeEncodeError` where it is printed.
-/

namespace Clever

/-- Standard output: the characters that have been accepted, and what has been written. -/
structure Out where
  text : Str := []
  screen : Screen := {}
deriving DecidableEq

/-- `sys.stdout.write(text)`: has it been written, and standard output afterwards. -/
def Terminal.put (t : Terminal) (text : Str) (s : Out) : Bool × Out :=
  match t.codec.encodeFrom s.screen.enc (t.newlines text) with
  | none => (false, s)
  | some (e, b) => (true, { text := s.text ++ text, screen := { enc := e, bytes := s.screen.bytes ++ b } })

/-- `print(text)`. -/
def Terminal.line (t : Terminal) (text : Str) (s : Out) : Bool × Out :=
  match t.put text s with
  | (false, s) => (false, s)
  | (true, s) => t.put ['\n'] s

/-- `if verbose: print(text)`. -/
def Terminal.say (t : Terminal) (verbose : Bool) (text : Str) (s : Out) : Bool × Out :=
  if verbose then t.line text s else (true, s)

/-- The loop of `compute_consistency_scores`, clevercsv/consistency.py:160-179. -/
def scoreLoopE (t : Terminal) (pr : Printer) (verbose : Bool) (pat : SimpleDialect → Except PyExc ℚ)
    (typ : TypeCache → SimpleDialect → Except PyExc ℚ × TypeCache) (skip : Bool) :
    List SimpleDialect → Option ℚ → TypeCache → List (SimpleDialect × ConsistencyScore) → Out →
      Except PyExc (List (SimpleDialect × ConsistencyScore)) × Out
  | [], _, _, scores, s => (.ok scores, s)
  | d :: ds, inc, cache, scores, s =>
    match pat d with
    | .error e => (.error e, s)
    | .ok P =>
      if belowIncumbent P inc && skip then
        let score : ConsistencyScore := ⟨P, none, none⟩
        match t.say verbose (scoreLine pr d score) s with
        | (false, s) => (.error .unicodeError, s)
        | (true, s) => scoreLoopE t pr verbose pat typ skip ds inc cache (dictSet scores d score) s
      else
        match typ cache d with
        | (.error e, _) => (.error e, s)
        | (.ok T, cache) =>
          let score : ConsistencyScore := ⟨P, some T, some (fl (P * T))⟩
          match t.say verbose (scoreLine pr d score) s with
          | (false, s) => (.error .unicodeError, s)
          | (true, s) =>
            scoreLoopE t pr verbose pat typ skip ds (some (maxScore inc (fl (P * T)))) cache (dictSet scores d score) s

/-- `compute_consistency_scores`, clevercsv/consistency.py:132-179. -/
def computeConsistencyScoresE (t : Terminal) (pr : Printer) (verbose : Bool) (env : PyEnv) (cap : Option Nat) (skip : Bool)
    (cache : TypeCache) (limit : Int) (data : Str) (dialects : List SimpleDialect) (s : Out) :
    Except PyExc (List (SimpleDialect × ConsistencyScore)) × Out :=
  match sortDialects dialects with
  | .error e => (.error e, s)
  | .ok ds =>
    scoreLoopE t pr verbose (fun d => patternScore data d) (fun c d => computeTypeScore env cap c limit data d) skip
      ds none cache [] s

/-- `ConsistencyDetector.detect`, clevercsv/consistency.py:90-130: the result, the field size limit, and standard output. -/
def consistencyDetectE (t : Terminal) (pr : Printer) (verbose : Bool) (env : PyEnv) (ord : SetOrder) (cap : Option Nat)
    (skip : Bool) (limit : Int) (data : Str) (delimiters : Option (List Str)) (s : Out) :
    (Except PyExc (Option SimpleDialect) × Int) × Out :=
  let dialects := getDialects env ord data delimiters
  let newLimit : Int := data.length + 1
  match computeConsistencyScoresE t pr verbose env cap skip [] newLimit data dialects s with
  | (.error e, s) => ((.error e, newLimit), s)
  | (.ok scores, s) =>
    match getBestDialects scores with
    | [d] => ((.ok (some d), limit), s)
    | best =>
      match tieBreaker ord newLimit data best with
      | .error e => ((.error e, newLimit), s)
      | .ok r => ((.ok r, limit), s)

/-- `detect_dialect_normal`, clevercsv/normal_form.py:33-102. -/
def detectDialectNormalE (t : Terminal) (verbose : Bool) (env : PyEnv) (data : Str) (delimiters : Option (List Str))
    (s : Out) : Except PyExc (Option SimpleDialect) × Out :=
  let ds := delimiters.getD nfDelims
  let answer (r : Option SimpleDialect) : Bool × Out → Except PyExc (Option SimpleDialect) × Out
    | (true, s) => (.ok r, s)
    | (false, s) => (.error .unicodeError, s)
  if ds.any (fun d => nfQuotechars.any (fun q => maybeHasEscapechar env data d q)) then
    answer none (t.say verbose "Not normal, has potential escapechar.".toList s)
  else
    match (formTests ds).find? (fun x => x.holds (splitFile data)) with
    | some x => answer (some x.dialect) (t.say verbose ("Matched normal form ".toList ++ decDigits x.form ++ ['.']) s)
    | none => answer none (t.say verbose "Didn't match any normal forms.".toList s)

/-- `Detector.detect`, clevercsv/detect.py:118-127, the second part. -/
def detectByConsistencyE (t : Terminal) (pr : Printer) (verbose : Bool) (env : PyEnv) (ord : SetOrder) (limit : Int)
    (sample : Str) (delimiters : Option (List Str)) (skip : Bool) (s : Out) : Detection × Out :=
  match t.say verbose "Running data consistency measure ...".toList s with
  | (false, s) => (⟨.error .unicodeError, some .consistency, limit⟩, s)
  | (true, s) =>
    let r := consistencyDetectE t pr verbose env ord (some 100000) skip limit sample delimiters s
    (⟨r.1.1, some .consistency, r.1.2⟩, r.2)

/-- `Detector.detect`, clevercsv/detect.py:64-127. -/
def detectE (t : Terminal) (pr : Printer) (verbose : Bool) (env : PyEnv) (ord : SetOrder) (limit : Int) (sample : Str)
    (delimiters : Option (List Str)) (method : DetectionMethod) (skip : Bool) (s : Out) : Detection × Out :=
  if method = .normal ∨ method = .auto then
    match t.say verbose "Running normal form detection ...".toList s with
    | (false, s) => (⟨.error .unicodeError, none, limit⟩, s)
    | (true, s) =>
      match detectDialectNormalE t verbose env sample delimiters s with
      | (.error e, s) => (⟨.error e, none, limit⟩, s)
      | (.ok (some d), s) => (⟨.ok (some d), some .normal, limit⟩, s)
      | (.ok none, s) => detectByConsistencyE t pr verbose env ord limit sample delimiters skip s
  else detectByConsistencyE t pr verbose env ord limit sample delimiters skip s

/-- `Detector.detect` with the method given as a string. -/
def detectStrE (t : Terminal) (pr : Printer) (verbose : Bool) (env : PyEnv) (ord : SetOrder) (limit : Int) (sample : Str)
    (delimiters : Option (List Str)) (method : Str) (skip : Bool) (s : Out) : Detection × Out :=
  match DetectionMethod.ofString method with
  | .error e => (⟨.error e, none, limit⟩, s)
  | .ok m => detectE t pr verbose env ord limit sample delimiters m skip s

/-- `Detector().detect(data, verbose=verbose, ...)`. -/
def runDetectorE (sys : Sys) (t : Terminal) (pr : Printer) (verbose : Bool) (data : Str) (method : Str := "auto".toList)
    (skip : Bool := true) : ActE (Option SimpleDialect) := fun w s =>
  let r := detectStrE t pr verbose sys.env sys.order w.limit data none method skip ⟨w.stdout, s⟩
  (r.1.result, { w with limit := r.1.limit, stdout := r.2.text }, r.2.screen)

/-- `detect_dialect`, clevercsv/wrappers.py:350-401. -/
def detectDialectE (sys : Sys) (t : Terminal) (pr : Printer) (verbose : Bool) (p : Path) (numChars : Option Int)
    (encoding : Option Str) (method : Str := "auto".toList) (skip : Bool := true) : ActE (Option SimpleDialect) := do
  let enc ← silently (encodingOr sys p encoding)
  let text ← silently (openText sys p enc)
  runDetectorE sys t pr verbose (readSome text numChars) method skip

/-- `handle` of the detect command, clevercsv/console/commands/detect.py:103-139, without `--add-runtime`. -/
def detectCmdVE (sys : Sys) (t : Terminal) (pr : Printer) (verbose : Bool) (p : Path) (encoding : Option Str)
    (numChars : Option Int) (consistency noSkip : Bool) (format : DetectFormat) : ActE Nat := do
  let method := if consistency then "consistency".toList else "auto".toList
  match ← detectDialectE sys t pr verbose p numChars encoding method (!noSkip) with
  | none => return 1
  | some d =>
    let lines ← silently (liftExcept (detectLines sys.env pr d format))
    printLinesE t lines
    return 0

/-- `handle` of the code command, clevercsv/console/commands/code.py:60-78. -/
def codeCmdVE (sys : Sys) (t : Terminal) (pr : Printer) (verbose : Bool) (p : Path) (encoding : Option Str)
    (numChars : Option Int) (usePandas : Bool) : ActE Nat := do
  let encoding ← silently (encodingOr sys p encoding)
  match ← detectDialectE sys t pr verbose p numChars encoding with
  | none => return 1
  | some d =>
    let lines ← silently (liftExcept (generateCode pr p d encoding usePandas))
    printLineE t (joinLines lines)
    return 0

/-- `handle_path` of the standardize command, clevercsv/console/commands/standardize.py:176-198. -/
def handlePathVE (sys : Sys) (t : Terminal) (pr : Printer) (verbose : Bool) (a : StdArgs) (p : Path) (output : Option Path)
    (encoding : Option Str) : ActE Nat := do
  let encoding ← silently (encodingOr sys p encoding)
  let target := match truthy a.target with
    | some t => some t
    | none => encoding
  match ← detectDialectE sys t pr verbose p a.numChars encoding with
  | none => return 1
  | some d =>
    if a.inPlace then silently (inPlace sys a.transpose p d encoding target)
    else
      match output with
      | none => toStdoutE sys t a.transpose p d encoding
      | some o => silently (toFile sys a.transpose p o d encoding target)

/-- clevercsv/console/commands/standardize.py:160-174. -/
def handleLoopVE (sys : Sys) (t : Terminal) (pr : Printer) (verbose : Bool) (a : StdArgs) :
    List (Path × Option Path × Option Str) → Nat → ActE Nat
  | [], globalRetval => return globalRetval
  | (p, output, encoding) :: rest, globalRetval => do
    let retval ← handlePathVE sys t pr verbose a p output encoding
    let globalRetval := if retval > 0 ∧ globalRetval = 0 then retval else globalRetval
    if retval = 1 then return retval
    else handleLoopVE sys t pr verbose a rest globalRetval

/-- `handle` of the standardize command, clevercsv/console/commands/standardize.py:115-174. -/
def standardizeVE (sys : Sys) (t : Terminal) (pr : Printer) (verbose : Bool) (a : StdArgs) : ActE Nat :=
  if a.inPlace ∧ a.outputs ≠ [] then return 1
  else
    let outputs := if a.outputs.length = 0 then a.paths.map (fun _ => none) else a.outputs.map some
    if a.inPlace = false ∧ outputs.length ≠ a.paths.length then return 1
    else
      let encodings := if a.encodings.length = 0 then a.paths.map (fun _ => none) else a.encodings.map some
      match encodings with
      | [e] => handleLoopVE sys t pr verbose a (a.paths.zip (outputs.zip (a.paths.map fun _ => e))) 0
      | _ =>
        if encodings.length ≠ a.paths.length then return 1
        else handleLoopVE sys t pr verbose a (a.paths.zip (outputs.zip encodings)) 0

end Clever
