import Verif.Model.Consistency
import Verif.Model.NormalForm

/-!
# The detector (`clevercsv/detect.py`)
-/

namespace Clever

/-- `DetectionMethod`, clevercsv/detect.py:25-38. -/
inductive DetectionMethod where
  | auto
  | normal
  | consistency
deriving DecidableEq, Repr

/-- `DetectionMethod(method)` for a string, clevercsv/detect.py:110. -/
def DetectionMethod.ofString (s : Str) : Except PyExc DetectionMethod :=
  if s = "auto".toList then .ok .auto
  else if s = "normal".toList then .ok .normal
  else if s = "consistency".toList then .ok .consistency
  else .error (.valueError "is not a valid DetectionMethod")

/-- What a call of `Detector.detect` leaves behind: the result, the attribute `method_` (`none`: not
set by this call) and the field size limit. -/
structure Detection where
  result : Except PyExc (Option SimpleDialect)
  method_ : Option DetectionMethod
  limit : Int

/-- `Detector.detect`, clevercsv/detect.py:64-127.  `limit` is the field size limit before the call;
`ConsistencyDetector` uses a cache of 100000 entries. -/
def detect (env : PyEnv) (ord : SetOrder) (limit : Int) (sample : Str)
    (delimiters : Option (List Str) := none) (method : DetectionMethod := .auto)
    (skip : Bool := true) : Detection :=
  let byConsistency : Detection :=
    let r := consistencyDetect env ord (some 100000) skip limit sample delimiters
    ⟨r.1, some .consistency, r.2⟩
  if method = .normal ∨ method = .auto then
    match detectDialectNormal env sample delimiters with
    | some d => ⟨.ok (some d), some .normal, limit⟩
    | none => byConsistency
  else byConsistency

/-- `Detector.detect` with the method given as a string. -/
def detectStr (env : PyEnv) (ord : SetOrder) (limit : Int) (sample : Str)
    (delimiters : Option (List Str)) (method : Str) (skip : Bool) : Detection :=
  match DetectionMethod.ofString method with
  | .error e => ⟨.error e, none, limit⟩
  | .ok m => detect env ord limit sample delimiters m skip

/-- `Detector.sniff`, clevercsv/detect.py:55-62. -/
def sniff (env : PyEnv) (ord : SetOrder) (limit : Int) (sample : Str)
    (delimiters : Option (List Str) := none) : Detection :=
  detect env ord limit sample delimiters

end Clever
