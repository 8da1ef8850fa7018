import Verif.Model.World

/-!
# Optional dependencies (clevercsv/_optional.py)

Importing a module and comparing versions is library code, given by parameters.  Messages are shortened.
-/

namespace Clever

/-- `OptionalDependency`, clevercsv/_optional.py:26-29. -/
structure OptionalDependency where
  importName : Str
  packageName : Str
  minVersion : Str
deriving DecidableEq

/-- `OPTIONAL_DEPENDENCIES`, clevercsv/_optional.py:33-38. -/
def optionalDependencies : List OptionalDependency :=
  [⟨"tabview".toList, "tabview".toList, "1.4".toList⟩, ⟨"pandas".toList, "pandas".toList, "0.24.1".toList⟩,
   ⟨"cchardet".toList, "faust-cchardet".toList, "2.1.18".toList⟩,
   ⟨"wilderness".toList, "wilderness".toList, "0.1.5".toList⟩]

/-- The import system: the modules that can be imported, with their attribute `__version__`, if they have one; and
`Version(v) < Version(w)` of the package `packaging`, `none` if `v` is not a version (`InvalidVersion`, a
`ValueError`). -/
structure Importer where
  installed : Str → Option (Option Str)
  older : Str → Str → Option Bool

/-- `import_optional_dependency`, clevercsv/_optional.py:41-104: `true` for the module, `false` for None. -/
def importOptional (im : Importer) (name : Str) (raiseOnMissing : Bool := true) : Except PyExc Bool :=
  match im.installed name with
  | none => if raiseOnMissing then .error (.importError "is missing") else .ok false
  | some version =>
    -- the dictionary keeps the last entry with a name
    match optionalDependencies.reverse.find? (fun d => d.importName = name) with
    | none => .error (.importError "No known optional dependency")
    | some dep =>
      match version with
      | none => .ok true
      | some v =>
        match im.older v dep.minVersion with
        | none => .error (.valueError "Invalid version")
        | some true => .error (.importError "requires a newer version")
        | some false => .ok true

/-- The choice of the detector in `get_encoding`, clevercsv/encoding.py:41-51. -/
def chooseSniffer (im : Importer) (chardet cchardet : EncDetector) (tryCchardet : Bool) : Except PyExc EncDetector :=
  if tryCchardet then
    match importOptional im "cchardet".toList false with
    | .error e => .error e
    | .ok found => .ok (if found then cchardet else chardet)
  else .ok chardet

end Clever
