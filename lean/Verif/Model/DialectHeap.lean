import Verif.Model.Reader

/-!
# `SimpleDialect` objects in memory

`reader._make_simple_dialect` stores the caller's `SimpleDialect` itself (no copy) and then assigns
attributes.  To speak about this, dialect objects live at addresses of a heap here.
-/

namespace Clever

/-- The `SimpleDialect` objects of the program; the address of an object is its index. -/
abbrev DHeap := List SimpleDialect

/-- A dialect argument; a `SimpleDialect` is given by its address. -/
inductive DialectRef where
  | name (n : String)
  | cInstance (d : CsvDialect)
  | pyInstance (d : CsvDialect)
  | pyClass (d : CsvDialect)
  | simple (addr : Nat)
  | other
deriving DecidableEq, Repr

/-- The argument as a value. -/
def DialectRef.value (h : DHeap) : DialectRef → DialectArg
  | .name n => .name n
  | .cInstance d => .cInstance d
  | .pyInstance d => .pyInstance d
  | .pyClass d => .pyClass d
  | .simple a => match h[a]? with
    | some d => .simple d
    | none => .other
  | .other => .other

/-- `SimpleDialect.from_csv_dialect(d)` as an allocation of a new object. -/
def allocCsv (h : DHeap) (d : Except PyExc CsvDialect) : DHeap × Except PyExc Nat :=
  match d with
  | .error e => (h, .error e)
  | .ok d =>
    match fromCsvDialect d with
    | .error e => (h, .error e)
    | .ok sd => (h ++ [sd], .ok h.length)

/-- The object `sd` of lines 47-54 of clevercsv/read.py. -/
def baseDialectH (h : DHeap) (arg : DialectRef) : DHeap × Except PyExc Nat :=
  match arg with
  | .name n => allocCsv h (getDialect n)
  | .pyInstance d => allocCsv h (.ok d)
  | .simple a => if a < h.length then (h, .ok a) else (h, .error (.valueError "Unknown dialect type"))
  | .cInstance _ => (h, .error (.valueError "Unknown dialect type"))
  | .pyClass _ => (h, .error (.valueError "Unknown dialect type"))
  | .other => (h, .error (.valueError "Unknown dialect type"))

/-- `reader._make_simple_dialect`, clevercsv/read.py:44-59: the heap afterwards, and the address of
the reader's `_dialect`. -/
def makeSimpleDialectH (h : DHeap) (arg : DialectRef) (f : FmtParams) :
    DHeap × Except PyExc Nat :=
  match baseDialectH h arg with
  | (h, .error e) => (h, .error e)
  | (h, .ok a) =>
    -- setattr on the object at `a`
    let h := h.modify a (fun d => d.setParams f)
    match h[a]? with
    | none => (h, .error (.valueError "Unknown dialect type"))
    | some d =>
      match d.validate with
      | .error e => (h, .error e)
      | .ok () => (h, .ok a)

end Clever
