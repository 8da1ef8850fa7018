import Verif.Model.Parser
import Verif.Model.Abstraction

/-!
# References and memory blocks in the C code (`src/cparser.c`, `src/abstraction.c`)

The models `Verif/Model/Parser.lean` and `Verif/Model/ParserBuffer.lean` say what the C functions
compute.  This file says what they own: the references to Python objects that they have to give back
and the blocks of memory that they have to free, for every outcome of the calls that may fail.

* A *ledger* counts, for every object or block, the references that the C code owns: those in its
  local variables and those in the members of the parser object.  A reference that the C code gives
  to its caller, or that a container takes over (`PyTuple_SetItem`), leaves the ledger.
* Whether a call that may fail does fail is given by an arbitrary function `Fails` of the kind of call
  and of the number of calls made so far.
* The outcome `crash` stands for undefined behaviour: use of a `NULL` pointer, use or release of
  something that is not owned any more.

The data that the objects hold are the values of the other models.  The bounds of the blocks are the
subject of `Verif/Model/ParserBuffer.lean` and `Verif/Model/AbstractionBuffer.lean`; here only the
size of the block `field` is kept, as it decides when the block is enlarged.  Objects for exceptions
are not modelled, and the members `Parser_traverse` and the functions of the module object are not
either.
-/

namespace Clever

/-- What a reference can refer to: `Py_True`, `Py_False`, an object that the caller passed, or an
object or block that was made by a call from the C code. -/
inductive Obj where
  | true
  | false
  | arg (i : Nat)
  | made (n : Nat)
deriving DecidableEq, Repr

/-- The calls that may fail. -/
inductive Call where
  /-- `PyUnicode_FromKindAndData`, `PyUnicode_FromStringAndSize`. -/
  | unicodeFrom
  /-- `PyUnicode_New`. -/
  | unicodeNew
  | tupleNew
  | tupleSetItem
  | listNew
  | listAppend
  /-- `malloc`, `realloc`, `PyMem_Resize`. -/
  | alloc
  /-- `PyObject_GC_New`. -/
  | gcNew
deriving DecidableEq, Repr

/-- Which calls fail: the `n`-th call fails if it is of kind `c` and `fails c n` is true. -/
abbrev Fails := Call → Nat → Bool

/-- The ledger: the number of the next object to be made, the number of calls so far, and the number
of references to each object that the C code owns. -/
structure Ledger where
  next : Nat
  calls : Nat
  own : Obj → Nat

/-- The exceptions of the C code that matter here: one that a failing call has set, or one of the
parser. -/
inductive CExc where
  | callFailed
  | perr (e : PErr)
  /-- `RuntimeError("parser input_iter has been cleared")`, src/cparser.c:456-459. -/
  | cleared
  /-- The argument of a constructor was refused. -/
  | badArgument
deriving DecidableEq, Repr

/-- How a piece of C code ends: with a value, with an exception set, or not at all. -/
inductive CRes (σ α : Type) where
  | ok (a : α) (s : σ)
  | exc (e : CExc) (s : σ)
  | crash

/-- C code over a state. -/
def CM (σ α : Type) := σ → CRes σ α

instance {σ : Type} : Monad (CM σ) where
  pure a := fun s => .ok a s
  bind x f := fun s =>
    match x s with
    | .ok a s' => f a s'
    | .exc e s' => .exc e s'
    | .crash => .crash

/-- Set an exception and return the error value. -/
def cRaise {σ α : Type} (e : CExc) : CM σ α := fun s => .exc e s

/-- Undefined behaviour. -/
def cCrash {σ α : Type} : CM σ α := fun _ => .crash

/-- `goto err`: the code at the label runs if the body ends with an exception. -/
def onError {σ α : Type} (body : CM σ α) (err : CM σ Unit) : CM σ α := fun s =>
  match body s with
  | .ok a s' => .ok a s'
  | .crash => .crash
  | .exc e s' =>
    match err s' with
    | .ok _ s'' => .exc e s''
    | .exc e' s'' => .exc e' s''
    | .crash => .crash

/-- The state of C code with local or member data `δ`. -/
structure CState (δ : Type) where
  led : Ledger
  data : δ

variable {δ : Type}

/-- The data. -/
def getData : CM (CState δ) δ := fun s => .ok s.data s

/-- Assignments to the data. -/
def modData (f : δ → δ) : CM (CState δ) Unit := fun s => .ok () { s with data := f s.data }

/-- Add one reference to an object to the ledger. -/
def Ledger.add (l : Ledger) (o : Obj) : Ledger :=
  { l with own := fun x => if x = o then l.own x + 1 else l.own x }

/-- Take one reference to an object from the ledger. -/
def Ledger.sub (l : Ledger) (o : Obj) : Ledger :=
  { l with own := fun x => if x = o then l.own x - 1 else l.own x }

/-- Whether the next call, of kind `c`, succeeds. -/
def callOk (fails : Fails) (c : Call) : CM (CState δ) Bool := fun s =>
  .ok (!fails c s.led.calls) { s with led := { s.led with calls := s.led.calls + 1 } }

/-- A call that returns a new object or block, or `NULL`. -/
def newObj (fails : Fails) (c : Call) : CM (CState δ) (Option Obj) := fun s =>
  let l := { s.led with calls := s.led.calls + 1 }
  if fails c s.led.calls then .ok none { s with led := l }
  else
    .ok (some (.made l.next)) { s with led := Ledger.add { l with next := l.next + 1 } (.made l.next) }

/-- Any use of a pointer to something that the C code should own. -/
def useObj (p : Option Obj) : CM (CState δ) Unit := fun s =>
  match p with
  | none => .crash
  | some o => if s.led.own o = 0 then .crash else .ok () s

/-- `Py_INCREF`. -/
def incref (p : Option Obj) : CM (CState δ) Unit := fun s =>
  match p with
  | none => .crash
  | some o => .ok () { s with led := s.led.add o }

/-- `Py_DECREF`, `free`, `PyMem_Free`, and every other loss of one owned reference. -/
def decref (p : Option Obj) : CM (CState δ) Unit := fun s =>
  match p with
  | none => .crash
  | some o => if s.led.own o = 0 then .crash else .ok () { s with led := s.led.sub o }

/-- `Py_XINCREF`. -/
def xincref (p : Option Obj) : CM (CState δ) Unit :=
  match p with
  | none => pure ()
  | some o => incref (some o)

/-- `Py_XDECREF`; also `free`, which accepts `NULL`. -/
def xdecref (p : Option Obj) : CM (CState δ) Unit :=
  match p with
  | none => pure ()
  | some o => decref (some o)

/-- `PyTuple_SetItem(tuple, i, o)`: it takes over the reference to `o`, also if it fails. -/
def tupleSetItem (fails : Fails) (tuple o : Option Obj) : CM (CState δ) Bool := do
  useObj tuple
  decref o
  callOk fails .tupleSetItem

/-- `PyList_Append(list, o)`: the list makes its own reference to `o`. -/
def listAppend (fails : Fails) (list o : Option Obj) : CM (CState δ) Bool := do
  useObj list
  useObj o
  callOk fails .listAppend

/-! ## The parser -/

/-- What one call of `next` of the input iterator does: it delivers an item, or it first calls
`next(parser)` on the parser that it feeds (and drops what that returns or raises). -/
inductive Event where
  | item (it : Item)
  | reenter
deriving DecidableEq, Repr

/-- The members of `ParserObj` that change, src/cparser.c:65-84: the pointers `input_iter`, `fields`
and `field`, the size of the block `field` points to, its content, the content of the list `fields`,
and the state; moreover what the input iterator is still going to do. -/
structure PData (α : Type) where
  inputIter : Option Obj
  fields : Option Obj
  buf : Option Obj
  bufSize : Nat
  field : Str
  cells : List α
  state : PState
  script : List Event

variable {α : Type}

/-- C code of the parser. -/
abbrev PM (α β : Type) := CM (CState (PData α)) β

/-- `_strstrip`, src/cparser.c:160-167: the result of `PyUnicode_New` goes to
`PyUnicode_CopyCharacters` as it is. -/
def strstrip (fails : Fails) (str : Option Obj) : PM α (Option Obj) := do
  useObj str
  let new ← newObj fails .unicodeNew
  useObj new
  decref str
  pure new

/-- The local variables `field` and `is_quoted` of `parse_save_field`: the object, its text, and the flag. -/
abbrev FieldVar := Option Obj × Str × Bool

/-- `if (...) { field = _strstrip(field, front, back); ... is_quoted = 1; }`, src/cparser.c:201-216. -/
def stripIf (fails : Fails) (b : Bool) (front back : Nat) (f : FieldVar) : PM α FieldVar :=
  if b then do
    let p ← strstrip fails f.1
    pure (p, (f.2.1.drop front).take (f.2.1.length - front - back), true)
  else pure f

/-- The first part of `parse_save_field`, src/cparser.c:192-216. -/
def fieldObj (fails : Fails) (cfg : Cfg) (field : Str) (trailing : Bool) : PM α FieldVar := do
  let p ← newObj fails .unicodeFrom
  if p = none then cRaise .callFailed
  else do
    useObj p
    let f ← stripIf fails (quoteCond field cfg.quotechar) 1 1 (p, field, false)
    useObj f.1
    stripIf fails (trailing && startsWithChar f.2.1 cfg.quotechar) 1 0 f

/-- The second part of `parse_save_field` with `return_quoted`, src/cparser.c:219-239. -/
def appendTuple (fails : Fails) (field : Option Obj) (isQuoted : Bool) : PM α Unit := do
  let tuple ← newObj fails .tupleNew
  if tuple = none then do
    decref field
    cRaise .callFailed
  else do
    let ok ← tupleSetItem fails tuple field
    if !ok then do
      decref tuple
      cRaise .callFailed
    else do
      let tf := some (if isQuoted then Obj.true else Obj.false)
      incref tf
      let ok ← tupleSetItem fails tuple tf
      if !ok then do
        decref tuple
        cRaise .callFailed
      else do
        let d ← getData
        let ok ← listAppend fails d.fields tuple
        if !ok then do
          decref tuple
          cRaise .callFailed
        else decref tuple

/-- The second part of `parse_save_field` without `return_quoted`, src/cparser.c:240-246. -/
def appendField (fails : Fails) (field : Option Obj) : PM α Unit := do
  let d ← getData
  let ok ← listAppend fails d.fields field
  if !ok then do
    decref field
    cRaise .callFailed
  else decref field

/-- `parse_save_field`, src/cparser.c:190-249. -/
def saveFieldM (fails : Fails) (cfg : Cfg) (mk : Str → Bool → α) (returnQuoted trailing : Bool) :
    PM α Unit := do
  let d ← getData
  let f ← fieldObj fails cfg d.field trailing
  modData fun d => { d with field := [] }
  (if returnQuoted then appendTuple fails f.1 f.2.2 else appendField fails f.1)
  modData fun d => { d with cells := d.cells ++ [mk f.2.1 f.2.2] }

/-- `parse_grow_buff`, src/cparser.c:251-265.  `PyMem_Resize` frees the old block if it succeeds. -/
def growBuffM (fails : Fails) : PM α Unit := do
  let d ← getData
  let p ← newObj fails .alloc
  if p = none then cRaise .callFailed
  else do
    xdecref d.buf
    modData fun d =>
      { d with buf := p, bufSize := if d.bufSize ≠ 0 then 2 * d.bufSize else 4096 }

/-- `parse_add_char`, src/cparser.c:267-278. -/
def addCharM (fails : Fails) (cfg : Cfg) (c : Char) : PM α Unit := do
  let d ← getData
  if (d.field.length : Int) ≥ cfg.fieldLimit then cRaise (.perr (.fieldLimit cfg.fieldLimit))
  else do
    (if d.field.length = d.bufSize then growBuffM fails else pure ())
    let d ← getData
    useObj d.buf
    modData fun d => { d with field := d.field ++ [c] }

/-- What `parse_process_char` does with the parser: the calls of `parse_add_char` and
`parse_save_field`, the assignments to `state`, and the exceptions. -/
inductive Step where
  | add (c : Char)
  | save
  | goto (s : PState)
  | fail (e : PErr)
deriving DecidableEq, Repr

/-- Case `START_FIELD` of `parse_process_char`, src/cparser.c:292-311. -/
def planStartField (cfg : Cfg) (u : Char) : List Step :=
  if isNL u || u = NUL then [.save, .goto (if u = NUL then .startRecord else .eatCRNL)]
  else if u = cfg.quotechar then [.add u, .goto .inQuotedField]
  else if u = cfg.escapechar then [.goto .escapedChar]
  else if u = cfg.delimiter then [.save]
  else [.add u, .goto .inField]

/-- Case `IN_FIELD` of `parse_process_char`, src/cparser.c:336-357. -/
def planInField (cfg : Cfg) (u : Char) : List Step :=
  if isNL u || u = NUL then [.save, .goto (if u = NUL then .startRecord else .eatCRNL)]
  else if u = cfg.escapechar then [.goto .escapedChar]
  else if u = cfg.quotechar then [.add u, .goto .inQuotedField]
  else if u = cfg.delimiter then [.save, .goto .startField]
  else [.add u]

/-- `parse_process_char`, src/cparser.c:280-435, as the list of what it does in the given state. -/
def plan (cfg : Cfg) (st : PState) (u v : Char) : List Step :=
  match st with
  | .startRecord =>
    if u = NUL then []
    else if isNL u then [.goto .eatCRNL]
    else .goto .startField :: planStartField cfg u
  | .startField => planStartField cfg u
  | .escapedChar =>
    if isNL u then [.add u, .goto .afterEscapedCRNL]
    else
      (if u ≠ NUL ∧ u ≠ cfg.delimiter ∧ u ≠ cfg.escapechar ∧ u ≠ cfg.quotechar then
        [.add cfg.escapechar] else []) ++
      (if u = NUL then [] else [.add u]) ++ [.goto .inField]
  | .afterEscapedCRNL => if u = NUL then [] else planInField cfg u
  | .inField => planInField cfg u
  | .inQuotedField =>
    if u = NUL then []
    else if u = cfg.escapechar then [.goto .escapeInQuotedField]
    else if u = cfg.quotechar then
      if v = cfg.quotechar then [.goto .quoteInQuotedField]
      else if cfg.strict then [.fail (.expectedAfter cfg.delimiter cfg.quotechar)]
      else [.add u, .goto .inField]
    else [.add u]
  | .escapeInQuotedField =>
    (if u ≠ cfg.escapechar ∧ u ≠ cfg.delimiter ∧ u ≠ cfg.quotechar ∧ u ≠ NUL then
      [.add cfg.escapechar] else []) ++
    [.add (if u = NUL then '\n' else u), .goto .inQuotedField]
  | .quoteInQuotedField =>
    if u = cfg.quotechar then [.add u, .goto .inQuotedField]
    else if u = cfg.delimiter then [.save, .goto .startField]
    else if isNL u || u = NUL then [.save, .goto (if u = NUL then .startRecord else .eatCRNL)]
    else if !cfg.strict then [.add u, .goto .inField]
    else [.fail (.expectedAfter cfg.delimiter cfg.quotechar)]
  | .eatCRNL =>
    if isNL u then []
    else if u = NUL then [.goto .startRecord]
    else [.fail .newlineInUnquoted]

/-- The options of a parser: the configuration and `return_quoted`. -/
structure POpts where
  cfg : Cfg
  returnQuoted : Bool

/-- One thing that `parse_process_char` does. -/
def stepM (fails : Fails) (o : POpts) (mk : Str → Bool → α) : Step → PM α Unit
  | .add c => addCharM fails o.cfg c
  | .save => saveFieldM fails o.cfg mk o.returnQuoted false
  | .goto s => modData fun d => { d with state := s }
  | .fail e => cRaise (.perr e)

/-- All that `parse_process_char` does. -/
def stepsM (fails : Fails) (o : POpts) (mk : Str → Bool → α) : List Step → PM α Unit
  | [] => pure ()
  | p :: ps => do
    stepM fails o mk p
    stepsM fails o mk ps

/-- `parse_process_char`, src/cparser.c:280-435. -/
def processCharM (fails : Fails) (o : POpts) (mk : Str → Bool → α) (u v : Char) : PM α Unit := do
  let d ← getData
  stepsM fails o mk (plan o.cfg d.state u v)

/-- The loop over a line, src/cparser.c:500-521; every error releases the line. -/
def feedLoopM (fails : Fails) (o : POpts) (mk : Str → Bool → α) (line : Option Obj) :
    Str → PM α Unit
  | [] => pure ()
  | u :: rest => do
    useObj line
    if u = NUL then do
      decref line
      cRaise (.perr .nullByte)
    else do
      onError (processCharM fails o mk u (rest.headD NUL)) (decref line)
      feedLoopM fails o mk line rest

/-- `parse_reset`, src/cparser.c:437-445: `Py_XSETREF` stores the new list, or `NULL`, and then
releases the old one. -/
def parseResetM (fails : Fails) : PM α Unit := do
  let d ← getData
  let p ← newObj fails .listNew
  modData fun d => { d with fields := p, cells := if p = none then d.cells else [] }
  xdecref d.fields
  if p = none then cRaise .callFailed
  else modData fun d => { d with field := [], state := .startRecord }

/-- `Py_CLEAR(self->fields)`. -/
def clearFields : PM α Unit := do
  let d ← getData
  modData fun d => { d with fields := none }
  xdecref d.fields

/-- What `Parser_iternext` returns: a row, or `NULL` without an exception. -/
inductive Next (α : Type) where
  | row (r : List α)
  | stop
deriving DecidableEq, Repr

/-- `fields = self->fields; self->fields = NULL; return fields`, src/cparser.c:527-529: the
reference goes to the caller.  Returning `NULL` without an exception ends the iteration. -/
def returnFields : PM α (Next α) := do
  let d ← getData
  modData fun d => { d with fields := none }
  if d.fields = none then pure .stop
  else do
    decref d.fields
    pure (.row d.cells)

/-- One line, src/cparser.c:481-524.  `line` is the new reference that `PyIter_Next` returned. -/
def feedItemM (fails : Fails) (o : POpts) (mk : Str → Bool → α) (line : Option Obj) (it : Item) :
    PM α Unit :=
  match it with
  | .raise => cRaise (.perr .inputRaised)
  | .nonstr => do
    useObj line
    decref line
    cRaise (.perr .notString)
  | .str s => do
    feedLoopM fails o mk line s
    decref line
    processCharM fails o mk NUL NUL

/-- The reference that `PyIter_Next` returns: never missing for an item that is not an exception. -/
def newLine (it : Item) : PM α (Option Obj) := fun s =>
  if it = .raise then .ok none s
  else
    .ok (some (.made s.led.next))
      { s with led := Ledger.add { s.led with next := s.led.next + 1 } (.made s.led.next) }

/-- The end of the input, src/cparser.c:465-479. -/
def endInputM (fails : Fails) (o : POpts) (mk : Str → Bool → α) : PM α (Next α) := do
  let d ← getData
  if d.field ≠ [] ∨ d.state = .inQuotedField then do
    onError
      (if o.cfg.strict then cRaise (.perr .unexpectedEnd)
        else saveFieldM fails o.cfg mk o.returnQuoted true)
      clearFields
    returnFields
  else pure .stop

/-- The code after `PyIter_Next` for an item: an exception of the iterator leaves the function at once
(src/cparser.c:479), every other error goes to the label `err`. -/
def itemM (fails : Fails) (o : POpts) (mk : Str → Bool → α) (it : Item) : PM α Unit := do
  let line ← newLine it
  if it = .raise then feedItemM fails o mk line it
  else onError (feedItemM fails o mk line it) clearFields

/-- A nested call of `next(parser)` from the input iterator, which drops the result: nothing of it is
left but what it did to the state. -/
def ignoring {β : Type} (x : PM α β) : PM α Unit := fun s =>
  match x s with
  | .ok _ s' => .ok () s'
  | .exc _ s' => .ok () s'
  | .crash => .crash

/-- The `do ... while` loop of `Parser_iternext`, src/cparser.c:463-529, with the calls of the
iterator.  The first argument bounds the number of events; running out of it does not happen for the
bound given below (`Verif/Proofs/Ownership.lean`) and would count as a crash. -/
def loopM (fails : Fails) (o : POpts) (mk : Str → Bool → α) : Nat → PM α (Next α)
  | 0 => cCrash
  | n + 1 => do
    let d ← getData
    match d.script with
    | [] => endInputM fails o mk
    | .reenter :: rest => do
      modData fun d => { d with script := rest }
      ignoring do
        parseResetM fails
        loopM fails o mk n
      loopM fails o mk n
    | .item it :: rest => do
      modData fun d => { d with script := rest }
      itemM fails o mk it
      let d ← getData
      if d.state = .startRecord then returnFields else loopM fails o mk n

/-- `Parser_iternext`, src/cparser.c:447-534.  (A nested call checks `input_iter` as well; it is not
`NULL` then, as the iterator is running.) -/
def iternextM (fails : Fails) (o : POpts) (mk : Str → Bool → α) : PM α (Next α) := do
  let d ← getData
  if d.inputIter = none then cRaise .cleared
  else do
    parseResetM fails
    loopM fails o mk (d.script.length + 1)

/-- `Parser_clear`, src/cparser.c:553-558 (called by the garbage collector). -/
def parserClearM : PM α Unit := do
  let d ← getData
  modData fun d => { d with inputIter := none }
  xdecref d.inputIter
  clearFields

/-- `Parser_dealloc`, src/cparser.c:536-544, but for the memory of the parser object itself. -/
def parserDeallocM : PM α Unit := do
  let d ← getData
  xdecref d.inputIter
  xdecref d.fields
  xdecref d.buf

/-- What the program does with a parser object before it drops it. -/
inductive Use where
  | next
  | clear
deriving DecidableEq, Repr

/-- Run a call and go on, whatever its outcome: the exceptions are the caller's affair. -/
def usesM (fails : Fails) (o : POpts) (mk : Str → Bool → α) : List Use → PM α Unit
  | [] => pure ()
  | .next :: us => do
    ignoring (iternextM fails o mk)
    usesM fails o mk us
  | .clear :: us => do
    parserClearM
    usesM fails o mk us

/-! ## The constructor -/

/-- One optional argument of `cparser_parser`: the object, if it is given, and whether `_set_char`,
`_set_long` or `_set_bool` accepts it. -/
structure KwArg where
  obj : Option Obj
  accepted : Bool
deriving DecidableEq, Repr

/-- The `ATTRSET`s, src/cparser.c:669-674. -/
def attrsM : List KwArg → PM α Unit
  | [] => pure ()
  | k :: ks => if k.accepted then attrsM ks else cRaise .badArgument

/-- `Py_XINCREF` or `Py_XDECREF` for each of the optional arguments. -/
def eachKw (f : Option Obj → PM α Unit) : List KwArg → PM α Unit
  | [] => pure ()
  | k :: ks => do
    f k.obj
    eachKw f ks

/-- `Py_DECREF(self)`, and `Parser_dealloc` if that was the last reference. -/
def decrefSelf (self : Option Obj) : PM α Unit := do
  decref self
  fun s =>
    match self with
    | none => .crash
    | some o => if s.led.own o = 0 then parserDeallocM s else .ok () s

/-- The first assignments, src/cparser.c:627-633. -/
def setDefaults : PM α Unit :=
  modData fun d =>
    { d with inputIter := none, fields := none, buf := none, bufSize := 0, field := [], cells := [] }

/-- `PyObject_GetIter(iterator)`: a new reference to the iterator of the argument, or `NULL`. -/
def getIterM (iter : Option Obj) : PM α Unit := do
  (if iter = none then pure () else incref iter)
  modData fun d => { d with inputIter := iter }

/-- `cparser_parser`, src/cparser.c:611-698.  `parsed`: whether `PyArg_ParseTupleAndKeywords` succeeds;
`kws`: the six optional arguments; `iter`: what `PyObject_GetIter` returns for the first argument.
Returns the new parser object. -/
def parserNewM (fails : Fails) (parsed : Bool) (kws : List KwArg) (iter : Option Obj) :
    PM α (Option Obj) := do
  let self ← newObj fails .gcNew
  if self = none then cRaise .callFailed
  else do
    setDefaults
    onError (parseResetM fails) (decrefSelf self)
    if !parsed then do
      decrefSelf self
      cRaise .badArgument
    else do
      eachKw xincref kws
      onError (attrsM kws) (do
        decrefSelf self
        eachKw xdecref kws)
      getIterM iter
      if iter = none then do
        decrefSelf self
        cRaise .badArgument
      else do
        incref self
        decrefSelf self
        eachKw xdecref kws
        pure self

/-- The last reference to the parser goes: `Parser_dealloc`, src/cparser.c:536-544, with the memory of
the parser object (`PyObject_GC_Del`). -/
def dropParserM (self : Option Obj) : PM α Unit := do
  parserDeallocM
  decref self

/-- The life of a parser object: it is made, used, and dropped. -/
def lifeM (fails : Fails) (o : POpts) (mk : Str → Bool → α) (parsed : Bool) (kws : List KwArg)
    (iter : Option Obj) (us : List Use) : PM α Unit := do
  let self ← parserNewM fails parsed kws iter
  usesM fails o mk us
  dropParserM self

/-! ## The functions of `src/abstraction.c` -/

/-- C code without member data. -/
abbrev AM (β : Type) := CM (CState Unit) β

/-- The first argument of the functions: a string, or any other object. -/
inductive Arg1 where
  | str (s : Str)
  | other
deriving DecidableEq, Repr

/-- `PyUnicode_READY(S)`, `PyUnicode_KIND(S)`, `PyUnicode_DATA(S)`, src/abstraction.c:75-79, 161-168:
macros that take `S` for a string without looking at its type. -/
def readyM : Arg1 → AM Str
  | .str s => pure s
  | .other => cCrash

/-- `realloc(p, ...)`: `NULL` if it fails, and then the old block is kept. -/
def reallocM (fails : Fails) (p : Option Obj) : AM (Option Obj) := do
  useObj p
  let new ← newObj fails .alloc
  if new = none then pure none
  else do
    decref p
    pure new

/-- The loop of `base_abstraction`, src/abstraction.c:89-132: `st` is the stack and `escape_next`,
`size` the variable `stack_size`.  Returns the block and its content. -/
def absLoopM (fails : Fails) (d q e : Char) :
    Option Obj → Nat → AbsState → Str → AM (Option Obj × AbsState)
  | p, _, st, [] => pure (p, st)
  | p, size, st, s :: rest => do
    useObj p
    let st := absStep d q e st s
    if st.1.length = size then do
      let new ← reallocM fails p
      if new = none then do
        decref p
        cRaise .callFailed
      else absLoopM fails d q e new (2 * size) st rest
    else absLoopM fails d q e p size st rest

/-- The end of both functions: `PyUnicode_FromStringAndSize`, whose result, possibly `NULL`, is
returned after `cleanup`. -/
def returnStr (fails : Fails) (cleanup : AM Unit) (s : Str) : AM Str := do
  let obj ← newObj fails .unicodeFrom
  cleanup
  if obj = none then cRaise .callFailed
  else do
    -- the reference goes to the caller
    decref obj
    pure s

/-- `base_abstraction`, src/abstraction.c:75-137, after the characters have been decoded. -/
def baseAbstractionM (fails : Fails) (d q e : Char) (S : Arg1) : AM Str := do
  let data ← readyM S
  let p ← newObj fails .alloc
  if p = none then cRaise .callFailed
  else do
    let (p, st) ← absLoopM fails d q e p 4096 ([], false) data
    useObj p
    returnStr fails (decref p) st.1.reverse

/-- The three blocks of `c_merge_with_quotechar`. -/
structure MergeBlocks where
  l : Option Obj
  r : Option Obj
  out : Option Obj

/-- The label `merge_err`, src/abstraction.c:264-267. -/
def mergeErr (b : MergeBlocks) : AM Unit := do
  xdecref b.out
  xdecref b.l
  xdecref b.r

/-- The growing of the index arrays, src/abstraction.c:234-249; `idx` is `quote_idx`, already
incremented, `size` is `quote_idx_size`. -/
def growIdxM (fails : Fails) (b : MergeBlocks) (idx size : Nat) : AM (MergeBlocks × Nat) := do
  if idx = size then do
    let l ← reallocM fails b.l
    if l = none then do
      mergeErr b
      cRaise .callFailed
    else do
      let b := { b with l := l }
      let r ← reallocM fails b.r
      if r = none then do
        mergeErr b
        cRaise .callFailed
      else pure ({ b with r := r }, 2 * size)
  else pure (b, size)

/-- The loop of `c_merge_with_quotechar`, src/abstraction.c:202-252, as far as the blocks are
concerned: `inq` is `in_quotes`. -/
def mergeLoopM (fails : Fails) : MergeBlocks → Nat → Nat → Bool → Str → AM (MergeBlocks)
  | b, _, _, _, [] => pure b
  | b, idx, size, inq, s :: rest => do
    useObj b.out
    if s ≠ 'Q' then mergeLoopM fails b idx size inq rest
    else if !inq then do
      useObj b.l
      mergeLoopM fails b idx size true rest
    else
      match rest with
      | [] => do
        useObj b.r
        let (b, _) ← growIdxM fails b (idx + 1) size
        pure b
      | t :: rest' =>
        if t = 'Q' then mergeLoopM fails b idx size true rest'
        else do
          useObj b.r
          let (b, size) ← growIdxM fails b (idx + 1) size
          mergeLoopM fails b (idx + 1) size false (t :: rest')

/-- `c_merge_with_quotechar`, src/abstraction.c:139-269. -/
def mergeM (fails : Fails) (S : Arg1) : AM Str := do
  let s ← readyM S
  if s = [] then pure s
  else do
    let l ← newObj fails .alloc
    if l = none then cRaise .callFailed
    else do
      let r ← newObj fails .alloc
      if r = none then do
        decref l
        cRaise .callFailed
      else do
        let out ← newObj fails .alloc
        if out = none then do
          decref l
          decref r
          cRaise .callFailed
        else do
          let b ← mergeLoopM fails ⟨l, r, out⟩ 0 4 false s
          useObj b.l
          useObj b.r
          useObj b.out
          returnStr fails (mergeErr b) (mergeWithQuotechar s)

end Clever
