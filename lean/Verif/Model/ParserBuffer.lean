import Verif.Model.Parser

/-!
# The C parser with its explicit field buffer (`src/cparser.c`)

The same functions as in `Verif/Model/Parser.lean`, but with the buffer `field` as a block of memory
of `field_size` characters, of which `field_len` are in use, and with the line as an array that is
read by index.  Every access outside a block is the error `oob`.  Memory that `PyMem_Resize` adds is
not initialised: its content is given by an arbitrary function `junk`.  Allocation failures are
the subject of `Verif/Model/Ownership.lean`; lengths are unbounded numbers, and C112 bounds them.
-/

namespace Clever

/-- Errors of the buffer model: an access out of bounds, or an error of the parser. -/
inductive BErr where
  | oob
  | perr (e : PErr)
deriving DecidableEq, Repr

/-- The mutable members of `ParserObj`, src/cparser.c:70-73, 83: `mem` is the block that `field`
points to (its length is `field_size`), `len` is `field_len`. -/
structure BObj (α : Type) where
  fields : List α
  mem : List Char
  len : Nat
  state : PState

/-- `parse_reset`, src/cparser.c:437-445: the buffer is kept. -/
def BObj.reset {α : Type} (o : BObj α) : BObj α := ⟨[], o.mem, 0, .startRecord⟩

variable {α : Type}

/-- A write `block[i] = c`. -/
def memWrite {β : Type} (mem : List β) (i : Nat) (c : β) : Except BErr (List β) :=
  if i < mem.length then .ok (mem.set i c) else .error .oob

/-- A read of `block[i]`. -/
def memRead {β : Type} (mem : List β) (i : Nat) : Except BErr β :=
  match mem[i]? with
  | some c => .ok c
  | none => .error .oob

/-- A read of the first `n` characters (`PyUnicode_FromKindAndData`). -/
def memPrefix {β : Type} (mem : List β) (n : Nat) : Except BErr (List β) :=
  if n ≤ mem.length then .ok (mem.take n) else .error .oob

/-- Enlarging a block to `n` elements (`realloc`): the new part is not initialised. -/
def memGrow {β : Type} (junk : Nat → β) (mem : List β) (n : Nat) : List β :=
  mem ++ (List.range (n - mem.length)).map junk

/-- `parse_grow_buff`, src/cparser.c:251-265. -/
def growBuff (junk : Nat → Char) (o : BObj α) : BObj α :=
  { o with mem := memGrow junk o.mem (if o.mem.length ≠ 0 then 2 * o.mem.length else 4096) }

/-- `parse_add_char`, src/cparser.c:267-278. -/
def addCharB (junk : Nat → Char) (cfg : Cfg) (o : BObj α) (c : Char) : Except BErr (BObj α) :=
  if (o.len : Int) ≥ cfg.fieldLimit then .error (.perr (.fieldLimit cfg.fieldLimit))
  else
    let o := if o.len = o.mem.length then growBuff junk o else o
    match memWrite o.mem o.len c with
    | .error e => .error e
    | .ok mem => .ok { o with mem := mem, len := o.len + 1 }

/-- `parse_save_field`, src/cparser.c:190-249. -/
def saveFieldB (cfg : Cfg) (mk : Str → Bool → α) (o : BObj α) (trailing : Bool) :
    Except BErr (BObj α) :=
  match memPrefix o.mem o.len with
  | .error e => .error e
  | .ok field =>
    let c := saveCell cfg.quotechar field trailing
    .ok { o with fields := o.fields ++ [mk c.1 c.2], len := 0 }

/-- `self->state = s`. -/
def BObj.to (o : BObj α) (s : PState) : BObj α := { o with state := s }

/-- Case `START_FIELD` of `parse_process_char`, src/cparser.c:292-311. -/
def stepStartFieldB (junk : Nat → Char) (cfg : Cfg) (mk : Str → Bool → α) (o : BObj α) (u : Char) :
    Except BErr (BObj α) :=
  if isNL u || u = NUL then
    do
    let o ← saveFieldB cfg mk o false
    .ok (o.to (if u = NUL then .startRecord else .eatCRNL))
  else if u = cfg.quotechar then do
    let o ← addCharB junk cfg o u
    .ok (o.to .inQuotedField)
  else if u = cfg.escapechar then
    .ok (o.to .escapedChar)
  else if u = cfg.delimiter then
    saveFieldB cfg mk o false
  else do
    let o ← addCharB junk cfg o u
    .ok (o.to .inField)

/-- Case `IN_FIELD` of `parse_process_char`, src/cparser.c:336-357. -/
def stepInFieldB (junk : Nat → Char) (cfg : Cfg) (mk : Str → Bool → α) (o : BObj α) (u : Char) :
    Except BErr (BObj α) :=
  if isNL u || u = NUL then
    do
    let o ← saveFieldB cfg mk o false
    .ok (o.to (if u = NUL then .startRecord else .eatCRNL))
  else if u = cfg.escapechar then
    .ok (o.to .escapedChar)
  else if u = cfg.quotechar then do
    let o ← addCharB junk cfg o u
    .ok (o.to .inQuotedField)
  else if u = cfg.delimiter then
    do
      let o ← saveFieldB cfg mk o false
      .ok (o.to .startField)
  else addCharB junk cfg o u

/-- `parse_process_char`, src/cparser.c:280-435.  `u` is the current character and `v` the
lookahead; both are `'\0'` for the end of a line. -/
def processCharB (junk : Nat → Char) (cfg : Cfg) (mk : Str → Bool → α) (o : BObj α) (u v : Char) :
    Except BErr (BObj α) :=
  match o.state with
  | .startRecord =>
    if u = NUL then .ok o
    else if isNL u then .ok (o.to .eatCRNL)
    else stepStartFieldB junk cfg mk (o.to .startField) u
  | .startField => stepStartFieldB junk cfg mk o u
  | .escapedChar =>
    if isNL u then do
      let o ← addCharB junk cfg o u
      .ok (o.to .afterEscapedCRNL)
    else do
      let o ←
        if u ≠ NUL ∧ u ≠ cfg.delimiter ∧ u ≠ cfg.escapechar ∧ u ≠ cfg.quotechar then
          addCharB junk cfg o cfg.escapechar
        else .ok o
      let o ← if u = NUL then .ok o else addCharB junk cfg o u
      .ok (o.to .inField)
  | .afterEscapedCRNL =>
    -- the `break` leaves the state as it is; otherwise fall through with the state still
    -- `AFTER_ESCAPED_CRNL`, so that the last branch of `IN_FIELD` stays in this state
    if u = NUL then .ok o else stepInFieldB junk cfg mk o u
  | .inField => stepInFieldB junk cfg mk o u
  | .inQuotedField =>
    if u = NUL then .ok o
    else if u = cfg.escapechar then .ok (o.to .escapeInQuotedField)
    else if u = cfg.quotechar then
      if v = cfg.quotechar then .ok (o.to .quoteInQuotedField)
      else if cfg.strict then .error (.perr (.expectedAfter cfg.delimiter cfg.quotechar))
      else do
        let o ← addCharB junk cfg o u
        .ok (o.to .inField)
    else addCharB junk cfg o u
  | .escapeInQuotedField => do
    let o ←
      if u ≠ cfg.escapechar ∧ u ≠ cfg.delimiter ∧ u ≠ cfg.quotechar ∧ u ≠ NUL then
        addCharB junk cfg o cfg.escapechar
      else .ok o
    let o ← addCharB junk cfg o (if u = NUL then '\n' else u)
    .ok (o.to .inQuotedField)
  | .quoteInQuotedField =>
    if u = cfg.quotechar then do
      let o ← addCharB junk cfg o u
      .ok (o.to .inQuotedField)
    else if u = cfg.delimiter then
      do
      let o ← saveFieldB cfg mk o false
      .ok (o.to .startField)
    else if isNL u || u = NUL then
      do
    let o ← saveFieldB cfg mk o false
    .ok (o.to (if u = NUL then .startRecord else .eatCRNL))
    else if !cfg.strict then do
      let o ← addCharB junk cfg o u
      .ok (o.to .inField)
    else .error (.perr (.expectedAfter cfg.delimiter cfg.quotechar))
  | .eatCRNL =>
    if isNL u then .ok o
    else if u = NUL then .ok (o.to .startRecord)
    else .error (.perr .newlineInUnquoted)

/-- `if (v != '\0') u = v; else u = PyUnicode_READ(kind, data, pos)`, src/cparser.c:501-504. -/
def readU (line : Str) (pos : Nat) (v : Char) : Except BErr Char :=
  if v ≠ NUL then .ok v else memRead line pos

/-- `if (linelen > 0) v = PyUnicode_READ(kind, data, pos+1); else v = '\0'`,
src/cparser.c:505-508 (`n` is `linelen`, already decremented). -/
def readV (line : Str) (pos n : Nat) : Except BErr Char :=
  if n > 0 then memRead line (pos + 1) else .ok NUL

/-- The loop over a line, src/cparser.c:500-521: `n` is `linelen`, `pos` the position, `v` the
lookahead of the previous step. -/
def feedLoopB (junk : Nat → Char) (cfg : Cfg) (mk : Str → Bool → α) (line : Str) :
    Nat → Nat → Char → BObj α → Except BErr (BObj α)
  | 0, _, _, o => .ok o
  | n + 1, pos, v, o => do
    let u ← readU line pos v
    let v ← readV line pos n
    if u = NUL then .error (.perr .nullByte)
    else do
      let o ← processCharB junk cfg mk o u v
      feedLoopB junk cfg mk line n (pos + 1) v o

/-- The processing of one line, src/cparser.c:495-524. -/
def feedLineB (junk : Nat → Char) (cfg : Cfg) (mk : Str → Bool → α) (o : BObj α) (line : Str) :
    Except BErr (BObj α) := do
  let o ← feedLoopB junk cfg mk line line.length 0 NUL o
  processCharB junk cfg mk o NUL NUL

/-- Result of one call of `Parser_iternext` in the buffer model. -/
inductive OutcomeB (α : Type) where
  | row (r : List α)
  | stop
  | error (e : BErr)
deriving DecidableEq, Repr

/-- The `do ... while` loop of `Parser_iternext`, src/cparser.c:463-525.  Returns the outcome, the
items not yet consumed, and the buffer that is kept for the next call (after an error within a line:
the buffer as it was before the line; the theorems hold for whatever buffer a call starts with). -/
def nextRowFromB (junk : Nat → Char) (cfg : Cfg) (mk : Str → Bool → α) :
    BObj α → List Item → OutcomeB α × List Item × List Char
  | o, [] =>
    if o.len ≠ 0 ∨ o.state = .inQuotedField then
      if cfg.strict then (.error (.perr .unexpectedEnd), [], o.mem)
      else
        match saveFieldB cfg mk o true with
        | .error e => (.error e, [], o.mem)
        | .ok o' => (.row o'.fields, [], o'.mem)
    else (.stop, [], o.mem)
  | o, .raise :: rest => (.error (.perr .inputRaised), rest, o.mem)
  | o, .nonstr :: rest => (.error (.perr .notString), rest, o.mem)
  | o, .str l :: rest =>
    match feedLineB junk cfg mk o l with
    | .error e => (.error e, rest, o.mem)
    | .ok o' =>
      if o'.state = .startRecord then (.row o'.fields, rest, o'.mem)
      else nextRowFromB junk cfg mk o' rest

/-- `Parser_iternext`, src/cparser.c:447-534, for a parser with the given buffer. -/
def nextRowB (junk : Nat → Char) (cfg : Cfg) (mk : Str → Bool → α) (mem : List Char)
    (items : List Item) : OutcomeB α × List Item × List Char :=
  nextRowFromB junk cfg mk (BObj.reset ⟨[], mem, 0, .startRecord⟩) items

end Clever
