import Verif.Basic

/-!
# Model of the C parser (`src/cparser.c`)

Simplifications:
* failing calls and owned references are left to `Verif/Model/Ownership.lean`;
* the buffer `field`/`field_size`/`field_len` is a list here; `Verif/Model/ParserBuffer.lean`
  models the buffer explicitly and `Verif/Props/Buffers.lean` relates the two;
* the member `doublequote` is write-only in the C code and is left out.
-/

namespace Clever

/-- `ParserState`, src/cparser.c:53-63. -/
inductive PState where
  | startRecord | startField | escapedChar | inField | inQuotedField
  | escapeInQuotedField | quoteInQuotedField | eatCRNL | afterEscapedCRNL
deriving DecidableEq, Repr

/-- The configuration members of `ParserObj`, src/cparser.c:74-81.  A character that is absent
in the dialect is `'\0'`. -/
structure Cfg where
  delimiter : Char
  quotechar : Char
  escapechar : Char
  fieldLimit : Int
  strict : Bool
deriving DecidableEq, Repr

/-- The mutable members of `ParserObj`, src/cparser.c:70-73, 83.  `α` is the type of cells: `Str`,
or `Str × Bool` if `return_quoted` is set. -/
structure PObj (α : Type) where
  fields : List α
  field : Str
  state : PState
deriving DecidableEq, Repr

/-- `parse_reset`, src/cparser.c:437-445. -/
def PObj.init {α : Type} : PObj α := ⟨[], [], .startRecord⟩

/-- `_strstartswith`, src/cparser.c:169-173. -/
def startsWithChar (s : Str) (c : Char) : Bool := s.head? = some c

/-- `_strendswith`, src/cparser.c:175-179. -/
def endsWithChar (s : Str) (c : Char) : Bool := s.getLast? = some c

/-- `_quotecond`, src/cparser.c:181-188. -/
def quoteCond (s : Str) (q : Char) : Bool :=
  if q = NUL then false
  else if s.length ≤ 1 then false
  else startsWithChar s q && endsWithChar s q

/-- The cell that `parse_save_field` appends, and its `is_quoted` flag, src/cparser.c:192-216. -/
def saveCell (q : Char) (field : Str) (trailing : Bool) : Str × Bool :=
  -- strip quotes if quoted string
  let r : Str × Bool :=
    if quoteCond field q then ((field.drop 1).dropLast, true) else (field, false)
  -- strip partial quotes if trailing at end of file
  if trailing && startsWithChar r.1 q then (r.1.drop 1, true) else r

variable {α : Type}

/-- `parse_save_field`, src/cparser.c:190-249.  `mk` builds the cell from the text and the
`is_quoted` flag. -/
def saveField (cfg : Cfg) (mk : Str → Bool → α) (o : PObj α) (trailing : Bool) : PObj α :=
  let c := saveCell cfg.quotechar o.field trailing
  { o with fields := o.fields ++ [mk c.1 c.2], field := [] }

/-- `parse_add_char`, src/cparser.c:267-278. -/
def addChar (cfg : Cfg) (o : PObj α) (c : Char) : Except PErr (PObj α) :=
  if (o.field.length : Int) ≥ cfg.fieldLimit then .error (.fieldLimit cfg.fieldLimit)
  else .ok { o with field := o.field ++ [c] }

/-- `self->state = s`. -/
def PObj.to (o : PObj α) (s : PState) : PObj α := { o with state := s }

/-- Case `START_FIELD` of `parse_process_char`, src/cparser.c:292-311. -/
def stepStartField (cfg : Cfg) (mk : Str → Bool → α) (o : PObj α) (u : Char) :
    Except PErr (PObj α) :=
  if isNL u || u = NUL then
    .ok ((saveField cfg mk o false).to (if u = NUL then .startRecord else .eatCRNL))
  else if u = cfg.quotechar then do
    let o ← addChar cfg o u
    .ok (o.to .inQuotedField)
  else if u = cfg.escapechar then
    .ok (o.to .escapedChar)
  else if u = cfg.delimiter then
    .ok (saveField cfg mk o false)
  else do
    let o ← addChar cfg o u
    .ok (o.to .inField)

/-- Case `IN_FIELD` of `parse_process_char`, src/cparser.c:336-357. -/
def stepInField (cfg : Cfg) (mk : Str → Bool → α) (o : PObj α) (u : Char) :
    Except PErr (PObj α) :=
  if isNL u || u = NUL then
    .ok ((saveField cfg mk o false).to (if u = NUL then .startRecord else .eatCRNL))
  else if u = cfg.escapechar then
    .ok (o.to .escapedChar)
  else if u = cfg.quotechar then do
    let o ← addChar cfg o u
    .ok (o.to .inQuotedField)
  else if u = cfg.delimiter then
    .ok ((saveField cfg mk o false).to .startField)
  else addChar cfg o u

/-- `parse_process_char`, src/cparser.c:280-435.  `u` is the current character and `v` the
lookahead; both are `'\0'` for the end of a line. -/
def processChar (cfg : Cfg) (mk : Str → Bool → α) (o : PObj α) (u v : Char) :
    Except PErr (PObj α) :=
  match o.state with
  | .startRecord =>
    if u = NUL then .ok o
    else if isNL u then .ok (o.to .eatCRNL)
    else stepStartField cfg mk (o.to .startField) u
  | .startField => stepStartField cfg mk o u
  | .escapedChar =>
    if isNL u then do
      let o ← addChar cfg o u
      .ok (o.to .afterEscapedCRNL)
    else do
      let o ←
        if u ≠ NUL ∧ u ≠ cfg.delimiter ∧ u ≠ cfg.escapechar ∧ u ≠ cfg.quotechar then
          addChar cfg o cfg.escapechar
        else .ok o
      let o ← if u = NUL then .ok o else addChar cfg o u
      .ok (o.to .inField)
  | .afterEscapedCRNL =>
    -- the `break` leaves the state as it is; otherwise fall through with the state still
    -- `AFTER_ESCAPED_CRNL`, so that the last branch of `IN_FIELD` stays in this state
    if u = NUL then .ok o else stepInField cfg mk o u
  | .inField => stepInField cfg mk o u
  | .inQuotedField =>
    if u = NUL then .ok o
    else if u = cfg.escapechar then .ok (o.to .escapeInQuotedField)
    else if u = cfg.quotechar then
      if v = cfg.quotechar then .ok (o.to .quoteInQuotedField)
      else if cfg.strict then .error (.expectedAfter cfg.delimiter cfg.quotechar)
      else do
        let o ← addChar cfg o u
        .ok (o.to .inField)
    else addChar cfg o u
  | .escapeInQuotedField => do
    let o ←
      if u ≠ cfg.escapechar ∧ u ≠ cfg.delimiter ∧ u ≠ cfg.quotechar ∧ u ≠ NUL then
        addChar cfg o cfg.escapechar
      else .ok o
    let o ← addChar cfg o (if u = NUL then '\n' else u)
    .ok (o.to .inQuotedField)
  | .quoteInQuotedField =>
    if u = cfg.quotechar then do
      let o ← addChar cfg o u
      .ok (o.to .inQuotedField)
    else if u = cfg.delimiter then
      .ok ((saveField cfg mk o false).to .startField)
    else if isNL u || u = NUL then
      .ok ((saveField cfg mk o false).to (if u = NUL then .startRecord else .eatCRNL))
    else if !cfg.strict then do
      let o ← addChar cfg o u
      .ok (o.to .inField)
    else .error (.expectedAfter cfg.delimiter cfg.quotechar)
  | .eatCRNL =>
    if isNL u then .ok o
    else if u = NUL then .ok (o.to .startRecord)
    else .error .newlineInUnquoted

/-- One pass of the `do` loop of `Parser_iternext` over a line, including the final
`parse_process_char(self, 0, 0)`, src/cparser.c:495-524.  (`u` is always the character at `pos`:
the lookahead `v` of the previous step is that same character.) -/
def feedLine (cfg : Cfg) (mk : Str → Bool → α) : PObj α → Str → Except PErr (PObj α)
  | o, [] => processChar cfg mk o NUL NUL
  | o, u :: rest =>
    if u = NUL then .error .nullByte
    else
      match processChar cfg mk o u (rest.headD NUL) with
      | .error e => .error e
      | .ok o' => feedLine cfg mk o' rest

/-- What `PyIter_Next(self->input_iter)` may deliver: a string, an object that is not a string,
or an exception. -/
inductive Item where
  | str (s : Str)
  | nonstr
  | raise
deriving DecidableEq, Repr

/-- Result of one call of `Parser_iternext`. -/
inductive Outcome (α : Type) where
  | row (r : List α)
  | stop
  | error (e : PErr)
deriving DecidableEq, Repr

/-- The `do ... while` loop of `Parser_iternext`, src/cparser.c:463-534, from parser object `o`,
with the items that the input iterator is still going to deliver.  Returns the outcome and the
items not yet consumed. -/
def nextRowFrom (cfg : Cfg) (mk : Str → Bool → α) : PObj α → List Item → Outcome α × List Item
  | o, [] =>
    if o.field ≠ [] ∨ o.state = .inQuotedField then
      if cfg.strict then (.error .unexpectedEnd, [])
      else (.row (saveField cfg mk o true).fields, [])
    else (.stop, [])
  | _, .raise :: rest => (.error .inputRaised, rest)
  | _, .nonstr :: rest => (.error .notString, rest)
  | o, .str l :: rest =>
    match feedLine cfg mk o l with
    | .error e => (.error e, rest)
    | .ok o' =>
      if o'.state = .startRecord then (.row o'.fields, rest)
      else nextRowFrom cfg mk o' rest

/-- `Parser_iternext`, src/cparser.c:447-534. -/
def nextRow (cfg : Cfg) (mk : Str → Bool → α) (items : List Item) : Outcome α × List Item :=
  nextRowFrom cfg mk PObj.init items

/-- Auxiliary for `parseRows`: the fuel bounds the number of rows (`Verif/Proofs/Parser.lean`
proves that `items.length + 1` is always enough). -/
def parseRowsAux (cfg : Cfg) (mk : Str → Bool → α) :
    Nat → List Item → List (List α) × Option PErr
  | 0, _ => ([], none)
  | n + 1, items =>
    match nextRow cfg mk items with
    | (.stop, _) => ([], none)
    | (.error e, _) => ([], some e)
    | (.row r, rest) =>
      let p := parseRowsAux cfg mk n rest
      (r :: p.1, p.2)

/-- Iterating a parser to the end (`for row in parser: yield row`, clevercsv/cparser_util.py:66-70):
the rows yielded, and the error that ended the iteration, if any. -/
def parseRows (cfg : Cfg) (mk : Str → Bool → α) (items : List Item) :
    List (List α) × Option PErr :=
  parseRowsAux cfg mk (items.length + 1) items

/-- Cell constructor for `return_quoted=False`, src/cparser.c:240-246. -/
def mkPlain (s : Str) (_ : Bool) : Str := s

/-- Cell constructor for `return_quoted=True`, src/cparser.c:219-239. -/
def mkQuoted (s : Str) (b : Bool) : Str × Bool := (s, b)

end Clever
