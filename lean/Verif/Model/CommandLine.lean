import Verif.Model.Code
import Verif.Model.DataFrame
import Verif.Model.Runtime
import Verif.Model.Standardize
import Verif.Model.View

/-!
# The command line of the five commands

The tables of options are those of the `register` methods in clevercsv/console/commands.  How a list of command line
arguments is taken apart is library behaviour: `argparse` of CPython 3.8 to 3.11 (`parse_known_args`, `_parse_optional`,
`_get_option_tuples`, `consume_optional`, `consume_positionals`), to which the package `wilderness` passes the arguments of a
command.  Not modelled: `-h`/`--help` and the options of the application (`-v`, `-V`, clevercsv/console/application.py:68-79),
the messages, and the conversion `int(...)` of a string, which is the parameter `toInt`.  Every error of `argparse` is the
exit code 2.
-/

namespace Clever

/-- An option: `-short`, `--long`, and whether it is followed by a value (`action="store_true"` otherwise). -/
structure Opt where
  short : Option Char
  long : Str
  takes : Bool
deriving DecidableEq

/-- A command: its options, whether its positional argument `path` has `nargs="+"`, its pairs of mutually exclusive options,
and its options with `type=int`. -/
structure Cmd where
  opts : List Opt
  many : Bool
  exclusive : List (Str × Str)
  ints : List Str

/-- The option `-e`/`--encoding`. -/
def optEncoding : Opt := ⟨some 'e', "encoding".toList, true⟩

/-- The option `-n`/`--num-chars`. -/
def optNumChars : Opt := ⟨some 'n', "num-chars".toList, true⟩

/-- The option `-t`/`--transpose`. -/
def optTranspose : Opt := ⟨some 't', "transpose".toList, false⟩

/-- The option `-p`/`--pandas`. -/
def optPandas : Opt := ⟨some 'p', "pandas".toList, false⟩

/-- The option `-c`/`--consistency`. -/
def optConsistency : Opt := ⟨some 'c', "consistency".toList, false⟩

/-- The option `-p`/`--plain`. -/
def optPlain : Opt := ⟨some 'p', "plain".toList, false⟩

/-- The option `-j`/`--json`. -/
def optJson : Opt := ⟨some 'j', "json".toList, false⟩

/-- The option `--no-skip`. -/
def optNoSkip : Opt := ⟨none, "no-skip".toList, false⟩

/-- The option `--add-runtime`. -/
def optAddRuntime : Opt := ⟨none, "add-runtime".toList, false⟩

/-- The option `-E`/`--target-encoding`. -/
def optTarget : Opt := ⟨some 'E', "target-encoding".toList, true⟩

/-- The option `-i`/`--in-place`. -/
def optInPlace : Opt := ⟨some 'i', "in-place".toList, false⟩

/-- The option `-o`/`--output`. -/
def optOutput : Opt := ⟨some 'o', "output".toList, true⟩

/-- `register` of the detect command, clevercsv/console/commands/detect.py:29-101. -/
def detectTable : Cmd where
  opts := [optConsistency, optEncoding, optNumChars, optPlain, optJson, optNoSkip, optAddRuntime]
  many := false
  exclusive := [("plain".toList, "json".toList)]
  ints := ["num-chars".toList]

/-- `register` of the view command, clevercsv/console/commands/view.py:33-53. -/
def viewTable : Cmd where
  opts := [optEncoding, optNumChars, optTranspose]
  many := false
  exclusive := []
  ints := ["num-chars".toList]

/-- `register` of the code command, clevercsv/console/commands/code.py:32-58, and of the explore command,
clevercsv/console/commands/explore.py:37-63. -/
def codeTable : Cmd where
  opts := [optEncoding, optNumChars, optPandas]
  many := false
  exclusive := []
  ints := ["num-chars".toList]

/-- `register` of the standardize command, clevercsv/console/commands/standardize.py:49-113. -/
def stdTable : Cmd where
  opts := [optEncoding, optTarget, optInPlace, optNumChars, optOutput, optTranspose]
  many := true
  exclusive := []
  ints := ["num-chars".toList]

/-- The option with this short name. -/
def Cmd.short (cmd : Cmd) (c : Char) : Option Opt := cmd.opts.find? fun o => o.short == some c

/-- `self._option_string_actions.get(t)` for an argument that begins with `-`. -/
def Cmd.exact (cmd : Cmd) : Str → Option Opt
  | ['-', c] => cmd.short c
  | '-' :: '-' :: l => cmd.opts.find? fun o => o.long == l
  | _ => none

/-- `t.split("=", 1)` if `t` contains `=`. -/
def splitEq : Str → Option (Str × Str)
  | [] => none
  | c :: cs => if c = '=' then some ([], cs) else (splitEq cs).map fun x => (c :: x.1, x.2)

/-- `_negative_number_matcher`: `^-\d+$|^-\d*\.\d+$`. -/
def negNumber (env : PyEnv) : Str → Bool
  | '-' :: t =>
    let t := if t.getLast? = some '\n' then t.dropLast else t
    let r := t.dropWhile env.decimal
    match r with
    | [] => t ≠ []
    | '.' :: ds => ds ≠ [] && ds.all env.decimal
    | _ => false
  | _ => false

/-- What an argument can be. -/
inductive WordKind where
  /-- an argument that is not an option (`A` in the patterns of `argparse`) -/
  | arg
  /-- an option, whether it begins with `--`, and its explicit argument (`None` if there is none) -/
  | opt (o : Opt) (long : Bool) (explicit : Option Str)
  /-- an unknown or ambiguous option -/
  | bad
deriving DecidableEq

/-- Whether an option string begins with two dashes. -/
def isLong : Str → Bool
  | '-' :: '-' :: _ => true
  | _ => false

/-- `_get_option_tuples`: the options that an argument may stand for, with their explicit arguments. -/
def Cmd.tuples (cmd : Cmd) : Str → List (Opt × Bool × Option Str)
  | '-' :: '-' :: t =>
    match splitEq t with
    | some (p, v) => (cmd.opts.filter fun o => p.isPrefixOf o.long).map fun o => (o, true, some v)
    | none => (cmd.opts.filter fun o => t.isPrefixOf o.long).map fun o => (o, true, none)
  | '-' :: c :: t => (cmd.opts.filter fun o => o.short == some c).map fun o => (o, false, some t)
  | _ => []

/-- `_parse_optional` after the exact names have been tried. -/
def Cmd.guess (cmd : Cmd) (env : PyEnv) (t : Str) : WordKind :=
  match cmd.tuples t with
  | [(o, l, e)] => .opt o l e
  | [] => if negNumber env t then .arg else if t.contains ' ' then .arg else .bad
  | _ => .bad

/-- `_parse_optional`. -/
def Cmd.classify (cmd : Cmd) (env : PyEnv) (t : Str) : WordKind :=
  if t.head? ≠ some '-' then .arg
  else match cmd.exact t with
    | some o => .opt o (isLong t) none
    | none =>
      if t.length = 1 then .arg
      else match splitEq t with
        | none => cmd.guess env t
        | some (p, v) => match cmd.exact p with
          | some o => .opt o (isLong p) (some v)
          | none => cmd.guess env t

/-- An option that has been given, with its value. -/
structure Occ where
  opt : Opt
  value : Option Str
deriving DecidableEq

/-- The loop of `consume_optional` for an option with an explicit argument: the options given by this argument, and the last
one if its value is still to come.  The value `--` is removed by `_get_values`, whence a `ValueError`. -/
def Cmd.cluster (cmd : Cmd) (o : Opt) (long : Bool) : Str → Option (List Occ × Option Opt)
  | [] => if o.takes then some ([⟨o, some []⟩], none) else none
  | c :: cs =>
    if o.takes then (if c :: cs = ['-', '-'] then none else some ([⟨o, some (c :: cs)⟩], none))
    else if long then none
    else match cmd.short c with
      | none => none
      | some o' =>
        if cs = [] then (if o'.takes then some ([⟨o, none⟩], some o') else some ([⟨o, none⟩, ⟨o', none⟩], none))
        else (cmd.cluster o' false cs).map fun x => (⟨o, none⟩ :: x.1, x.2)

/-- Where the positional argument stands: nothing has been taken; the last argument has been taken; an option came after it. -/
inductive Phase where
  | before
  | taking
  | after
deriving DecidableEq

/-- The state of the loop of `_parse_known_args`. -/
structure LineState where
  phase : Phase := .before
  /-- an option whose value is the next argument -/
  pending : Option Opt := none
  occs : List Occ := []
  paths : List Str := []

/-- `consume_positionals` for one argument (an argument that is left over is an error). -/
def Cmd.takePath (cmd : Cmd) (s : LineState) (t : Str) : Option LineState :=
  match s.phase with
  | .before => some { s with phase := .taking, paths := [t] }
  | .taking => if cmd.many then some { s with paths := s.paths ++ [t] } else none
  | .after => none

/-- An option ends a run of positional arguments. -/
def Phase.option : Phase → Phase
  | .before => .before
  | _ => .after

/-- The loop of `_parse_known_args` for one argument other than `--`. -/
def Cmd.step (cmd : Cmd) (env : PyEnv) (s : LineState) (t : Str) : Option LineState :=
  match s.pending, cmd.classify env t with
  | some o, .arg => some { s with pending := none, occs := s.occs ++ [⟨o, some t⟩] }
  | some _, _ => none
  | none, .arg => cmd.takePath s t
  | none, .bad => none
  | none, .opt o long e =>
    match e with
    | none => if o.takes then some { s with phase := s.phase.option, pending := some o }
      else some { s with phase := s.phase.option, occs := s.occs ++ [⟨o, none⟩] }
    | some v => (cmd.cluster o long v).map fun x =>
      { s with phase := s.phase.option, pending := x.2, occs := s.occs ++ x.1 }

/-- The loop of `_parse_known_args` over all arguments; after `--` there are no options. -/
def Cmd.loop (cmd : Cmd) (env : PyEnv) : LineState → List Str → Option LineState
  | s, [] => some s
  | s, t :: ts =>
    if t = ['-', '-'] then
      (if s.pending.isSome ∨ s.phase = .after then none else ts.foldlM cmd.takePath s)
    else (cmd.step env s t).bind fun s => cmd.loop env s ts

/-- Whether an option has been given. -/
def givenOpt (occs : List Occ) (name : Str) : Bool := occs.any fun x => x.opt.long == name

/-- The values of an option, in their order (`action="append"`). -/
def allValues (occs : List Occ) (name : Str) : List Str :=
  occs.filterMap fun x => if x.opt.long = name then x.value else none

/-- The value of an option: the last one counts. -/
def lastValue (occs : List Occ) (name : Str) : Option Str := (allValues occs name).getLast?

/-- `parse_args`: the given options and the positional arguments, or an error. -/
def Cmd.parse (cmd : Cmd) (env : PyEnv) (toInt : Str → Option Int) (ts : List Str) : Option (List Occ × List Str) :=
  match cmd.loop env {} ts with
  | none => none
  | some s =>
    if s.pending.isSome ∨ s.phase = .before then none
    else if cmd.exclusive.any (fun x => givenOpt s.occs x.1 && givenOpt s.occs x.2) then none
    else if cmd.ints.any (fun i => (allValues s.occs i).any fun v => (toInt v).isNone) then none
    else some (s.occs, s.paths)

/-- The value of `num_chars` (`parse_int`, clevercsv/console/commands/_utils.py:12-21, does not change an integer). -/
def numCharsOf (toInt : Str → Option Int) (occs : List Occ) : Option Int :=
  (lastValue occs "num-chars".toList).bind toInt

/-- `clevercsv detect ts…`.  `rt` is the runtime. -/
def detectMain (sys : Sys) (pr : Printer) (toInt : Str → Option Int) (rt : Elapsed) (ts : List Str) : Act Nat :=
  match detectTable.parse sys.env toInt ts with
  | some (occs, [p]) =>
    detectCmdT sys pr p (lastValue occs "encoding".toList) (numCharsOf toInt occs) (givenOpt occs "consistency".toList)
      (givenOpt occs "no-skip".toList)
      (if givenOpt occs "plain".toList then .plain else if givenOpt occs "json".toList then .json else .default)
      (if givenOpt occs "add-runtime".toList then some rt else none)
  | _ => return 2

/-- `clevercsv view ts…`. -/
def viewMain (sys : Sys) (toInt : Str → Option Int) (ts : List Str) : Act (Nat × Option (List (List (Option Str)))) :=
  match viewTable.parse sys.env toInt ts with
  | some (occs, [p]) =>
    viewCmd sys p (lastValue occs "encoding".toList) (numCharsOf toInt occs) (givenOpt occs "transpose".toList)
  | _ => return (2, none)

/-- `clevercsv code ts…`. -/
def codeMain (sys : Sys) (pr : Printer) (toInt : Str → Option Int) (ts : List Str) : Act Nat :=
  match codeTable.parse sys.env toInt ts with
  | some (occs, [p]) =>
    codeCmd sys pr p (lastValue occs "encoding".toList) (numCharsOf toInt occs) (givenOpt occs "pandas".toList)
  | _ => return 2

/-- `clevercsv explore ts…`. -/
def exploreMain (sys : Sys) (pr : Printer) (con : Console) (toInt : Str → Option Int) (ts : List Str) :
    Act (Nat × Option (con.State × Str)) :=
  match codeTable.parse sys.env toInt ts with
  | some (occs, [p]) =>
    exploreCmd sys pr con p (lastValue occs "encoding".toList) (numCharsOf toInt occs) (givenOpt occs "pandas".toList)
  | _ => return (2, none)

/-- `clevercsv standardize ts…`. -/
def standardizeMain (sys : Sys) (toInt : Str → Option Int) (ts : List Str) : Act Nat :=
  match stdTable.parse sys.env toInt ts with
  | some (occs, paths) => standardize sys
    { paths := paths, outputs := allValues occs "output".toList, encodings := allValues occs "encoding".toList,
      numChars := numCharsOf toInt occs, inPlace := givenOpt occs "in-place".toList,
      target := lastValue occs "target-encoding".toList, transpose := givenOpt occs "transpose".toList }
  | none => return 2

end Clever
