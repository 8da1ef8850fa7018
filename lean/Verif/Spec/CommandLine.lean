import Verif.Model.CommandLine

/-!
# How options can be written on a command line

A command line is described by the options that a person writes, each in one of its spellings; which options have been given
with which values is then read off directly.
-/

namespace Clever

/-- The names of the options of a command are fit for use: no two options share a name, and no name can be taken for something
else. -/
structure Cmd.Ok (cmd : Cmd) : Prop where
  nodup : cmd.opts.Nodup
  shorts : ∀ o ∈ cmd.opts, ∀ o' ∈ cmd.opts, o.short = o'.short → o.short ≠ none → o = o'
  longs : ∀ o ∈ cmd.opts, ∀ o' ∈ cmd.opts, o.long = o'.long → o = o'
  letters : ∀ o ∈ cmd.opts, ∀ c ∈ o.short, c ≠ '-' ∧ c ≠ '=' ∧ isDig c = false
  names : ∀ o ∈ cmd.opts, o.long ≠ [] ∧ '=' ∉ o.long

/-- A piece of a command line that gives options.  The value, if there is one, is attached (`true`) or the next argument
(`false`). -/
inductive Piece where
  /-- `-abc`, `-abcVALUE` or `-abc VALUE`: flags `a`, `b` and an option `c` -/
  | letters (flags : List Opt) (last : Opt) (value : Option (Bool × Str))
  /-- `--name`, `--name=VALUE` or `--name VALUE`, where the name may be abbreviated -/
  | name (o : Opt) (abbr : Str) (value : Option (Bool × Str))

/-- The arguments on the command line. -/
def Piece.tokens : Piece → List Str
  | .letters fs l v =>
    let head := '-' :: ((fs ++ [l]).filterMap Opt.short)
    match v with
    | none => [head]
    | some (true, x) => [head ++ x]
    | some (false, x) => [head, x]
  | .name _ a v =>
    let head := '-' :: '-' :: a
    match v with
    | none => [head]
    | some (true, x) => [head ++ '=' :: x]
    | some (false, x) => [head, x]

/-- The options that are given, with their values. -/
def Piece.occs : Piece → List Occ
  | .letters fs l v => fs.map (⟨·, none⟩) ++ [⟨l, v.map Prod.snd⟩]
  | .name o _ v => [⟨o, v.map Prod.snd⟩]

/-- A word that is not taken for an option: it does not begin with a dash, is a single dash or a negative number. -/
def PlainWord (t : Str) : Prop :=
  t.head? ≠ some '-' ∨ t = ['-'] ∨ ∃ ds, ds ≠ [] ∧ (∀ d ∈ ds, isDig d = true) ∧ t = '-' :: ds

/-- A piece is well written for a command. -/
def Piece.Good (cmd : Cmd) : Piece → Prop
  | .letters fs l v =>
    (∀ f ∈ fs, f ∈ cmd.opts ∧ f.short ≠ none ∧ f.takes = false) ∧ l ∈ cmd.opts ∧ l.short ≠ none ∧ l.takes = v.isSome ∧
    match v with
    | none => True
    | some (true, x) => x ≠ [] ∧ x.head? ≠ some '=' ∧ x ≠ ['-', '-']
    | some (false, x) => PlainWord x
  | .name o a v =>
    o ∈ cmd.opts ∧ a ≠ [] ∧ a <+: o.long ∧ (a = o.long ∨ ∀ o' ∈ cmd.opts, a <+: o'.long → o' = o) ∧ o.takes = v.isSome ∧
    match v with
    | none => True
    | some (true, x) => x ≠ ['-', '-']
    | some (false, x) => PlainWord x

/-- The arguments of several pieces. -/
def lineOf (ps : List Piece) : List Str := ps.flatMap Piece.tokens

/-- The options given by several pieces. -/
def givenBy (ps : List Piece) : List Occ := ps.flatMap Piece.occs

/-- The flag `o` is among the given options. -/
def Flagged (occs : List Occ) (o : Opt) : Prop := ∃ x ∈ occs, x.opt = o

/-- The last value given for the option `o` is `v` (`none`: it has not been given). -/
def LastIs (occs : List Occ) (o : Opt) : Option Str → Prop
  | none => ∀ x ∈ occs, x.opt ≠ o
  | some v => ∃ a b, occs = a ++ ⟨o, some v⟩ :: b ∧ ∀ x ∈ b, x.opt ≠ o

/-- The values given for the option `o` are `vs`, in this order. -/
def AllAre (occs : List Occ) (o : Opt) (vs : List Str) : Prop :=
  occs.filter (fun x => decide (x.opt = o)) = vs.map fun v => ⟨o, some v⟩

/-- The last number given for `o` is `n`, and all the texts given for it are numbers. -/
def NumberIs (toInt : Str → Option Int) (occs : List Occ) (o : Opt) (n : Option Int) : Prop :=
  (∀ x ∈ occs, x.opt = o → ∃ v i, x.value = some v ∧ toInt v = some i) ∧
  ∃ v, LastIs occs o v ∧ v.bind toInt = n

/-- The command line `ts` gives the options `occs` and the paths `ws`: the paths stand together, with options before and
after them, or everything after `--` is a path. -/
inductive Line (cmd : Cmd) : List Str → List Occ → List Str → Prop
  | mixed (before after : List Piece) (ws : List Str) (hb : ∀ p ∈ before, p.Good cmd) (ha : ∀ p ∈ after, p.Good cmd)
      (h0 : ws ≠ []) (h1 : cmd.many = false → ws.length = 1) (hw : ∀ w ∈ ws, PlainWord w) :
      Line cmd (lineOf before ++ ws ++ lineOf after) (givenBy (before ++ after)) ws
  | dashes (before : List Piece) (ws : List Str) (hb : ∀ p ∈ before, p.Good cmd) (h0 : ws ≠ [])
      (h1 : cmd.many = false → ws.length = 1) :
      Line cmd (lineOf before ++ "--".toList :: ws) (givenBy before) ws

/-- A word that looks like an option, but is none of the command, or an abbreviation of two of them. -/
inductive UnknownWord (cmd : Cmd) : Str → Prop
  | letter (c : Char) (r : Str) (hc : isLow c || isUpp c) (hr : ' ' ∉ r) (hs : ∀ o ∈ cmd.opts, o.short ≠ some c) :
      UnknownWord cmd ('-' :: c :: r)
  | name (a r : Str) (ha : a ≠ []) (he : '=' ∉ a) (hr : r = [] ∨ r.head? = some '=') (hsp : ' ' ∉ a ++ r)
      (hs : ∀ o ∈ cmd.opts, ¬ a <+: o.long) : UnknownWord cmd ('-' :: '-' :: (a ++ r))
  | ambiguous (a r : Str) (ha : a ≠ []) (he : '=' ∉ a) (hr : r = [] ∨ r.head? = some '=') (o1 o2 : Opt) (h1 : o1 ∈ cmd.opts)
      (h2 : o2 ∈ cmd.opts) (h12 : o1 ≠ o2) (hp1 : a <+: o1.long) (hp2 : a <+: o2.long)
      (hs : ∀ o ∈ cmd.opts, o.long ≠ a ∧ o.long ≠ a ++ r) : UnknownWord cmd ('-' :: '-' :: (a ++ r))

end Clever
