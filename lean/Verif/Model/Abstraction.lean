import Verif.Model.Dialect

/-!
# Abstractions (`src/abstraction.c`, `clevercsv/detect_pattern.py`)

The letters of an abstraction are the characters `C`, `D`, `R`, `Q` (and NUL, see
`mergeWithQuotechar`).  The buffers of the C code are lists here; `Verif/Model/AbstractionBuffer.lean`
models them explicitly.
-/

namespace Clever

/-- State of the loop of `base_abstraction`: the stack (top first) and the flag `escape_next`. -/
abbrev AbsState := List Char × Bool

/-- `if (len == 0 || stack[len-1] != x) stack[len++] = x`. -/
def pushNew (x : Char) (stack : List Char) : List Char :=
  if stack.head? = some x then stack else x :: stack

/-- Body of the loop of `base_abstraction`, src/abstraction.c:90-120.  `d`, `q`, `e` are the
delimiter, quotechar and escapechar, NUL if absent. -/
def absStep (d q e : Char) (st : AbsState) (s : Char) : AbsState :=
  if s = '\r' ∨ s = '\n' then (pushNew 'R' st.1, st.2)
  else if s = d then
    if st.2 then ('C' :: st.1, false) else ('D' :: st.1, st.2)
  else if s = q then
    if st.2 then ('C' :: st.1, false) else ('Q' :: st.1, st.2)
  else if s = e then
    if st.2 then (pushNew 'C' st.1, false) else (st.1, true)
  else (pushNew 'C' st.1, false)

/-- `base_abstraction`, src/abstraction.c:48-137, after the arguments have been decoded. -/
def baseAbstraction (d q e : Char) (data : Str) : Str :=
  (data.foldl (absStep d q e) ([], false)).1.reverse

/-- `base_abstraction(S, delimiter, quotechar, escapechar)` with the decoding of the arguments,
src/abstraction.c:63-74. -/
def baseAbstractionPy (data : Str) (delimiter quotechar escapechar : Option Str) :
    Except PyExc Str := do
  let d ← setChar "delimiter" delimiter
  let q ← setChar "quotechar" quotechar
  let e ← setChar "escapechar" escapechar
  return baseAbstraction d q e data

/-- The loop of `c_merge_with_quotechar`, src/abstraction.c:202-252.  The second argument is the
part of the output since the opening quote, reversed, if `in_quotes`.  A closed quoted block is
overwritten with `C`s (src/abstraction.c:254-259).  The second of two adjacent quotes in a quoted
block is skipped over without being copied, so that the output has the initial NUL there. -/
def mergeLoop : Str → Option Str → Str
  | [], none => []
  | [], some blk => blk.reverse
  | s :: rest, none =>
    if s ≠ 'Q' then s :: mergeLoop rest none else mergeLoop rest (some [s])
  | s :: rest, some blk =>
    if s ≠ 'Q' then mergeLoop rest (some (s :: blk))
    else
      match rest with
      | [] => List.replicate (blk.length + 1) 'C'
      | t :: rest' =>
        if t = 'Q' then mergeLoop rest' (some (NUL :: s :: blk))
        else List.replicate (blk.length + 1) 'C' ++ mergeLoop (t :: rest') none

/-- `c_merge_with_quotechar`, src/abstraction.c:139-269. -/
def mergeWithQuotechar (s : Str) : Str := mergeLoop s none

/-- `[a, b]` occurs in the string (`"ab" in s`). -/
def has2 (a b : Char) : Str → Bool
  | [] => false
  | x :: rest => (x = a && rest.head? = some b) || has2 a b rest

/-- `s.replace("ab", rep)` for a pattern of two characters: non-overlapping occurrences from left
to right.  (`skip`: the current character is the second one of an occurrence.) -/
def replace2Aux (a b : Char) (rep : Str) : Bool → Str → Str
  | _, [] => []
  | true, _ :: rest => replace2Aux a b rep false rest
  | false, x :: rest =>
    if x = a ∧ rest.head? = some b then rep ++ replace2Aux a b rep true rest
    else x :: replace2Aux a b rep false rest

def replace2 (a b : Char) (rep : Str) (s : Str) : Str := replace2Aux a b rep false s

/-- `while "ab" in s: s = s.replace("ab", rep)`.  The fuel bounds the number of passes;
`Verif/Proofs/Abstraction.lean` shows that the fuel given below is always enough
(`has2_whileReplace`). -/
def whileReplace (a b : Char) (rep : Str) : Nat → Str → Str
  | 0, s => s
  | n + 1, s => if has2 a b s then whileReplace a b rep n (replace2 a b rep s) else s

/-- `RE_MULTI_C.sub("C", s)`, clevercsv/detect_pattern.py:22, 141: every maximal run of `C`s becomes
a single one.  (`prev`: the previous character is a `C`.) -/
def subMultiC : Bool → Str → Str
  | _, [] => []
  | prev, x :: rest =>
    if x = 'C' then (if prev then subMultiC true rest else x :: subMultiC true rest)
    else x :: subMultiC false rest

/-- `fill_empties`, clevercsv/detect_pattern.py:112-149. -/
def fillEmpties (s : Str) : Str :=
  let s := whileReplace 'D' 'D' ['D', 'C', 'D'] (s.length + 1) s
  let s := whileReplace 'D' 'R' ['D', 'C', 'R'] (s.length + 1) s
  let s := whileReplace 'R' 'D' ['R', 'C', 'D'] (s.length + 1) s
  let s := subMultiC false s
  let s := if s.head? = some 'D' then 'C' :: s else s
  if s.getLast? = some 'D' then s ++ ['C'] else s

/-- `strip_trailing`, clevercsv/detect_pattern.py:152-156. -/
def stripTrailing (s : Str) : Str := (s.reverse.dropWhile (· = 'R')).reverse

/-- `make_abstraction`, clevercsv/detect_pattern.py:56-82, for decoded dialect characters. -/
def abstraction (d q e : Char) (data : Str) : Str :=
  stripTrailing (fillEmpties (mergeWithQuotechar (baseAbstraction d q e data)))

/-- `make_abstraction(data, dialect)`. -/
def makeAbstraction (data : Str) (dialect : SimpleDialect) : Except PyExc Str := do
  let a ← baseAbstractionPy data dialect.delimiter dialect.quotechar dialect.escapechar
  return stripTrailing (fillEmpties (mergeWithQuotechar a))

/-- `s.split(x)` for a one-character separator. -/
def splitChar (x : Char) : Str → List Str
  | [] => [[]]
  | c :: rest =>
    if c = x then [] :: splitChar x rest
    else
      match splitChar x rest with
      | [] => [[c]]
      | p :: ps => (c :: p) :: ps

end Clever
