import Verif.Model.Abstraction
import Verif.Model.ParserBuffer

/-!
# `src/abstraction.c` with its explicit buffers

Every access outside an allocated block is the error `BErr.oob`.  Memory that `malloc` or `realloc`
hands out is not initialised: its content is given by arbitrary functions.  Allocation failures are
the subject of `Verif/Model/Ownership.lean`; lengths are unbounded numbers, and C112 bounds them.
-/

namespace Clever

/-- Local variables of the loop of `base_abstraction`: `stack` (its length is `stack_size`), `len`,
`escape_next`. -/
structure AbsBuf where
  stack : List Char
  len : Nat
  escapeNext : Bool

/-- `stack[len++] = x`. -/
def AbsBuf.push (b : AbsBuf) (x : Char) : Except BErr AbsBuf :=
  match memWrite b.stack b.len x with
  | .error e => .error e
  | .ok s => .ok { b with stack := s, len := b.len + 1 }

/-- `if (len == 0 || stack[len-1] != x) stack[len++] = x`, src/abstraction.c:92-93, 118-119. -/
def AbsBuf.pushNew (b : AbsBuf) (x : Char) : Except BErr AbsBuf :=
  if b.len = 0 then b.push x
  else
    match memRead b.stack (b.len - 1) with
    | .error e => .error e
    | .ok y => if y ≠ x then b.push x else .ok b

/-- `escape_next = v`. -/
def AbsBuf.esc (v : Bool) (b : AbsBuf) : AbsBuf := { b with escapeNext := v }

/-- The branches of the loop, src/abstraction.c:90-120. -/
def absStepB (d q e : Char) (b : AbsBuf) (s : Char) : Except BErr AbsBuf :=
  if s = '\r' ∨ s = '\n' then b.pushNew 'R'
  else if s = d then
    if b.escapeNext then (b.push 'C').map (AbsBuf.esc false) else b.push 'D'
  else if s = q then
    if b.escapeNext then (b.push 'C').map (AbsBuf.esc false) else b.push 'Q'
  else if s = e then
    -- src/abstraction.c:107-111: `if (len > 0 && stack[len-1] != 'C') ... else if (len == 0) ...`
    if b.escapeNext then (b.pushNew 'C').map (AbsBuf.esc false) else .ok (AbsBuf.esc true b)
  else (AbsBuf.esc false b).pushNew 'C'

/-- The growing of the stack, src/abstraction.c:121-131. -/
def growStack (junk : Nat → Char) (b : AbsBuf) : AbsBuf :=
  if b.len = b.stack.length then { b with stack := memGrow junk b.stack (2 * b.stack.length) } else b

/-- The loop of `base_abstraction`, src/abstraction.c:89-132. -/
def absLoopB (junk : Nat → Char) (d q e : Char) : AbsBuf → Str → Except BErr AbsBuf
  | b, [] => .ok b
  | b, s :: rest =>
    match absStepB d q e b s with
    | .error x => .error x
    | .ok b' => absLoopB junk d q e (growStack junk b') rest

/-- `base_abstraction`, src/abstraction.c:48-137 (`stack_size = 4096`, zeroed). -/
def baseAbstractionB (junk : Nat → Char) (d q e : Char) (data : Str) : Except BErr Str :=
  match absLoopB junk d q e ⟨List.replicate 4096 NUL, 0, false⟩ data with
  | .error x => .error x
  | .ok b => memPrefix b.stack b.len

/-- Local variables of `c_merge_with_quotechar`: `quote_idx_l`, `quote_idx_r` (their length is
`quote_idx_size`), `quote_idx`, `in_quotes`, `new_S`. -/
structure MergeBuf where
  l : List Nat
  r : List Nat
  idx : Nat
  inQuotes : Bool
  out : List Char

/-- The end of a quoted block, src/abstraction.c:226-248. -/
def closeBlock (junk : Nat → Nat) (b : MergeBuf) (i : Nat) : Except BErr MergeBuf :=
  match memWrite b.r b.idx i with
  | .error e => .error e
  | .ok r =>
    let b := { b with r := r, idx := b.idx + 1, inQuotes := false }
    if b.idx = b.r.length then
      .ok { b with l := memGrow junk b.l (2 * b.r.length), r := memGrow junk b.r (2 * b.r.length) }
    else .ok b

/-- The loop of `c_merge_with_quotechar`, src/abstraction.c:202-252; the first argument bounds the
number of iterations (`i` grows in each one). -/
def mergeLoopB (junk : Nat → Nat) (s : Str) : Nat → Nat → MergeBuf → Except BErr MergeBuf
  | 0, _, b => .ok b
  | n + 1, i, b =>
    if i < s.length then
      match memRead s i with
      | .error e => .error e
      | .ok c =>
        match memWrite b.out i c with
        | .error e => .error e
        | .ok out =>
          let b := { b with out := out }
          if c ≠ 'Q' then mergeLoopB junk s n (i + 1) b
          else if b.inQuotes = false then
            match memWrite b.l b.idx i with
            | .error e => .error e
            | .ok l => mergeLoopB junk s n (i + 1) { b with l := l, inQuotes := true }
          else
            match (if i + 1 < s.length then memRead s (i + 1) else .ok NUL) with
            | .error e => .error e
            | .ok t =>
              if i + 1 < s.length ∧ t = 'Q' then mergeLoopB junk s n (i + 2) b
              else
                match closeBlock junk b i with
                | .error e => .error e
                | .ok b => mergeLoopB junk s n (i + 1) b
    else .ok b

/-- `for (i=lo; i<=hi; i++) new_S[i] = 'C'`; the first argument is the number of iterations. -/
def overwriteB : Nat → Nat → List Char → Except BErr (List Char)
  | 0, _, out => .ok out
  | n + 1, i, out =>
    match memWrite out i 'C' with
    | .error e => .error e
    | .ok out => overwriteB n (i + 1) out

/-- The overwriting of the quoted blocks `j, j+1, ...` (`n` of them), src/abstraction.c:254-259. -/
def overwriteAllB (l r : List Nat) : Nat → Nat → List Char → Except BErr (List Char)
  | 0, _, out => .ok out
  | n + 1, j, out =>
    match memRead l j with
    | .error e => .error e
    | .ok lo =>
      match memRead r j with
      | .error e => .error e
      | .ok hi =>
        match overwriteB (hi + 1 - lo) lo out with
        | .error e => .error e
        | .ok out => overwriteAllB l r n (j + 1) out

/-- `c_merge_with_quotechar`, src/abstraction.c:139-269 (`quote_idx_size = 4`; `new_S` is zeroed). -/
def mergeWithQuotecharB (junk : Nat → Nat) (s : Str) : Except BErr Str :=
  if s.length = 0 then .ok s
  else
    match mergeLoopB junk s s.length 0
        ⟨(List.range 4).map junk, (List.range 4).map junk, 0, false, List.replicate s.length NUL⟩ with
    | .error e => .error e
    | .ok b =>
      match overwriteAllB b.l b.r b.idx 0 b.out with
      | .error e => .error e
      | .ok out => memPrefix out s.length

end Clever
