import Verif.Proofs.ReaderObj

/-!
# Properties C15, C16: the reader object over its lifetime
-/

namespace Clever.Props

open Clever

/-- A call on a reader; `limit` is the value of `field_size_limit()` at that time. -/
inductive ROp where
  | next (limit : Int)
  | iter (limit : Int)
deriving DecidableEq, Repr

/-- A history of calls: the reader afterwards and the results of the `next` calls. -/
def runOps (r : Reader) : List ROp → Reader × List (Except PyExc (List Str))
  | [] => (r, [])
  | .next l :: ops =>
    let p := r.next l
    let q := runOps p.1 ops
    (q.1, p.2 :: q.2)
  | .iter l :: ops =>
    match r.iter l with
    -- a failing `iter` leaves the reader as it is
    | .error _ => runOps r ops
    | .ok r' => runOps r' ops

/-! ## C15 line_num counts the rows returned -/

/-- **C15.**  After any history of `next` and `iter` calls on any reader, `line_num` has grown by the
number of rows returned; a new reader starts with 0. -/
theorem C15_line_num (r : Reader) (ops : List ROp) :
    (runOps r ops).1.lineNum = r.lineNum + (runOps r ops).2.countP isRow := by
  induction ops generalizing r with
  | nil => simp [runOps]
  | cons op ops ih =>
    cases op with
    | next l =>
      simp only [runOps, ih, next_lineNum, List.countP_cons]
      cases isRow (r.next l).2 <;> simp <;> omega
    | iter l =>
      simp only [runOps]
      cases hi : r.iter l with
      | error e => simp only; exact ih r
      | ok r' => simp only; rw [ih, iter_lineNum hi]

theorem C15_initial (src : Source) (arg : DialectArg) (f : FmtParams) (r : Reader)
    (h : mkReader src arg f = .ok r) (ops : List ROp) :
    (runOps r ops).1.lineNum = (runOps r ops).2.countP isRow := by
  rw [C15_line_num]
  simp only [mkReader, bind, Except.bind, pure, Except.pure] at h
  cases hd : makeSimpleDialect arg f with
  | error e => simp [hd] at h
  | ok d => simp [hd] at h; subst h; simp

/-- A case: two rows, an error, and the end of the input. -/
example : (runOps ⟨.stream [.str "a".toList, .str "b\x00".toList, .str "c".toList],
      dialectOf (some ',') none none, 0, none⟩ [.next 10, .next 10, .iter 10, .next 10, .next 10]) =
    (⟨.stream [], dialectOf (some ',') none none, 2,
      some ⟨⟨',', NUL, NUL, 10, false⟩, []⟩⟩,
      [.ok ["a".toList], .error (.parse .nullByte), .ok ["c".toList], .error .stopIteration]) := by
  decide

/-! ## C16 Re-iterating a reader over a stream loses nothing -/

/-- The results of `k` consecutive `next` calls on a plain parser over the items, without any
`iter` in between. -/
def nexts (cfg : Cfg) : Nat → List Item → List (Except PyExc (List Str))
  | 0, _ => []
  | k + 1, items =>
    (match nextRow cfg mkPlain items with
      | (.row r, _) => .ok r
      | (.stop, _) => .error .stopIteration
      | (.error e, _) => .error (.parse e)) :: nexts cfg k (nextRow cfg mkPlain items).2

def isNext : ROp → Bool
  | .next _ => true
  | .iter _ => false

def ROp.limit : ROp → Int
  | .next l => l
  | .iter l => l

/-- **C16.**  Over a stream: whatever `iter` calls are interspersed, the `k` calls of `next` give
exactly the results of `k` calls on one parser that reads the stream from start to end. -/
theorem C16_iter_is_harmless (limit : Int) (cfg : Cfg) (d : SimpleDialect)
    (hcfg : d.cfg limit = .ok cfg) (items : List Item) (k : Nat) (ops : List ROp)
    (hl : ∀ op ∈ ops, op.limit = limit) :
    (runOps ⟨.stream items, d, k, none⟩ ops).2 = nexts cfg (ops.countP isNext) items := by
  have gen : ∀ (ops : List ROp), (∀ op ∈ ops, op.limit = limit) → ∀ (items : List Item) (k : Nat)
      (g : Option ParserGen), (∀ g', g = some g' → g'.cfg = cfg) →
      (runOps ⟨.stream items, d, k, g⟩ ops).2 = nexts cfg (ops.countP isNext) items := by
    intro ops
    induction ops with
    | nil => intros; rfl
    | cons op ops ih =>
      intro hl items k g hg
      have hl' := fun o ho => hl o (List.mem_cons_of_mem _ ho)
      have hop := hl op (by simp)
      cases op with
      | iter l =>
        simp only [ROp.limit] at hop
        subst hop
        simp only [runOps, Reader.iter, hcfg, bind, Except.bind, pure, Except.pure,
          List.countP_cons, isNext, Bool.false_eq_true, if_false, Nat.add_zero]
        exact ih hl' items k _ (by simp)
      | next l =>
        simp only [ROp.limit] at hop
        subst hop
        have hn : ∀ g', g'.cfg = cfg → ∀ gg,
            (⟨.stream items, d, k, gg⟩ : Reader).nextGen g' =
              (⟨.stream (nextRow cfg mkPlain items).2, d,
                  (match (nextRow cfg mkPlain items).1 with
                    | .row _ => k + 1
                    | _ => k), gg⟩,
                match (nextRow cfg mkPlain items).1 with
                | .row r => .ok r
                | .stop => .error .stopIteration
                | .error e => .error (.parse e)) := by
          intro g' hg' gg
          simp only [Reader.nextGen, hg']
          cases (nextRow cfg mkPlain items).1 <;> rfl
        have hc : (List.countP isNext (ROp.next l :: ops)) = List.countP isNext ops + 1 := by
          simp [List.countP_cons, isNext]
        rw [hc]
        cases g with
        | some g' =>
          have hg' := hg g' rfl
          simp only [runOps, Reader.next, hn g' hg', nexts]
          rw [ih hl' _ _ _ hg]
          rcases hn : nextRow cfg mkPlain items with ⟨out, rest⟩
          cases out <;> rfl
        | none =>
          simp only [runOps, Reader.next, Reader.iter, hcfg, bind, Except.bind, pure, Except.pure,
            nexts]
          rw [hn ⟨cfg, []⟩ rfl]
          simp only
          rw [ih hl' _ _ _ (by simp)]
          rcases hn : nextRow cfg mkPlain items with ⟨out, rest⟩
          cases out <;> rfl
  exact gen ops hl items k none (by simp)

/-- If reading the stream gives the rows `rows` and no error, then `k` calls of `next` give the first
`k` of them in order, and `StopIteration` when they are used up: nothing is lost or repeated. -/
theorem C16_rows_in_order (limit : Int) (cfg : Cfg) (d : SimpleDialect)
    (hcfg : d.cfg limit = .ok cfg) (items : List Item) (ops : List ROp)
    (hl : ∀ op ∈ ops, op.limit = limit) (rows : List (List Str))
    (hrows : parseRows cfg mkPlain items = (rows, none)) :
    (runOps ⟨.stream items, d, 0, none⟩ ops).2 =
      (rows.take (ops.countP isNext)).map .ok ++
        List.replicate (ops.countP isNext - rows.length) (.error .stopIteration) := by
  rw [C16_iter_is_harmless limit cfg d hcfg items 0 ops hl]
  generalize ops.countP isNext = k
  clear hl ops
  induction k generalizing items rows with
  | zero => simp [nexts]
  | succ k ih =>
    rw [parseRows_eq] at hrows
    simp only [nexts]
    rcases hn : nextRow cfg mkPlain items with ⟨out, rest⟩
    rw [hn] at hrows
    cases out with
    | row r =>
      simp only [Prod.mk.injEq] at hrows
      obtain ⟨rfl, h2⟩ := hrows
      rw [ih rest (parseRows cfg mkPlain rest).1 (Prod.ext rfl h2)]
      simp
    | stop =>
      simp only [Prod.mk.injEq] at hrows
      obtain ⟨rfl, _⟩ := hrows
      have hrest : rest = [] := stop_rest cfg items PObj.init (by rw [← nextRow, hn])
      rw [ih rest [] (by rw [hrest, parseRows_nil])]
      simp [List.replicate_succ]
    | error e => simp at hrows

/-- A case: `next`, then a `for` loop (which calls `iter`), over a stream with a quoted newline. -/
example : (runOps ⟨.stream (strItems ["a,b\n".toList, "\"c\n".toList, "d\"\n".toList, "e".toList]),
      dialectOf (some ',') (some '"') none, 0, none⟩
      [.next 10, .iter 10, .next 10, .next 10, .iter 10, .next 10]).2 =
    [.ok ["a".toList, "b".toList], .ok ["c\nd".toList], .ok ["e".toList], .error .stopIteration] := by
  rw [C16_rows_in_order 10 (cfgOf (some ',') (some '"') none 10 false) _ (by decide) _ _ (by decide)
    [["a".toList, "b".toList], ["c\nd".toList], ["e".toList]] (by decide)]
  decide

/-- Over a sequence such as a list, in contrast, `iter` starts again from the beginning. -/
theorem C16_sequence_restarts (limit : Int) (cfg : Cfg) (d : SimpleDialect)
    (hcfg : d.cfg limit = .ok cfg) (items : List Item) (k : Nat) (g : Option ParserGen) :
    ∃ r, (⟨.seq items, d, k, g⟩ : Reader).iter limit = .ok r ∧
      ∀ l, (r.next l).2 = (match (nextRow cfg mkPlain items).1 with
        | .row r => .ok r
        | .stop => .error .stopIteration
        | .error e => .error (.parse e)) := by
  refine ⟨⟨.seq items, d, k, some ⟨cfg, items⟩⟩, ?_, ?_⟩
  · simp only [Reader.iter, hcfg, bind, Except.bind, pure, Except.pure]
  · intro l
    simp only [Reader.next, Reader.nextGen]
    cases (nextRow cfg mkPlain items).1 <;> rfl

end Clever.Props
