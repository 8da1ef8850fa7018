import Verif.Proofs.OwnershipNew

/-!
# The books of the C code (C94 to C97)

Who owns which reference and which block of memory, in `src/cparser.c` and `src/abstraction.c`, for
every pattern of failing calls.
-/

namespace Clever.Props

open Clever Clever.Spec

variable {α : Type}

/-- **C94**, one call of `Parser_iternext`, whatever calls fail, with the exception of
`PyUnicode_New`: nothing that is not owned is used or released, and afterwards the parser object owns
its three members and nothing else has been taken or lost.  What is returned is what the model on
lists returns; an exception is the one of that model, or a call has failed.

Missing for the full property: a failing `PyUnicode_New`, see `C94_violated`. -/
theorem C94_next_partial (fails : Fails) (o : POpts) (mk : Str → Bool → α) (items : List Item)
    (base : Obj → Nat) (s : CState (PData α)) (hu : ∀ n, fails .unicodeNew n = false)
    (hscript : s.data.script = plainScript items) (hbal : Balanced base s) (hroom : RoomOk s.data) :
    match iternextM fails o mk s with
    | .crash => False
    | .ok r s' => Balanced base s' ∧ RoomOk s'.data ∧ s'.data.inputIter = s.data.inputIter ∧
        ∃ rest, s'.data.script = plainScript rest ∧ nextRow o.cfg mk items =
          ((match r with | .row cells => .row cells | .stop => .stop), rest)
    | .exc e s' => Balanced base s' ∧ RoomOk s'.data ∧ s'.data.inputIter = s.data.inputIter ∧
        ∃ rest, s'.data.script = plainScript rest ∧
          ((e = .cleared ∧ s.data.inputIter = none) ∨
            (e = .callFailed ∧ ∃ c n, fails c n = true) ∨
            ∃ pe, e = .perr pe ∧ nextRow o.cfg mk items = (.error pe, rest)) := by
  have h := sat_iternextM (fails := fails) hu o mk items hscript hbal hroom
  unfold Sat at h
  cases hx : iternextM fails o mk s with
  | crash => rw [hx] at h; exact h
  | ok r s' =>
    rw [hx] at h
    obtain ⟨h1, rest, h2, h3⟩ := h
    refine ⟨h1.bal, h1.room, h1.iter, rest, h2, ?_⟩
    rw [h3]
    cases r <;> rfl
  | exc e s' =>
    rw [hx] at h
    exact ⟨h.1.bal, h.1.room, h.1.iter, h.2⟩

/-- **C94**, without failing calls: the parser returns what the model on lists returns. -/
theorem C94_next_no_failure (fails : Fails) (o : POpts) (mk : Str → Bool → α) (items : List Item)
    (base : Obj → Nat) (s : CState (PData α)) (hn : NoFailure fails)
    (hscript : s.data.script = plainScript items) (hbal : Balanced base s) (hroom : RoomOk s.data)
    (hiter : s.data.inputIter ≠ none) :
    match (nextRow o.cfg mk items).1 with
    | .row cells => ∃ s', iternextM fails o mk s = .ok (.row cells) s' ∧ Balanced base s'
    | .stop => ∃ s', iternextM fails o mk s = .ok .stop s' ∧ Balanced base s'
    | .error e => ∃ s', iternextM fails o mk s = .exc (.perr e) s' ∧ Balanced base s' := by
  have h := C94_next_partial fails o mk items base s (hn _) hscript hbal hroom
  cases hx : iternextM fails o mk s with
  | crash => rw [hx] at h; exact h.elim
  | ok r s' =>
    rw [hx] at h
    obtain ⟨h1, _, _, rest, _, h3⟩ := h
    rw [h3]
    cases r <;> exact ⟨s', rfl, h1⟩
  | exc e s' =>
    rw [hx] at h
    obtain ⟨h1, _, _, rest, _, h3 | ⟨_, c, n, h3⟩ | ⟨pe, rfl, h3⟩⟩ := h
    · exact absurd h3.2 hiter
    · rw [hn c n] at h3
      exact absurd h3 (by simp)
    · rw [h3]
      exact ⟨s', rfl, h1⟩

/-- **C94**, the life of a parser: it is made from any arguments, `next` is called on it and the
garbage collector clears it any number of times and in any order, it is dropped.  Whatever calls fail
(`PyUnicode_New` excepted), in the end the C code owns what it owned before; only a constructor that is
given something that is not iterable keeps references, see C95. -/
theorem C94_life_partial (fails : Fails) (o : POpts) (mk : Str → Bool → α) (parsed : Bool)
    (kws : List KwArg) (iter : Option Obj) (us : List Use) (items : List Item) (own : Obj → Nat)
    (s : CState (PData α)) (hu : ∀ n, fails .unicodeNew n = false)
    (hscript : s.data.script = plainScript items) (hown : Owns own s.led)
    (hk : ∀ k ∈ kws, Passed k.obj) (hi : Passed iter) :
    match lifeM fails o mk parsed kws iter us s with
    | .crash => False
    | .ok _ s' => Owns own s'.led
    | .exc _ s' => Owns own s'.led ∨ iter = none := by
  have h : Sat (lifeM fails o mk parsed kws iter us) s (fun _ s' => Owns own s'.led)
      (fun _ s' => Owns own s'.led ∨ iter = none) := by
    refine sat_bind ((sat_parserNewM (fails := fails) parsed kws iter hown hk hi).mono
      (fun _ _ h => h) ?_) ?_
    · rintro e s' (h | h)
      · exact .inl h
      · exact .inr h.1
    rintro _ s' ⟨p, rfl, _, hb, hr, _, hsc, _⟩
    refine sat_bind (Q := fun _ s'' => Balanced (plus own (some p)) s'')
      ((sat_usesM hu o mk us items s' (hsc.trans hscript) hb hr).mono (fun _ _ h => h.1)
        fun _ _ h => h) ?_
    intro _ s'' hb'
    refine sat_bind (Q := fun _ s3 => Books (plus own (some p)) s3.led)
      (sat_parserDeallocM hb' fun l hl => hl) ?_
    intro _ s3 h3
    exact books_decref h3 fun l hl => owns_iff.mpr hl
  unfold Sat at h
  cases hx : lifeM fails o mk parsed kws iter us s with
  | crash => rw [hx] at h; exact h
  | ok p s' => rw [hx] at h; exact h
  | exc e s' => rw [hx] at h; exact h

/-- A state with a new parser whose input iterator is object 0. -/
def newParser (script : List Event) : CState (PData (Str × Bool)) :=
  ⟨⟨1, 0, fun x => if x = .arg 0 then 1 else 0⟩,
    ⟨some (.arg 0), none, none, 0, [], [], .startRecord, script⟩⟩

/-- How the run ended. -/
def ending {σ β : Type} : CRes σ β → Except (Option CExc) β
  | .ok a _ => .ok a
  | .exc e _ => .error (some e)
  | .crash => .error none

/-- The options of the examples. -/
def exOpts : POpts := ⟨⟨',', '"', NUL, 100, false⟩, true⟩

/-- The hypotheses of C94 are met. -/
example (script : List Event) : Balanced (fun _ => 0) (newParser script) ∧
    RoomOk (newParser script).data := by
  refine ⟨⟨fun x => ?_, fun n _ => ?_⟩, ?_⟩
  · simp only [newParser, refs]
    by_cases hx : x = .arg 0
    · simp [hx]
    · simp [hx, Ne.symm hx]
  · simp [newParser]
  · simp [newParser, RoomOk]

/-- Without failures: the row; if `PyList_Append` fails for the second cell: the exception. -/
example :
    ending (iternextM (fun _ _ => false) exOpts mkQuoted
      (newParser [.item (.str "a,\"b\"\n".toList)])) =
      .ok (.row [("a".toList, false), ("b".toList, true)]) ∧
    ending (iternextM (fun c n => c == .listAppend && n == 12) exOpts mkQuoted
      (newParser [.item (.str "a,\"b\"\n".toList)])) = .error (some .callFailed) := by
  decide +kernel

/-- **C94** is false of the code: if `PyUnicode_New` fails in `_strstrip`, the `NULL` that it returns
is used. -/
theorem C94_violated : ∃ fails : Fails, (∀ c n, c ≠ .unicodeNew → fails c n = false) ∧
    ∃ l : Str, (match iternextM fails exOpts mkQuoted (newParser [.item (.str l)]) with
      | .crash => True
      | _ => False) := by
  refine ⟨fun c _ => c == .unicodeNew, ?_, "\"a\"\n".toList, ?_⟩
  · intro c n hc
    simpa using hc
  · have : ending (iternextM (fun c _ => c == .unicodeNew) exOpts mkQuoted
        (newParser [.item (.str "\"a\"\n".toList)])) = .error none := by decide +kernel
    generalize iternextM _ exOpts mkQuoted _ = x at this ⊢
    cases x <;> simp_all [ending]

/-- **C95**, the constructor with an argument that is iterable, whatever calls fail and whatever the
other arguments are: on success there is one reference to the new parser, besides those that the
parser holds itself, and on an exception nothing is left.

Missing for the full property: an argument that is not iterable, see `C95_violated`. -/
theorem C95_new_partial (fails : Fails) (parsed : Bool) (kws : List KwArg) (iter : Obj)
    (own : Obj → Nat) (s : CState (PData α)) (hown : Owns own s.led)
    (hk : ∀ k ∈ kws, Passed k.obj) (hi : Passed (some iter)) :
    match parserNewM fails parsed kws (some iter) s with
    | .crash => False
    | .ok p s' => ∃ o, p = some o ∧ own o = 0 ∧
        Balanced (fun x => own x + refs (some o) x) s' ∧ RoomOk s'.data ∧
        s'.data.inputIter = some iter
    | .exc _ s' => Owns own s'.led := by
  have h := sat_parserNewM (fails := fails) parsed kws (some iter) hown hk hi
  unfold Sat at h
  cases hx : parserNewM fails parsed kws (some iter) s with
  | crash => rw [hx] at h; exact h
  | ok p s' =>
    rw [hx] at h
    obtain ⟨o, h1, h2, h3, h4, h5, _⟩ := h
    exact ⟨o, h1, h2, h3, h4, h5⟩
  | exc e s' =>
    rw [hx] at h
    rcases h with h | h
    · exact h
    · exact absurd h.1 (by simp)

/-- **C95**, the constructor with an argument that is not iterable: it always ends with an exception,
and then either nothing is left, or exactly one reference to each optional argument that was given is
lost for ever; the latter only if all the other arguments were fine. -/
theorem C95_not_iterable (fails : Fails) (parsed : Bool) (kws : List KwArg)
    (own : Obj → Nat) (s : CState (PData α)) (hown : Owns own s.led)
    (hk : ∀ k ∈ kws, Passed k.obj) :
    match parserNewM fails parsed kws none s with
    | .crash => False
    | .ok _ _ => False
    | .exc _ s' => Owns own s'.led ∨
        (parsed = true ∧ (∀ k ∈ kws, k.accepted = true) ∧
          Owns (fun x => own x + kwRefs kws x) s'.led) := by
  have h := sat_parserNewM (fails := fails) parsed kws none hown hk (by intro n; simp)
  unfold Sat at h
  cases hx : parserNewM fails parsed kws none s with
  | crash => rw [hx] at h; exact h
  | ok p s' =>
    rw [hx] at h
    obtain ⟨o, _, _, _, _, _, _, _, h, _⟩ := h
    exact h rfl
  | exc e s' =>
    rw [hx] at h
    rcases h with h | ⟨_, h1, h2, h3⟩
    · exact .inl h
    · exact .inr ⟨h1, h2, h3⟩

/-- The references to an object that are owned after a call. -/
def ownedAfter {δ β : Type} (x : Obj) : CRes (CState δ) β → Option Nat
  | .ok _ s => some (s.led.own x)
  | .exc _ s => some (s.led.own x)
  | .crash => none

/-- **C95** is false of the code: `Parser(5, delimiter=",")`, where no call fails and nothing was owned
before, loses a reference to the delimiter. -/
theorem C95_violated : ∃ kws : List KwArg, (∀ k ∈ kws, Passed k.obj) ∧
    ownedAfter (.arg 1) (parserNewM (fun _ _ => false) true kws none
      (⟨⟨0, 0, fun _ => 0⟩, (newParser []).data⟩ : CState (PData (Str × Bool)))) = some 1 := by
  refine ⟨[⟨some (.arg 1), true⟩], ?_, by decide +kernel⟩
  intro k hk
  simp only [List.mem_singleton] at hk
  subst hk
  intro n
  simp

/-- A case of `C95_new_partial`: the same call with something iterable. -/
example : ownedAfter (.arg 1) (parserNewM (fun _ _ => false) true [⟨some (.arg 1), true⟩]
      (some (.arg 0))
      (⟨⟨0, 0, fun _ => 0⟩, (newParser []).data⟩ : CState (PData (Str × Bool)))) = some 0 ∧
    ownedAfter (.arg 0) (parserNewM (fun _ _ => false) true [⟨some (.arg 1), true⟩]
      (some (.arg 0))
      (⟨⟨0, 0, fun _ => 0⟩, (newParser []).data⟩ : CState (PData (Str × Bool)))) = some 1 := by
  decide +kernel

/-- **C96**, `base_abstraction`: whatever calls fail, every block is freed exactly once and not used
afterwards; the result is that of the model on lists, or a call has failed. -/
theorem C96_base_abstraction (fails : Fails) (d q e : Char) (data : Str) (own : Obj → Nat)
    (s : CState Unit) (hown : Owns own s.led) :
    match baseAbstractionM fails d q e (.str data) s with
    | .crash => False
    | .ok r s' => r = baseAbstraction d q e data ∧ Owns own s'.led
    | .exc x s' => x = .callFailed ∧ (∃ c n, fails c n = true) ∧ Owns own s'.led := by
  have h := sat_baseAbstractionM (fails := fails) d q e data (owns_iff.mp hown)
  unfold Sat at h
  cases hx : baseAbstractionM fails d q e (.str data) s with
  | crash => rw [hx] at h; exact h
  | ok p s' => rw [hx] at h; exact ⟨h.1, owns_iff.mpr h.2⟩
  | exc e s' => rw [hx] at h; exact ⟨h.1, h.2.1, owns_iff.mpr h.2.2⟩

/-- **C96**, `c_merge_with_quotechar`, likewise: also if only one of the two index arrays could be
enlarged. -/
theorem C96_merge (fails : Fails) (x : Str) (own : Obj → Nat) (s : CState Unit)
    (hown : Owns own s.led) :
    match mergeM fails (.str x) s with
    | .crash => False
    | .ok r s' => r = mergeWithQuotechar x ∧ Owns own s'.led
    | .exc x s' => x = .callFailed ∧ (∃ c n, fails c n = true) ∧ Owns own s'.led := by
  have h := sat_mergeM (fails := fails) x (owns_iff.mp hown)
  unfold Sat at h
  cases hx : mergeM fails (.str x) s with
  | crash => rw [hx] at h; exact h
  | ok p s' => rw [hx] at h; exact ⟨h.1, owns_iff.mpr h.2⟩
  | exc e s' => rw [hx] at h; exact ⟨h.1, h.2.1, owns_iff.mpr h.2.2⟩

/-- A case of `C96_merge`: the fourth quoted block makes the index arrays grow; the fifth call, the
growing of the second array, fails. -/
example :
    ending (mergeM (fun _ n => n == 4) (.str "QQDQQDQQDQQ".toList) ⟨⟨0, 0, fun _ => 0⟩, ()⟩) =
      .error (some .callFailed) ∧
    ending (mergeM (fun _ _ => false) (.str "QQDQQDQQDQQ".toList) ⟨⟨0, 0, fun _ => 0⟩, ()⟩) =
      .ok "CCDCCDCCDCC".toList := by decide +kernel

/-- **C97**: as long as the input iterator does not call the parser it feeds, and memory does not run
out in `_strstrip`, no use of a parser, from its making to its end, is undefined; and neither are the
functions of `src/abstraction.c` on strings.

Missing for the full property: see `C97_reentrant_violated` and `C97_not_a_string_violated`. -/
theorem C97_no_crash_partial (fails : Fails) (o : POpts) (mk : Str → Bool → α) (parsed : Bool)
    (kws : List KwArg) (iter : Option Obj) (us : List Use) (items : List Item)
    (s : CState (PData α)) (t : CState Unit) (d q e : Char) (x : Str) (own own' : Obj → Nat)
    (hu : ∀ n, fails .unicodeNew n = false)
    (hscript : s.data.script = plainScript items) (hown : Owns own s.led) (hown' : Owns own' t.led)
    (hk : ∀ k ∈ kws, Passed k.obj) (hi : Passed iter) :
    ending (lifeM fails o mk parsed kws iter us s) ≠ .error none ∧
    ending (baseAbstractionM fails d q e (.str x) t) ≠ .error none ∧
    ending (mergeM fails (.str x) t) ≠ .error none := by
  have h1 := C94_life_partial fails o mk parsed kws iter us items own s hu hscript hown hk hi
  have h2 := C96_base_abstraction fails d q e x own' t hown'
  have h3 := C96_merge fails x own' t hown'
  refine ⟨?_, ?_, ?_⟩
  · cases hx : lifeM fails o mk parsed kws iter us s with
    | crash => rw [hx] at h1; exact h1.elim
    | ok p s' => simp [ending]
    | exc e s' => simp [ending]
  · cases hx : baseAbstractionM fails d q e (.str x) t with
    | crash => rw [hx] at h2; exact h2.elim
    | ok p s' => simp [ending]
    | exc e s' => simp [ending]
  · cases hx : mergeM fails (.str x) t with
    | crash => rw [hx] at h3; exact h3.elim
    | ok p s' => simp [ending]
    | exc e s' => simp [ending]

/-- **C97** is false of the code: an input iterator that calls `next` on the parser it feeds.  The
inner call returns a row and leaves `fields` at `NULL`; the outer call then appends to it. -/
theorem C97_reentrant_violated :
    ending (iternextM (fun _ _ => false) exOpts mkQuoted (newParser
      [.reenter, .item (.str "a\n".toList), .item (.str "b\n".toList)])) = .error none := by
  decide +kernel

/-- **C97**, the same with an empty line instead of `b`: no crash, but the outer call reports the end
of the input though a line is left. -/
theorem C97_reentrant_stops_violated :
    ending (iternextM (fun _ _ => false) exOpts mkQuoted (newParser
      [.reenter, .item (.str "a\n".toList), .item (.str "\n".toList),
        .item (.str "b\n".toList)])) = .ok .stop := by
  decide +kernel

/-- **C97** is false of the code: both functions of `src/abstraction.c` take their first argument for a
string, whatever it is. -/
theorem C97_not_a_string_violated (fails : Fails) (d q e : Char) (s : CState Unit) :
    ending (baseAbstractionM fails d q e .other s) = .error none ∧
    ending (mergeM fails .other s) = .error none := ⟨rfl, rfl⟩

end Clever.Props
