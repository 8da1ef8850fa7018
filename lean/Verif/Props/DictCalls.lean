import Verif.Proofs.DictCalls

/-!
# Property C110: calls on a `DictReader`
-/

namespace Clever

namespace Spec

/-- The results of calls for a `DictReader` with these field names, if its loop gives the dictionaries `ds`. -/
def answers (names : List Key) : List (List (Key × DVal)) → List DCall → List DResult
  | _, [] => []
  | ds, .names :: cs => .names (some names) :: answers names ds cs
  | [], .next :: cs => .raised .stopIteration :: answers names [] cs
  | d :: ds, .next :: cs => .dict d :: answers names ds cs
  | ds, .setNames _ :: cs => .done :: answers names ds cs

end Spec

namespace Props

open Spec

theorem mkReader_new {source : Source} {arg : DialectArg} {f : FmtParams} {rd : Reader}
    (h : mkReader source arg f = .ok rd) : ∃ d, rd = ⟨source, d, 0, none⟩ := by
  simp only [mkReader, bind, Except.bind, pure, Except.pure] at h
  split at h
  · simp at h
  · next d hd => exact ⟨d, (Except.ok.inj h).symm⟩

/-- **C110**, every sequence of calls of `next`, of looking at the field names and of setting them: what they give is
determined by what the reader over the same source gives and by the order of the calls as the specification says; in
particular exceptions of the reader come out of the call that reads the row, and the calls after it go on with the rows
that follow. -/
theorem C110_calls (source : Source) (arg : DialectArg) (f : FmtParams) (fieldnames : Option (List Key)) (restkey : Key)
    (limit : Int) (rd : Reader) (hrd : mkReader source arg f = .ok rd) (outs : List (Except PyExc (List Str)))
    (hg : Gives limit rd outs) :
    ∃ r, mkDictReader source arg fieldnames restkey f = .ok r ∧
      ∀ cs, r.calls limit cs = dictCalls restkey fieldnames outs cs := by
  refine ⟨⟨rd, fieldnames, restkey, 0⟩, ?_, ?_⟩
  · simp only [mkDictReader, hrd, bind, Except.bind, pure, Except.pure]
  · intro cs
    obtain ⟨d, he⟩ := mkReader_new hrd
    have := calls_gives restkey cs hg (Gives.parses hg source d he)
    cases fieldnames with
    | none => exact this.2
    | some f => exact this.1 f 0

/-- **C110**, what the reader gives: the rows of the loop over it, if that ends without an exception. -/
theorem C110_rows (source : Source) (arg : DialectArg) (f : FmtParams) (limit : Int) (rd : Reader)
    (hrd : mkReader source arg f = .ok rd) (rows : List (List Str)) (h : rd.readAll limit = (rows, none)) :
    Gives limit rd (rows.map .ok) := by
  obtain ⟨d, rfl⟩ := mkReader_new hrd
  rw [Clever.readAll_eq] at h
  unfold parseData at h
  cases hc : d.cfg limit with
  | error e => rw [hc] at h; simp at h
  | ok cfg =>
    rw [hc] at h
    have hd : Delivers limit cfg ⟨source, d, 0, none⟩ source.items := by
      cases source with
      | stream items => exact .stream _ _ _ _ hc (by simp)
      | seq items => exact .fresh _ _ _ hc
    obtain ⟨outs, a, -, c⟩ := Delivers.gives (source.items.length + 1) (by omega) hd
    rw [← c rows ?_]
    · exact a
    · simp only [Prod.mk.injEq, Option.map_eq_none_iff] at h
      exact Prod.ext h.1 h.2

theorem dictStep_rows (restkey : Key) (f : List Key) : ∀ (rows : List (List Str)),
    (rows.filter (· ≠ []) = [] ∧ dictStep restkey f (rows.map .ok) = (.raised .stopIteration, [])) ∨
    ∃ (row : List Str) (rest : List (List Str)), rows.filter (· ≠ []) = row :: rest.filter (· ≠ []) ∧
      dictStep restkey f (rows.map .ok) = (.dict (rowDict f restkey row), rest.map .ok)
  | [] => .inl ⟨rfl, rfl⟩
  | [] :: rows => by
    have h : dictStep restkey f (([] :: rows).map .ok) = dictStep restkey f (rows.map .ok) := rfl
    rw [h]
    simpa using dictStep_rows restkey f rows
  | (a :: l) :: rows => .inr ⟨a :: l, rows, by simp, rfl⟩

theorem dictCalls_answers (restkey : Key) (f : List Key) (cs : List DCall) (hcs : ∀ x, DCall.setNames x ∉ cs) :
    ∀ rows : List (List Str), dictCalls restkey (some f) (rows.map .ok) cs =
      answers f ((rows.filter (· ≠ [])).map (rowDict f restkey)) cs := by
  induction cs with
  | nil => intro rows; simp [dictCalls, answers]
  | cons c cs ih =>
    have ih := ih (fun x hx => hcs x (List.mem_cons_of_mem _ hx))
    intro rows
    cases c with
    | setNames x => exact absurd List.mem_cons_self (hcs x)
    | names => rw [dictCalls, ih]; simp [answers]
    | next =>
      rw [dictCalls]
      rcases dictStep_rows restkey f rows with ⟨h1, h2⟩ | ⟨row, rest, h1, h2⟩
      · rw [h1, h2]
        simp only [List.map_nil, answers]
        rw [show ([] : List (Except PyExc (List Str))) = ([] : List (List Str)).map .ok from rfl, ih]
        rfl
      · rw [h1, h2]
        simp only [List.map_cons, answers]
        rw [ih]

/-- **C110 as far as it holds**: if the reader gives a header and rows and no exception, then however the calls of `next`
and the looks at the field names are mixed, the field names are the cells of the first row every time, and the calls of
`next` give one after the other the dictionaries that the loop gives, and then `StopIteration`. -/
theorem C110_any_time_partial (source : Source) (arg : DialectArg) (f : FmtParams) (restkey : Key) (limit : Int) (rd : Reader)
    (hrd : mkReader source arg f = .ok rd) (header : List Str) (rows : List (List Str))
    (h : rd.readAll limit = (header :: rows, none)) :
    ∃ r, mkDictReader source arg none restkey f = .ok r ∧
      ∀ cs, (∀ x, DCall.setNames x ∉ cs) →
        r.calls limit cs = answers (header.map some) (r.readAll limit).1 cs := by
  obtain ⟨r, h1, h2⟩ := C110_calls source arg f none restkey limit rd hrd _ (C110_rows source arg f limit rd hrd _ h)
  refine ⟨r, h1, fun cs hcs => ?_⟩
  obtain ⟨d, rfl⟩ := mkReader_new hrd
  have hr : r = ⟨⟨source, d, 0, none⟩, none, restkey, 0⟩ := by
    simp only [mkDictReader, hrd, bind, Except.bind, pure, Except.pure] at h1
    exact (Except.ok.inj h1).symm
  have hall : (r.readAll limit).1 = (rows.filter (· ≠ [])).map (rowDict (header.map some) restkey) := by
    rw [hr, DictReader.readAll_eq, h]
  rw [h2, hall, ← dictCalls_answers _ _ _ hcs]
  cases cs with
  | nil => simp [dictCalls]
  | cons c cs =>
    cases c with
    | setNames x => exact absurd List.mem_cons_self (hcs x)
    | names => simp [dictCalls]
    | next => simp [dictCalls]

/-- **C110**, setting the field names before anything is read is the same as giving them to the constructor. -/
theorem C110_set_first (source : Source) (arg : DialectArg) (f : FmtParams) (fieldnames : Option (List Key)) (names : List Key)
    (restkey : Key) (limit : Int) (r : DictReader) (hr : mkDictReader source arg fieldnames restkey f = .ok r) :
    ∃ r', mkDictReader source arg (some names) restkey f = .ok r' ∧
      ∀ cs, r.calls limit (.setNames names :: cs) = .done :: r'.calls limit cs := by
  simp only [mkDictReader, bind, Except.bind, pure, Except.pure] at hr ⊢
  split at hr
  · simp at hr
  · next rd hrd =>
    obtain rfl := Except.ok.inj hr
    exact ⟨_, rfl, fun cs => rfl⟩

/-- **C110**, the number of lines: after `next` has returned a dictionary, and after a look at the field names that are
known then, `line_num` is that of the reader. -/
theorem C110_line_num_partial (limit : Int) (r : DictReader) :
    (∀ d, (r.call limit .next).2 = .dict d → (r.call limit .next).1.lineNum = (r.call limit .next).1.reader.lineNum) ∧
    (∀ f, (r.call limit .names).2 = .names (some f) →
      (r.call limit .names).1.lineNum = (r.call limit .names).1.reader.lineNum) := by
  have hnames : ∀ (r : DictReader) f, (r.getFieldnames limit).2 = .ok (some f) →
      (r.getFieldnames limit).1.lineNum = (r.getFieldnames limit).1.reader.lineNum := by
    intro r f
    unfold DictReader.getFieldnames
    split
    · simp
    · split <;> simp
  constructor
  · intro d
    simp only [DictReader.call]
    unfold DictReader.next
    simp only
    generalize (if r.lineNum = 0 then _ else _ : DictReader × Except PyExc Unit) = p
    rcases p with ⟨r1, e | u⟩
    · simp
    · simp only
      rcases r1.reader.next limit with ⟨rd, e | row⟩
      · simp
      · simp only
        rcases skipBlank limit (rd.left + 1) rd row with ⟨rd', e | row⟩
        · simp
        · simp only
          generalize ({ r1 with reader := rd', lineNum := rd.lineNum } : DictReader) = r2
          have := hnames r2
          rcases hx : r2.getFieldnames limit with ⟨r3, e | (_ | f)⟩
          · simp
          · simp
          · intro _
            rw [hx] at this
            exact this f rfl
  · intro f
    have := hnames r f
    simp only [DictReader.call]
    rcases hx : r.getFieldnames limit with ⟨r3, e | f'⟩
    · simp
    · intro h
      simp only [DResult.names.injEq] at h
      subst h
      rw [hx] at this
      exact this rfl

/-- **C110 fails** for `line_num` when blank rows are at the end: the reader has read them. -/
theorem C110_line_num_violated :
    ∃ r, mkDictReader (.stream (strItems (linesUniv "a\n\n\n".toList))) (.name "excel") = .ok r ∧
      (r.call 9 .next).2 = .raised .stopIteration ∧ (r.call 9 .next).1.lineNum = 2 ∧
      (r.call 9 .next).1.reader.lineNum = 3 :=
  ⟨_, by rfl, by decide +kernel⟩

/-- A concrete case: names in between, a blank row, names that are changed. -/
example : ∃ r, mkDictReader (.stream (strItems (linesUniv "a,b\n1,2\n\n3,4\n5,6\n".toList))) (.name "excel") = .ok r ∧
    r.calls 9 [.names, .next, .names, .next, .setNames [some "x".toList], .next, .names, .next] =
      [.names (some [some "a".toList, some "b".toList]),
        .dict [(some "a".toList, .cell "1".toList), (some "b".toList, .cell "2".toList)],
        .names (some [some "a".toList, some "b".toList]),
        .dict [(some "a".toList, .cell "3".toList), (some "b".toList, .cell "4".toList)], .done,
        .dict [(some "x".toList, .cell "5".toList), (none, .rest ["6".toList])], .names (some [some "x".toList]),
        .raised .stopIteration] :=
  ⟨_, by rfl, by decide +kernel⟩

/-- **C110 fails** as far as the header is concerned: if reading it raises an exception, the next row that is read becomes
the header.  Here the first row has a cell longer than the limit. -/
theorem C110_header_violated :
    ∃ r, mkDictReader (.stream (strItems (linesUniv "name,b\n1,2\n3,4\n".toList))) (.name "excel") = .ok r ∧
      r.calls 3 [.next, .names, .next, .next] =
        [.raised (.parse (.fieldLimit 3)), .names (some [some "1".toList, some "2".toList]),
          .dict [(some "1".toList, .cell "3".toList), (some "2".toList, .cell "4".toList)], .raised .stopIteration] :=
  ⟨_, by rfl, by decide +kernel⟩

end Props

end Clever
