import Verif.Proofs.DictIO
import Mathlib.Data.List.Forall2

/-!
# Properties C46, C47: `DictReader` and `DictWriter`
-/

namespace Clever

namespace Spec

/-- What the dictionary of a row should be: the fields in order (followed by `restkey` if there are
surplus cells), the `i`-th field with the `i`-th cell, `restval` if there is none, and `restkey` with the
surplus cells. -/
structure IsDictOf (fields : List Key) (restkey : Key) (row : List Str) (d : List (Key × DVal)) : Prop where
  keys : d.map Prod.fst = fields ++ if fields.length < row.length then [restkey] else []
  cell : ∀ i (hi : i < fields.length) (hr : i < row.length), dictGet fields[i] d = some (.cell row[i])
  missing : ∀ i (hi : i < fields.length), row.length ≤ i → dictGet fields[i] d = some .restval
  surplus : fields.length < row.length → dictGet restkey d = some (.rest (row.drop fields.length))

/-- The value that `DictWriter` should write for a field. -/
def fieldValue (rowdict : List (Str × Str)) (restval : Str) (field : Str) : Str :=
  match rowdict.find? (fun p => p.1 = field) with
  | some p => p.2
  | none => restval

end Spec

namespace Props

/-! ## C46 DictReader rows correspond to reader rows -/

/-- **C46 (which rows).**  If the reader over the same source returns `rows` (and ends with the exception
`err`, if any), then with field names given `DictReader` makes a dictionary of every row of `rows` that is
not empty; without, the first row is the header, and every non-empty row after it gives a dictionary.  A
source without rows gives no dictionaries.  The iteration ends with the same exception.
(The dictionary of a row is the subject of `C46_cells_partial`.) -/
theorem C46_rows_partial (source : Source) (arg : DialectArg) (f : FmtParams)
    (fieldnames : Option (List Key)) (restkey : Key) (limit : Int) (rd : Reader)
    (hrd : mkReader source arg f = .ok rd) :
    ∃ r, mkDictReader source arg fieldnames restkey f = .ok r ∧
      ∀ rows err, rd.readAll limit = (rows, err) →
        r.readAll limit =
          match fieldnames, rows with
          | some names, rows => ((rows.filter (· ≠ [])).map (rowDict names restkey), err)
          | none, [] => ([], err)
          | none, header :: rows =>
            ((rows.filter (· ≠ [])).map (rowDict (header.map some) restkey), err) := by
  refine ⟨⟨rd, fieldnames, restkey, 0⟩, ?_, ?_⟩
  · simp only [mkDictReader, hrd, bind, Except.bind, pure, Except.pure]
  · intro rows err h
    obtain ⟨d, rfl⟩ : ∃ d, rd = ⟨source, d, 0, none⟩ := by
      simp only [mkReader, bind, Except.bind, pure, Except.pure] at hrd
      split at hrd
      · simp at hrd
      · next d hd => exact ⟨d, (Except.ok.inj hrd).symm⟩
    rw [DictReader.readAll_eq, h]
    cases fieldnames <;> cases rows <;> rfl

/-- An exception of the constructor of the reader is passed on. -/
theorem C46_constructor (source : Source) (arg : DialectArg) (f : FmtParams)
    (fieldnames : Option (List Key)) (restkey : Key) (e : PyExc)
    (h : mkReader source arg f = .error e) : mkDictReader source arg fieldnames restkey f = .error e := by
  simp only [mkDictReader, h, bind, Except.bind]

/-- **C46 (the cells).**  If the field names are distinct and `restkey` is not one of them, the dictionary
of a row has the fields as keys, in order, the `i`-th with the `i`-th cell or `restval`, and `restkey` with
the surplus cells if there are any.  Missing for the full property: `restkey` among the field names,
see `C46_violated`. -/
theorem C46_cells_partial (fields : List Key) (restkey : Key) (hn : fields.Nodup) (hr : restkey ∉ fields)
    (row : List Str) : Spec.IsDictOf fields restkey row (rowDict fields restkey row) := by
  rw [rowDict_eq hn hr]
  have hk : ((fields.zip (row.map DVal.cell)).map Prod.fst) = fields.take row.length := by
    rw [zip_fst_sublist, List.length_map]
  constructor
  · by_cases h : fields.length < row.length
    · rw [if_pos h, if_pos h, List.map_append, hk, List.take_of_length_le (by omega)]
      rfl
    · rw [if_neg h, if_neg h, List.map_append, hk, List.map_map]
      rw [show (Prod.fst ∘ fun x : Key => (x, DVal.restval)) = id from rfl, List.map_id,
        List.take_append_drop, List.append_nil]
  · intro i hi hri
    by_cases h : fields.length < row.length
    · rw [if_pos h, dictGet_append, dictGet_zip _ _ i hi hn]
      simp [hri]
    · rw [if_neg h, dictGet_append, dictGet_zip _ _ i hi hn]
      simp [hri]
  · intro i hi hri
    rw [if_neg (by omega), dictGet_append, dictGet_zip _ _ i hi hn]
    have : (row.map DVal.cell)[i]? = none := by simp [hri]
    rw [this, Option.none_or]
    have hz : (fields.drop row.length).map (·, DVal.restval) =
        (fields.drop row.length).zip ((fields.drop row.length).map fun _ => DVal.restval) := by
      generalize fields.drop row.length = l
      induction l with
      | nil => rfl
      | cons a l ih => simp [ih]
    have hlen : i - row.length < (fields.drop row.length).length := by simp; omega
    have he : fields[i] = (fields.drop row.length)[i - row.length] := by
      rw [List.getElem_drop]
      congr 1
      omega
    rw [hz, he, dictGet_zip _ _ _ hlen (hn.sublist (List.drop_sublist _ _))]
    rw [List.getElem?_map, List.getElem?_eq_getElem hlen]
    rfl
  · intro h
    rw [if_pos h, dictGet_append, dictGet_none (by rw [hk]; exact fun h => hr (List.mem_of_mem_take h))]
    simp [dictGet]

/-- **C46 (together).**  Reading with the first row as header, if its cells are distinct and `restkey` is
not one of them: one dictionary per non-empty row after the header, each as the specification says. -/
theorem C46_header_partial (source : Source) (arg : DialectArg) (f : FmtParams) (restkey : Key)
    (limit : Int) (rd : Reader) (hrd : mkReader source arg f = .ok rd) (header : List Str)
    (rows : List (List Str)) (err : Option PyExc) (hall : rd.readAll limit = (header :: rows, err))
    (hn : header.Nodup) (hr : ∀ k, restkey = some k → k ∉ header) :
    ∃ r dicts, mkDictReader source arg none restkey f = .ok r ∧ r.readAll limit = (dicts, err) ∧
      List.Forall₂ (Spec.IsDictOf (header.map some) restkey) (rows.filter (· ≠ [])) dicts := by
  obtain ⟨r, h1, h2⟩ := C46_rows_partial source arg f none restkey limit rd hrd
  refine ⟨r, _, h1, h2 _ _ hall, ?_⟩
  rw [List.forall₂_map_right_iff, List.forall₂_same]
  intro row _
  refine C46_cells_partial _ _ (List.Pairwise.map some (fun a b h h' => h (Option.some.inj h')) hn) ?_ row
  intro h
  simp only [List.mem_map] at h
  obtain ⟨k, hk, he⟩ := h
  exact hr k he.symm hk

/-- A concrete case: a blank line, a short row, a long one, and a header of two columns. -/
example : ∃ r, mkDictReader (.stream (strItems (linesUniv "a,b\n\n1\n1,2,3\n".toList))) (.name "excel") =
      .ok r ∧ r.readAll 131072 = ([[(some "a".toList, .cell "1".toList), (some "b".toList, .restval)],
      [(some "a".toList, .cell "1".toList), (some "b".toList, .cell "2".toList), (none, .rest ["3".toList])]],
      none) :=
  ⟨_, by rfl, by decide +kernel⟩

/-- **C46 is violated** if `restkey` is one of the field names: with distinct field names `a` and `b` and
`restkey="b"`, the second cell of a long row is overwritten by the list of surplus cells. -/
theorem C46_violated : ∃ (text : Str) (r : DictReader) (d : List (Key × DVal)),
    mkDictReader (.stream (strItems (linesUniv text))) (.name "excel") none (some "b".toList) = .ok r ∧
    r.readAll 131072 = ([d], none) ∧
    readText 131072 (.name "excel") {} text =
      .ok [["a".toList, "b".toList], ["1".toList, "2".toList, "3".toList]] ∧
    DVal.cell "2".toList ∉ d.map Prod.snd ∧
    ¬ Spec.IsDictOf [some "a".toList, some "b".toList] (some "b".toList)
      ["1".toList, "2".toList, "3".toList] d := by
  refine ⟨"a,b\n1,2,3\n".toList,
    ⟨⟨.stream (strItems (linesUniv "a,b\n1,2,3\n".toList)), ⟨some [','], some ['"'], some [], false⟩, 0, none⟩,
      none, some "b".toList, 0⟩,
    [(some "a".toList, .cell "1".toList), (some "b".toList, .rest ["3".toList])],
    by decide +kernel, by decide +kernel, by decide +kernel, by decide, ?_⟩
  intro h
  exact absurd (h.cell 1 (by decide) (by decide)) (by decide)

/-! ## C47 DictWriter writes every known field and rejects unknown ones -/

theorem getD_fieldValue (rowdict : List (Str × Str)) (restval k : Str) :
    (dictGet k rowdict).getD restval = Spec.fieldValue rowdict restval k := by
  induction rowdict with
  | nil => rfl
  | cons p d ih =>
    rcases p with ⟨a, b⟩
    rw [dictGet]
    by_cases h : a = k
    · rw [if_pos h]
      simp [Spec.fieldValue, h]
    · rw [if_neg h, ih]
      simp [Spec.fieldValue, h]

/-- The constructor accepts `raise` and `ignore` in any letter case, and nothing else. -/
theorem C47_constructor (fields : List Str) (restval action : Str) (arg : DialectArg) (f : FmtParams)
    (wd : WDialect) (hw : mkWriter arg f = .ok wd) :
    (lowerAscii action = "raise".toList ∨ lowerAscii action = "ignore".toList) ∧
      mkDictWriter fields restval action arg f = .ok ⟨fields, restval, action, wd⟩ ∨
    (lowerAscii action ≠ "raise".toList ∧ lowerAscii action ≠ "ignore".toList) ∧
      ∃ m, mkDictWriter fields restval action arg f = .error (.valueError m) := by
  unfold mkDictWriter
  by_cases h : lowerAscii action ≠ "raise".toList ∧ lowerAscii action ≠ "ignore".toList
  · rw [if_pos h]
    exact .inr ⟨h, _, rfl⟩
  · rw [if_neg h]
    refine .inl ⟨?_, by simp only [hw, bind, Except.bind, pure, Except.pure]⟩
    by_cases h1 : lowerAscii action = "raise".toList
    · exact .inl h1
    · exact .inr (by_contra fun h2 => h ⟨h1, h2⟩)

/-- **C47 (known fields).**  For every `DictWriter` and every dictionary without unknown keys, `writerow`
writes the record of the values (or `restval`) in field name order. -/
theorem C47_known_partial (w : DictWriter) (rowdict : List (Str × Str))
    (h : ∀ k ∈ rowdict.map Prod.fst, k ∈ w.fieldnames) :
    w.writerow rowdict = w.writer.writeRow (w.fieldnames.map (Spec.fieldValue rowdict w.restval)) := by
  unfold DictWriter.writerow DictWriter.dictToList
  rw [if_neg (by simp only [not_and, not_not]; exact fun _ => h)]
  simp only [bind, Except.bind, getD_fieldValue]

/-- **C47 (unknown fields raise).**  With `extrasaction="raise"` (in lower case) a dictionary with an unknown
key raises `ValueError` and nothing is written.  Missing for the full property: other letter cases
that the constructor accepts, see `C47_violated`. -/
theorem C47_raise_partial (w : DictWriter) (hw : w.extrasaction = "raise".toList)
    (rowdict : List (Str × Str)) (k : Str) (hk : k ∈ rowdict.map Prod.fst) (hf : k ∉ w.fieldnames) :
    ∃ m, w.writerow rowdict = .error (.valueError m) := by
  unfold DictWriter.writerow DictWriter.dictToList
  rw [if_pos ⟨hw, fun h => hf (h k hk)⟩]
  exact ⟨_, rfl⟩

/-- **C47 (unknown fields ignored).**  With `extrasaction="ignore"` in any letter case, `writerow` writes the
values of the known fields whatever the dictionary. -/
theorem C47_ignore (w : DictWriter) (hw : lowerAscii w.extrasaction = "ignore".toList)
    (rowdict : List (Str × Str)) :
    w.writerow rowdict = w.writer.writeRow (w.fieldnames.map (Spec.fieldValue rowdict w.restval)) := by
  unfold DictWriter.writerow DictWriter.dictToList
  rw [if_neg]
  · simp only [bind, Except.bind, getD_fieldValue]
  · rintro ⟨h, -⟩
    rw [h] at hw
    revert hw
    decide

/-- `writeheader` writes the field names, for any field names and `extrasaction`. -/
theorem C47_header (w : DictWriter) : w.writeheader = w.writer.writeRow w.fieldnames := by
  unfold DictWriter.writeheader DictWriter.writerow DictWriter.dictToList
  have hsub : ∀ k ∈ (dictOf (w.fieldnames.zip w.fieldnames)).map Prod.fst, k ∈ w.fieldnames := by
    intro k hk
    rcases mem_dictOf_keys _ _ _ hk with h | h
    · rw [zip_fst_sublist] at h
      exact List.mem_of_mem_take h
    · simp at h
  rw [if_neg (by simp only [not_and, not_not]; exact fun _ => hsub)]
  simp only [bind, Except.bind]
  congr 1
  conv => rhs; rw [← List.map_id w.fieldnames]
  apply List.map_congr_left
  intro k hk
  rw [dictOf, dictGet_self k _ _ (by simp [dictGet]), if_pos hk]
  rfl

/-- `writerows` writes the rows before the first one that is refused, and none after it. -/
theorem C47_writerows (w : DictWriter) (hw : w.extrasaction = "raise".toList)
    (before after : List (List (Str × Str))) (bad : List (Str × Str)) (k : Str)
    (hk : k ∈ bad.map Prod.fst) (hf : k ∉ w.fieldnames)
    (hb : ∀ d ∈ before, ∃ x, w.writerow d = .ok x) :
    ∃ m, w.writerows (before ++ bad :: after) = ((w.writerows before).1, some (.valueError m)) := by
  obtain ⟨m, hm⟩ := C47_raise_partial w hw bad k hk hf
  refine ⟨m, ?_⟩
  induction before with
  | nil => simp only [List.nil_append, DictWriter.writerows, hm]
  | cons d before ih =>
    obtain ⟨x, hx⟩ := hb d (by simp)
    simp only [List.cons_append, DictWriter.writerows, hx]
    rw [ih (fun d hd => hb d (by simp [hd]))]

/-- A concrete case: two fields, one of them missing in the dictionary. -/
example : (mkDictWriter ["a".toList, "b".toList] "-".toList).map
    (fun w => (w.writeheader, w.writerow [("b".toList, "x,y".toList)],
      w.writerow [("c".toList, [])])) =
    .ok (.ok "a,b\r\n".toList, .ok "-,\"x,y\"\r\n".toList,
      .error (.valueError "dict contains fields not in fieldnames")) := by decide +kernel

/-- Without further arguments missing values are empty, unknown keys raise, and the dialect is excel. -/
theorem C47_default (fields : List Str) : mkDictWriter fields = .ok ⟨fields, [], "raise".toList, excelWriter⟩ := by
  simp only [mkDictWriter, mkWriter_excel, bind, Except.bind, pure, Except.pure]
  rfl

/-- **C47 is violated**: `extrasaction="RAISE"` is accepted by the constructor, but then a dictionary with an
unknown key does not raise; its value is dropped. -/
theorem C47_violated : ∃ w, mkDictWriter ["a".toList] [] "RAISE".toList = .ok w ∧
    w.writerow [("a".toList, "1".toList), ("b".toList, "2".toList)] = .ok "1\r\n".toList := by
  exact ⟨⟨["a".toList], [], "RAISE".toList, excelWriter⟩, by decide +kernel, by decide +kernel⟩

end Props
end Clever
