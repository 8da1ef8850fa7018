import Verif.Proofs.Reader
import Verif.Model.Writer

/-!
# Property C60: format parameters override the dialect
-/

namespace Clever.Spec

/-- Settings that `_csv` accepts for writing: a delimiter of one character, a quotechar and an escapechar of one
character or none, and no missing quotechar where cells may be quoted. -/
def Writable (delimiter quotechar escapechar : Option Str) (quoting : Quoting) : Prop :=
  (∃ c, delimiter = some [c]) ∧ (quotechar = none ∨ ∃ c, quotechar = some [c]) ∧
  (escapechar = none ∨ ∃ c, escapechar = some [c]) ∧ (quotechar = none → quoting = .none)

end Clever.Spec

namespace Clever.Props

open Clever

/-- **C60 (reader).**  If a reader can be constructed with format parameters, its dialect has the
given value wherever `delimiter`, `quotechar`, `escapechar` or `strict` is given, and the value of
the dialect argument elsewhere. -/
theorem C60_reader_overrides (src : Source) (arg : DialectArg) (f : FmtParams) (r : Reader)
    (h : mkReader src arg f = .ok r) :
    ∃ d, baseDialect arg = .ok d ∧
      (∀ x, f.delimiter = some x → r.dialect.delimiter = x) ∧
      (f.delimiter = none → r.dialect.delimiter = d.delimiter) ∧
      (∀ x, f.quotechar = some x → r.dialect.quotechar = x) ∧
      (f.quotechar = none → r.dialect.quotechar = d.quotechar) ∧
      (∀ x, f.escapechar = some x → r.dialect.escapechar = x) ∧
      (f.escapechar = none → r.dialect.escapechar = d.escapechar) ∧
      (∀ x, f.strict = some x → r.dialect.strict = x) ∧
      (f.strict = none → r.dialect.strict = d.strict) := by
  simp only [mkReader, makeSimpleDialect, bind, Except.bind, pure, Except.pure] at h
  cases hd : baseDialect arg with
  | error e => simp [hd] at h
  | ok d =>
    simp only [hd] at h
    refine ⟨d, rfl, ?_⟩
    cases hv : (d.setParams f).validate with
    | error e => simp [hv] at h
    | ok u =>
      simp only [hv, Except.ok.injEq] at h
      subst h
      simp +contextual [SimpleDialect.setParams]

/-- **C60 (reader).**  Passing parameters is the same as passing the changed dialect. -/
theorem C60_reader_same_as_changed_dialect (src : Source) (d : SimpleDialect) (f : FmtParams) :
    mkReader src (.simple d) f =
      mkReader src (.simple ⟨f.delimiter.getD d.delimiter, f.quotechar.getD d.quotechar,
        f.escapechar.getD d.escapechar, f.strict.getD d.strict⟩) {} := by
  simp [mkReader, makeSimpleDialect, baseDialect, SimpleDialect.setParams, bind, Except.bind]

/-- What a writer's dialect takes over from the `csv` dialect. -/
theorem mkWDialect_ok {c : CsvDialect} {w : WDialect} (h : mkWDialect c = .ok w) :
    c.delimiter = some [w.delimiter] ∧ c.quotechar = w.quotechar.map (fun c => [c]) ∧
    c.escapechar = w.escapechar.map (fun c => [c]) ∧ c.doublequote = w.doublequote ∧
    c.lineterminator = some w.lineterminator ∧ c.quoting = w.quoting := by
  have oc : ∀ (n : String) (x : Option Str) (y : Option Char), optChar n x = .ok y →
      x = y.map (fun c => [c]) := by
    intro n x y
    unfold optChar
    split <;> simp <;> rintro rfl <;> rfl
  simp only [mkWDialect, bind, Except.bind] at h
  cases h1 : optChar "delimiter" c.delimiter with
  | error e => simp [h1] at h
  | ok del =>
  cases h2 : optChar "escapechar" c.escapechar with
  | error e => simp [h1, h2] at h
  | ok esc =>
  cases h3 : optChar "quotechar" c.quotechar with
  | error e => simp [h1, h2, h3] at h
  | ok quo =>
  simp only [h1, h2, h3] at h
  cases del with
  | none => simp at h
  | some del =>
  simp only at h
  split at h
  · simp at h
  · cases hl : c.lineterminator with
    | none => simp [hl] at h
    | some lt =>
      simp only [hl, Except.ok.injEq] at h
      subst h
      exact ⟨oc _ _ _ h1, oc _ _ _ h3, oc _ _ _ h2, rfl, rfl, rfl⟩

theorem mkWriter_ok {arg : DialectArg} {f : FmtParams} {w : WDialect} (h : mkWriter arg f = .ok w) :
    ∃ b : CsvDialect, (∀ d, arg = .simple d → d.toCsvDialect = .ok b) ∧
      mkWDialect (b.override f) = .ok w := by
  cases arg with
  | name n =>
    simp only [mkWriter, makePythonDialect, bind, Except.bind, pure, Except.pure] at h
    cases hg : getDialect n with
    | error e => simp [hg] at h
    | ok b => simp only [hg] at h; exact ⟨b, by simp, h⟩
  | cInstance d => exact ⟨d, by simp, h⟩
  | pyClass d => exact ⟨d, by simp, h⟩
  | pyInstance d => simp [mkWriter, makePythonDialect, bind, Except.bind] at h
  | other => simp [mkWriter, makePythonDialect, bind, Except.bind] at h
  | simple d =>
    simp only [mkWriter, makePythonDialect, bind, Except.bind, pure, Except.pure] at h
    cases hg : d.toCsvDialect with
    | error e => simp [hg] at h
    | ok b =>
      simp only [hg] at h
      refine ⟨b, ?_, h⟩
      rintro d' hd'
      cases hd'
      exact hg

/-- **C60 (writer).**  If a writer can be constructed with format parameters, each one that is given
determines the attribute that the writer uses. -/
theorem C60_writer_overrides (arg : DialectArg) (f : FmtParams) (w : WDialect)
    (h : mkWriter arg f = .ok w) :
    (∀ x, f.delimiter = some x → x = some [w.delimiter]) ∧
    (∀ x, f.quotechar = some x → x = w.quotechar.map (fun c => [c])) ∧
    (∀ x, f.escapechar = some x → x = w.escapechar.map (fun c => [c])) ∧
    (∀ x, f.doublequote = some x → w.doublequote = x) ∧
    (∀ x, f.lineterminator = some (some x) → w.lineterminator = x) ∧
    (f.lineterminator = some none → w.lineterminator = ['\n']) ∧
    (∀ x, f.quoting = some x → w.quoting = x) := by
  obtain ⟨b, -, hb⟩ := mkWriter_ok h
  obtain ⟨h1, h2, h3, h4, h5, h6⟩ := mkWDialect_ok hb
  simp only [CsvDialect.override] at h1 h2 h3 h4 h5 h6
  refine ⟨?_, ?_, ?_, ?_, ?_, ?_, ?_⟩
  case refine_6 => intro hx; simp_all
  all_goals intro x hx; simp_all

/-- **C60 (writer).**  The attributes that are not overridden come from the dialect: a writer for a
`SimpleDialect` with delimiter and quotechar. -/
theorem C60_writer_keeps (d q : Char) (e : Option Char) (f : FmtParams) (w : WDialect)
    (h : mkWriter (.simple (dialectOf (some d) (some q) e)) f = .ok w) :
    (f.delimiter = none → w.delimiter = d) ∧ (f.quotechar = none → w.quotechar = some q) ∧
    (f.escapechar = none → w.escapechar = e) ∧ (f.doublequote = none → w.doublequote = true) ∧
    (f.lineterminator = none → w.lineterminator = ['\n']) ∧
    (f.quoting = none → w.quoting = .minimal) := by
  obtain ⟨b, h0, hb⟩ := mkWriter_ok h
  obtain ⟨h1, h2, h3, h4, h5, h6⟩ := mkWDialect_ok hb
  have hb' := h0 _ rfl
  simp only [SimpleDialect.toCsvDialect, dialectOf, reduceCtorEq, if_false, Except.ok.injEq] at hb'
  subst hb'
  simp only [CsvDialect.override] at h1 h2 h3 h4 h5 h6
  refine ⟨?_, ?_, ?_, ?_, ?_, ?_⟩ <;> intro hx <;>
    simp only [hx, Option.getD_none, Option.toList] at h1 h2 h3 h4 h5 h6
  · simp_all
  · cases hw : w.quotechar <;> simp_all
  · cases e <;> cases hw : w.escapechar <;> simp_all
  · exact h4.symm
  · simp_all
  · simp_all

theorem mkWDialect_iff (c : CsvDialect) (hl : c.lineterminator ≠ none) :
    (Spec.Writable c.delimiter c.quotechar c.escapechar c.quoting ∧ ∃ w, mkWDialect c = .ok w) ∨
    (¬ Spec.Writable c.delimiter c.quotechar c.escapechar c.quoting ∧ ∃ m, mkWDialect c = .error (.typeError m)) := by
  obtain ⟨lt, hlt⟩ := Option.ne_none_iff_exists'.1 hl
  have oc : ∀ (n : String) (x : Option Str), (x = none ∧ optChar n x = .ok none) ∨
      (∃ c, x = some [c] ∧ optChar n x = .ok (some c)) ∨
      (x ≠ none ∧ (∀ c, x ≠ some [c]) ∧ ∃ m, optChar n x = .error (.typeError m)) := by
    intro n x
    match x with
    | none => exact .inl ⟨rfl, rfl⟩
    | some [c] => exact .inr (.inl ⟨c, rfl, rfl⟩)
    | some [] => exact .inr (.inr ⟨by simp, by simp, _, rfl⟩)
    | some (a :: b :: r) => exact .inr (.inr ⟨by simp, by simp, _, rfl⟩)
  simp only [mkWDialect, bind, Except.bind, Spec.Writable]
  rcases oc "delimiter" c.delimiter with ⟨h1, h1'⟩ | ⟨x, h1, h1'⟩ | ⟨h1, h1', m, h1''⟩
  · rcases oc "escapechar" c.escapechar with ⟨h2, h2'⟩ | ⟨y, h2, h2'⟩ | ⟨h2, h2', m, h2''⟩ <;>
      rcases oc "quotechar" c.quotechar with ⟨h3, h3'⟩ | ⟨z, h3, h3'⟩ | ⟨h3, h3', m', h3''⟩ <;> simp_all
  · rcases oc "escapechar" c.escapechar with ⟨h2, h2'⟩ | ⟨y, h2, h2'⟩ | ⟨h2, h2', m, h2''⟩ <;>
      rcases oc "quotechar" c.quotechar with ⟨h3, h3'⟩ | ⟨z, h3, h3'⟩ | ⟨h3, h3', m', h3''⟩ <;>
      by_cases hq : c.quoting = .none <;> simp_all
  · right
    simp_all

/-- **C60 (writer).**  A writer for a `csv` dialect is made exactly if the settings that are given, together with those
of the dialect for the others, are ones that can be written with; otherwise `TypeError` is raised. -/
theorem C60_writer_made (b : CsvDialect) (f : FmtParams) :
    ((∃ w, mkWriter (.cInstance b) f = .ok w) ↔
      Spec.Writable (f.delimiter.getD b.delimiter) (f.quotechar.getD b.quotechar) (f.escapechar.getD b.escapechar)
        (f.quoting.getD b.quoting)) ∧
    ((∃ w, mkWriter (.cInstance b) f = .ok w) ∨ ∃ m, mkWriter (.cInstance b) f = .error (.typeError m)) := by
  have h : mkWriter (.cInstance b) f = mkWDialect (b.override f) := rfl
  rw [h]
  rcases mkWDialect_iff (b.override f) (by simp [CsvDialect.override]) with ⟨h1, w, h2⟩ | ⟨h1, m, h2⟩
  · exact ⟨⟨fun _ => h1, fun _ => ⟨w, h2⟩⟩, .inl ⟨w, h2⟩⟩
  · refine ⟨⟨?_, fun h => absurd h h1⟩, .inr ⟨m, h2⟩⟩
    rintro ⟨w, hw⟩
    rw [h2] at hw
    cases hw

/-- **C60 (writer).**  The same for a `SimpleDialect`, where an empty quotechar stands for writing without quotes, and
an empty escapechar for none. -/
theorem C60_writer_made_simple (d q e : Str) (s : Bool) (f : FmtParams) :
    (∃ w, mkWriter (.simple ⟨some d, some q, some e, s⟩) f = .ok w) ↔
      Spec.Writable (f.delimiter.getD (some d)) (f.quotechar.getD (some (if q = [] then ['"'] else q)))
        (f.escapechar.getD (if e = [] then none else some e))
        (f.quoting.getD (if q = [] then .none else .minimal)) := by
  have h : mkWriter (.simple ⟨some d, some q, some e, s⟩) f = mkWriter (.cInstance ⟨some d,
      if some q = some [] then some ['"'] else some q, if some e = some [] then none else some e, true, false, some ['\n'],
      if some q = some [] then .none else .minimal, none⟩) f := rfl
  rw [h, (C60_writer_made _ f).1]
  by_cases hq : q = [] <;> by_cases he : e = [] <;> simp [hq, he]

example : (∃ w, mkWriter (.name "excel") { quotechar := some none, quoting := some .none } = .ok w) ∧
    mkWriter (.name "excel") { quotechar := some none } =
      .error (.typeError "quotechar must be set if quoting enabled") :=
  ⟨⟨_, rfl⟩, rfl⟩

/-- A case for both. -/
example : (mkReader (.seq []) (.name "excel") { delimiter := some (some [';']) }).map (·.dialect) =
      .ok (dialectOf (some ';') (some '"') none) ∧
    (mkWriter (.name "excel") { delimiter := some (some [';']), quoting := some .all }).map
        (fun w => (w.delimiter, w.quoting, w.lineterminator)) = .ok (';', .all, ['\r', '\n']) := by
  decide

end Clever.Props
