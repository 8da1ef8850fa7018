import Verif.Model.DialectHeap
import Verif.Proofs.StrOrder
import Verif.Model.FieldLimit
import Verif.Proofs.Json
import Verif.Proofs.Reader

/-!
# Properties C17 - C20, C59: dialect objects and the field size limit
-/

set_option linter.unusedSimpArgs false

namespace Clever.Props

open Clever

/-! ## C17 The caller's dialect object is not modified -/

/-- The heap model computes the same dialect as the value model used elsewhere. -/
theorem C17_heap_model_agrees (h : DHeap) (arg : DialectRef) (f : FmtParams) :
    (match makeSimpleDialectH h arg f with
      | (h', .ok a) => (match h'[a]? with
        | some d => .ok d
        | none => .error .assertionError)
      | (_, .error e) => .error e) = makeSimpleDialect (arg.value h) f := by
  have alloc : ∀ d : Except PyExc CsvDialect,
      (match (match allocCsv h d with
        | (h, .error e) => (h, Except.error e)
        | (h, .ok a) =>
          let h := h.modify a (fun d => d.setParams f)
          match h[a]? with
          | none => (h, Except.error (PyExc.valueError "Unknown dialect type"))
          | some d =>
            match d.validate with
            | .error e => (h, Except.error e)
            | .ok () => (h, .ok a) : DHeap × Except PyExc Nat) with
        | (h', .ok a) => (match h'[a]? with
          | some d => .ok d
          | none => .error .assertionError)
        | (_, .error e) => .error e) =
      (match d with
        | .error e => Except.error e
        | .ok d => match fromCsvDialect d with
          | .error e => Except.error e
          | .ok sd => match (sd.setParams f).validate with
            | .error e => Except.error e
            | .ok () => .ok (sd.setParams f)) := by
    intro d
    cases d with
    | error e => rfl
    | ok d =>
      simp only [allocCsv]
      cases hf : fromCsvDialect d with
      | error e => rfl
      | ok sd =>
        have : ((h ++ [sd]).modify h.length (fun d => d.setParams f))[h.length]? =
            some (sd.setParams f) := by simp
        simp only [this]
        cases hv : (sd.setParams f).validate with
        | error e => rfl
        | ok _ => simp only [this]
  cases arg with
  | name n =>
    refine (alloc (getDialect n)).trans ?_
    simp only [makeSimpleDialect, DialectRef.value, baseDialect, bind, Except.bind, pure, Except.pure]
    cases getDialect n with
    | error e => rfl
    | ok d =>
      cases hf : fromCsvDialect d with
      | error e => simp only [hf]
      | ok sd => simp only [hf]; cases (sd.setParams f).validate <;> rfl
  | pyInstance d =>
    refine (alloc (.ok d)).trans ?_
    simp only [makeSimpleDialect, DialectRef.value, baseDialect, bind, Except.bind, pure, Except.pure]
    cases hf : fromCsvDialect d with
    | error e => simp only
    | ok sd => simp only; cases (sd.setParams f).validate <;> rfl
  | cInstance d => rfl
  | pyClass d => rfl
  | other => rfl
  | simple a =>
    simp only [makeSimpleDialectH, baseDialectH, DialectRef.value]
    by_cases ha : a < h.length
    · have h1 : h[a]? = some h[a] := by simp [ha]
      have h2 : (h.modify a (fun d => d.setParams f))[a]? = some (h[a].setParams f) := by
        simp [ha]
      simp only [ha, if_true, h1, h2, makeSimpleDialect, baseDialect, bind, Except.bind, pure,
        Except.pure]
      cases hv : (h[a].setParams f).validate with
      | error e => rfl
      | ok _ => simp only [h2]
    · have h1 : h[a]? = none := by simp; omega
      simp only [ha, if_false, h1]
      rfl

/-- **C17**, violated: with a format parameter the caller's `SimpleDialect` is changed. -/
theorem C17_fmtparams_violated :
    ∃ (h : DHeap) (a : Nat) (f : FmtParams),
      (makeSimpleDialectH h (.simple a) f).2 = .ok a ∧
      (makeSimpleDialectH h (.simple a) f).1[a]? ≠ h[a]? :=
  ⟨[dialectOf (some ',') none none], 0, { delimiter := some (some [';']) }, by decide, by decide⟩

/-- It is changed even if constructing the reader fails. -/
theorem C17_failed_construction_violated :
    ∃ (h : DHeap) (a : Nat) (f : FmtParams) (m : String),
      (makeSimpleDialectH h (.simple a) f).2 = .error (.valueError m) ∧
      (makeSimpleDialectH h (.simple a) f).1[a]? ≠ h[a]? :=
  ⟨[dialectOf (some ',') none none], 0, { delimiter := some (some [';', ';']) }, _, rfl, by decide⟩

/-- **C17**, the part that holds: every existing object is unchanged if the argument is not a
`SimpleDialect` or none of the four keys is given; and in any case only the argument itself can
change. -/
theorem C17_unchanged_partial (h : DHeap) (arg : DialectRef) (f : FmtParams) (i : Nat)
    (hi : i < h.length)
    (hf : arg ≠ .simple i ∨
      (f.delimiter = none ∧ f.quotechar = none ∧ f.escapechar = none ∧ f.strict = none)) :
    (makeSimpleDialectH h arg f).1[i]? = h[i]? := by
  have key : ∀ (h' : DHeap) (a : Nat), (h'.modify a (fun d => d.setParams f))[i]? = h[i]? →
      (match (h'.modify a (fun d => d.setParams f))[a]? with
        | none => ((h'.modify a (fun d => d.setParams f)),
            (Except.error (PyExc.valueError "Unknown dialect type") : Except PyExc Nat))
        | some d =>
          match d.validate with
          | .error e => (h'.modify a (fun d => d.setParams f), .error e)
          | .ok () => (h'.modify a (fun d => d.setParams f), .ok a)).1[i]? = h[i]? := by
    intro h' a hh
    split
    · exact hh
    · split <;> exact hh
  have alloc : ∀ d : Except PyExc CsvDialect, ∀ e h' a,
      (allocCsv h d = (h', .error e) → h' = h) ∧
      (allocCsv h d = (h', .ok a) → a = h.length ∧ ∃ sd, h' = h ++ [sd]) := by
    intro d e h' a
    cases d with
    | error e => simp [allocCsv]; exact fun h _ => h.symm
    | ok d =>
      simp only [allocCsv]
      cases fromCsvDialect d with
      | error e => simp; exact fun h _ => h.symm
      | ok sd => simp; exact fun h1 h2 => ⟨h2.symm, sd, h1.symm⟩
  have main : ∀ d : Except PyExc CsvDialect, baseDialectH h arg = allocCsv h d →
      (makeSimpleDialectH h arg f).1[i]? = h[i]? := by
    intro d hd
    simp only [makeSimpleDialectH, hd]
    rcases hA : allocCsv h d with ⟨h', r⟩
    cases r with
    | error e => rw [(alloc d e h' 0).1 hA]
    | ok a =>
      obtain ⟨rfl, sd, rfl⟩ := (alloc d .keyError h' a).2 hA
      apply key
      have : h.length ≠ i := by omega
      simp only [List.getElem?_modify, this, if_false, List.getElem?_append_left hi]
      simp
  cases arg with
  | name n => exact main _ rfl
  | pyInstance d => exact main (.ok d) rfl
  | cInstance d => rfl
  | pyClass d => rfl
  | other => rfl
  | simple a =>
    simp only [makeSimpleDialectH, baseDialectH]
    by_cases ha : a < h.length
    · simp only [ha, if_true]
      apply key
      rw [List.getElem?_modify]
      by_cases hai : a = i
      · subst hai
        rcases hf with hf | ⟨h1, h2, h3, h4⟩
        · simp at hf
        · have : ∀ d : SimpleDialect, d.setParams f = d := by
            intro d; simp [SimpleDialect.setParams, h1, h2, h3, h4]
          simp [this]
      · simp [hai]
    · simp only [ha, if_false]

example : (makeSimpleDialectH [dialectOf (some ',') none none] (.simple 0)
    { lineterminator := some (some ['\n']) }).1[0]? = some (dialectOf (some ',') none none) :=
  C17_unchanged_partial _ _ _ _ (by decide) (by decide)

/-! ## C18 Dialect ordering is a strict total order -/

/-- All three components are strings (not `None`). -/
def IsStr (d : SimpleDialect) : Prop :=
  d.delimiter ≠ none ∧ d.quotechar ≠ none ∧ d.escapechar ≠ none

instance (d : SimpleDialect) : Decidable (IsStr d) := inferInstanceAs (Decidable (_ ∧ _))

/-- The place of a delimiter: comma first, then semicolon, then the others. -/
def rank (s : Str) : Nat := if s = [','] then 0 else if s = [';'] then 1 else 2

/-- Specification: compare the ranks, then the four components one after the other, by code
points. -/
def SpecLt (d₁ q₁ e₁ : Str) (s₁ : Bool) (d₂ q₂ e₂ : Str) (s₂ : Bool) : Prop :=
  rank d₁ < rank d₂ ∨ (rank d₁ = rank d₂ ∧
    (CodeLt d₁ d₂ ∨ (d₁ = d₂ ∧ (CodeLt q₁ q₂ ∨ (q₁ = q₂ ∧
      (CodeLt e₁ e₂ ∨ (e₁ = e₂ ∧ s₁ = false ∧ s₂ = true)))))))

/-- **C18.**  On dialects with string components `<` never raises and is the lexicographic order by
rank, delimiter, quotechar, escapechar and strict. -/
theorem C18_lt_spec (d₁ q₁ e₁ : Str) (s₁ : Bool) (d₂ q₂ e₂ : Str) (s₂ : Bool) :
    ∃ b, SimpleDialect.lt ⟨some d₁, some q₁, some e₁, s₁⟩ ⟨some d₂, some q₂, some e₂, s₂⟩ = .ok b ∧
      (b = true ↔ SpecLt d₁ q₁ e₁ s₁ d₂ q₂ e₂ s₂) := by
  have hcs : ([','] : Str) ≠ [';'] := by decide
  have hk : ∃ b, keyLt ⟨some d₁, some q₁, some e₁, s₁⟩ ⟨some d₂, some q₂, some e₂, s₂⟩ = .ok b ∧
      (b = true ↔ (strLt d₁ d₂ = true ∨ (d₁ = d₂ ∧ (strLt q₁ q₂ = true ∨ (q₁ = q₂ ∧
      (strLt e₁ e₂ = true ∨ (e₁ = e₂ ∧ s₁ = false ∧ s₂ = true))))))) := by
    simp only [keyLt, optLt, ne_eq, Option.some.injEq]
    by_cases h1 : d₁ = d₂
    · subst h1
      by_cases h2 : q₁ = q₂
      · subst h2
        by_cases h3 : e₁ = e₂
        · subst h3
          exact ⟨_, by simp; rfl, by simp [strLt_irrefl, boolLt]⟩
        · exact ⟨strLt e₁ e₂, by simp [h3], by simp [strLt_irrefl, h3]⟩
      · exact ⟨strLt q₁ q₂, by simp [h2], by simp [strLt_irrefl, h2]⟩
    · exact ⟨strLt d₁ d₂, by simp [h1], by simp [h1]⟩
  obtain ⟨b, hb, hb'⟩ := hk
  simp only [SimpleDialect.lt, Option.some.injEq, SpecLt, rank, hb, ← strLt_iff]
  by_cases a1 : d₁ = [','] <;> by_cases b1 : d₂ = [','] <;> by_cases a2 : d₁ = [';'] <;>
    by_cases b2 : d₂ = [';'] <;> simp_all

/-- **C18.**  `<` is irreflexive, transitive and total; dialects are incomparable exactly when they
are equal. -/
theorem C18_strict_total_order :
    (∀ a, IsStr a → a.lt a = .ok false) ∧
    (∀ a b c, IsStr a → IsStr b → IsStr c → a.lt b = .ok true → b.lt c = .ok true →
      a.lt c = .ok true) ∧
    (∀ a b, IsStr a → IsStr b →
      (a.lt b = .ok true ∧ b.lt a = .ok false ∧ a.eq b = false) ∨
      (a.lt b = .ok false ∧ b.lt a = .ok true ∧ a.eq b = false) ∨
      (a.lt b = .ok false ∧ b.lt a = .ok false ∧ a.eq b = true)) := by
  have rep : ∀ a : SimpleDialect, IsStr a → ∃ d q e s, a = ⟨some d, some q, some e, s⟩ := by
    rintro ⟨d, q, e, s⟩ ⟨h1, h2, h3⟩
    simp only [ne_eq] at h1 h2 h3
    obtain ⟨d, rfl⟩ := Option.ne_none_iff_exists'.1 h1
    obtain ⟨q, rfl⟩ := Option.ne_none_iff_exists'.1 h2
    obtain ⟨e, rfl⟩ := Option.ne_none_iff_exists'.1 h3
    exact ⟨d, q, e, s, rfl⟩
  have lt_iff : ∀ d₁ q₁ e₁ s₁ d₂ q₂ e₂ s₂,
      (SimpleDialect.lt ⟨some d₁, some q₁, some e₁, s₁⟩ ⟨some d₂, some q₂, some e₂, s₂⟩ = .ok true ↔
        SpecLt d₁ q₁ e₁ s₁ d₂ q₂ e₂ s₂) ∧
      (SimpleDialect.lt ⟨some d₁, some q₁, some e₁, s₁⟩ ⟨some d₂, some q₂, some e₂, s₂⟩ = .ok false ↔
        ¬ SpecLt d₁ q₁ e₁ s₁ d₂ q₂ e₂ s₂) := by
    intro d₁ q₁ e₁ s₁ d₂ q₂ e₂ s₂
    obtain ⟨b, h1, h2⟩ := C18_lt_spec d₁ q₁ e₁ s₁ d₂ q₂ e₂ s₂
    rw [h1]
    cases b <;> simp_all
  refine ⟨?_, ?_, ?_⟩
  · intro a ha
    obtain ⟨d, q, e, s, rfl⟩ := rep a ha
    rw [(lt_iff _ _ _ _ _ _ _ _).2]
    simp [SpecLt, ← strLt_iff, strLt_irrefl]
  · intro a b c ha hb hc h1 h2
    obtain ⟨d₁, q₁, e₁, s₁, rfl⟩ := rep a ha
    obtain ⟨d₂, q₂, e₂, s₂, rfl⟩ := rep b hb
    obtain ⟨d₃, q₃, e₃, s₃, rfl⟩ := rep c hc
    rw [(lt_iff _ _ _ _ _ _ _ _).1] at h1 h2 ⊢
    have td := strLt_trans d₁ d₂ d₃
    have tq := strLt_trans q₁ q₂ q₃
    have te := strLt_trans e₁ e₂ e₃
    simp only [SpecLt, ← strLt_iff] at *
    grind
  · intro a b ha hb
    obtain ⟨d₁, q₁, e₁, s₁, rfl⟩ := rep a ha
    obtain ⟨d₂, q₂, e₂, s₂, rfl⟩ := rep b hb
    simp only [(lt_iff _ _ _ _ _ _ _ _).1, (lt_iff _ _ _ _ _ _ _ _).2]
    have heq : SimpleDialect.eq ⟨some d₁, some q₁, some e₁, s₁⟩ ⟨some d₂, some q₂, some e₂, s₂⟩ =
        decide (d₁ = d₂ ∧ q₁ = q₂ ∧ e₁ = e₂ ∧ s₁ = s₂) := by
      simp [SimpleDialect.eq]
    rw [heq]
    have td := strLt_total d₁ d₂
    have tq := strLt_total q₁ q₂
    have te := strLt_total e₁ e₂
    have ad : ¬ (strLt d₁ d₂ = true ∧ strLt d₂ d₁ = true) := fun h => by
      have := strLt_trans _ _ _ h.1 h.2; simp [strLt_irrefl] at this
    have aq : ¬ (strLt q₁ q₂ = true ∧ strLt q₂ q₁ = true) := fun h => by
      have := strLt_trans _ _ _ h.1 h.2; simp [strLt_irrefl] at this
    have ae : ¬ (strLt e₁ e₂ = true ∧ strLt e₂ e₁ = true) := fun h => by
      have := strLt_trans _ _ _ h.1 h.2; simp [strLt_irrefl] at this
    have id := strLt_irrefl d₁
    have iq := strLt_irrefl q₁
    have ie := strLt_irrefl e₁
    simp only [decide_eq_false_iff_not, decide_eq_true_eq]
    simp only [SpecLt, ← strLt_iff]
    cases s₁ <;> cases s₂ <;> grind

/-- Comma dialects come first, then semicolon dialects. -/
theorem C18_comma_then_semicolon (a b : SimpleDialect) :
    (a.delimiter = some [','] → b.delimiter ≠ some [','] → a.lt b = .ok true) ∧
    (a.delimiter = some [';'] → b.delimiter ≠ some [','] → b.delimiter ≠ some [';'] →
      a.lt b = .ok true) := by
  refine ⟨fun h1 h2 => by simp [SimpleDialect.lt, h1, h2], fun h1 h2 h3 => ?_⟩
  simp [SimpleDialect.lt, h1, h2, h3]

/-- The derived comparisons agree with `<` and `==`. -/
theorem C18_derived_operators (a b : SimpleDialect) (ha : IsStr a) (hb : IsStr b) :
    (a.le b = .ok true ↔ a.lt b = .ok true ∨ a.eq b = true) ∧
    (a.gt b = b.lt a) ∧ (a.ge b = b.le a) := by
  have := C18_strict_total_order.2.2 a b ha hb
  have hsymm : b.eq a = a.eq b := by
    simp only [SimpleDialect.eq, decide_eq_decide]
    exact ⟨Eq.symm, Eq.symm⟩
  rcases this with ⟨h1, h2, h3⟩ | ⟨h1, h2, h3⟩ | ⟨h1, h2, h3⟩ <;>
    simp [SimpleDialect.le, SimpleDialect.gt, SimpleDialect.ge, h1, h2, h3, hsymm, bind,
      Except.bind, pure, Except.pure]

example : SimpleDialect.lt (dialectOf (some ';') (some '"') none) (dialectOf (some '\t') none none) =
    .ok true := by decide

example : SimpleDialect.lt (dialectOf (some ';') none none) (dialectOf (some ';') (some '"') none) =
    .ok true := by decide

/-- A case: `@` comes before `~`, and `,` before everything. -/
example : (dialectOf (some '@') none none).lt (dialectOf (some '~') none none) = .ok true ∧
    (dialectOf (some '~') none none).lt (dialectOf (some ',') none none) = .ok false := by decide

/-! ## C19 Dialect serialization round trip -/

/-- **C19.**  A dialect is valid or `serialize` raises `ValueError`; if it is valid,
deserializing what was serialized gives the dialect back. -/
theorem C19_serialize_round_trip (env : PyEnv) (hn : env.jsonDepth ≠ 0) (d : SimpleDialect) :
    (d.validate = .ok () ∧ ∃ s, d.serialize = .ok s ∧ deserialize env s = .ok d) ∨
    ((∃ m, d.validate = .error (.valueError m)) ∧ ∃ m, d.serialize = .error (.valueError m)) := by
  have hv : d.validate = .ok () ∨ ∃ m, d.validate = .error (.valueError m) := by
    simp only [SimpleDialect.validate]
    repeat' split
    all_goals simp
  rcases hv with hv | ⟨m, hm⟩
  · refine Or.inl ⟨hv, _, by
      simp only [SimpleDialect.serialize, SimpleDialect.toDict, hv, bind, Except.bind, pure,
        Except.pure]; rfl, ?_⟩
    have hf : ∀ x, (jOpt x).flat = true := by intro x; cases x <;> rfl
    rw [deserialize, loads_dumps env hn _ _ (by simp [hf, flat_bool])]
    simp only
    obtain ⟨dl, q, e, s⟩ := d
    have h1 : ∀ x, ofJOpt (jOpt x) = .ok x := by intro x; cases x <;> rfl
    have e1 : fromDict [("delimiter".toList, jOpt dl), ("quotechar".toList, jOpt q),
        ("escapechar".toList, jOpt e), ("strict".toList, JVal.bool s)] =
        (do return ⟨← ofJOpt (jOpt dl), ← ofJOpt (jOpt q), ← ofJOpt (jOpt e), s⟩) := rfl
    rw [e1]
    simp only [h1, bind, Except.bind, pure, Except.pure]
  · exact Or.inr ⟨⟨m, hm⟩, m, by
      simp only [SimpleDialect.serialize, SimpleDialect.toDict, hm, bind, Except.bind]⟩

/-- A dialect is valid exactly if each component is a string of at most one character. -/
theorem C19_valid_iff (d : SimpleDialect) :
    d.validate = .ok () ↔
      ∃ a b c : Option Char, d = ⟨some a.toList, some b.toList, some c.toList, d.strict⟩ := by
  have h : ∀ x : Option Str, validPart x = true ↔ ∃ a : Option Char, x = some a.toList := by
    intro x
    match x with
    | none => simp [validPart]
    | some [] => exact ⟨fun _ => ⟨none, rfl⟩, fun _ => rfl⟩
    | some [c] => exact ⟨fun _ => ⟨some c, rfl⟩, fun _ => rfl⟩
    | some (a :: b :: c) =>
      simp [validPart]
      intro x
      cases x <;> simp
  obtain ⟨dl, q, e, s⟩ := d
  simp only [SimpleDialect.validate, SimpleDialect.mk.injEq, and_true]
  constructor
  · intro hh
    split at hh
    · simp at hh
    split at hh
    · simp at hh
    split at hh
    · simp at hh
    rename_i h1 h2 h3
    simp only [Bool.not_eq_true, Bool.not_eq_false] at h1 h2 h3
    obtain ⟨a, ha⟩ := (h dl).1 (by simpa using h1)
    obtain ⟨b, hb⟩ := (h q).1 (by simpa using h2)
    obtain ⟨c, hc⟩ := (h e).1 (by simpa using h3)
    exact ⟨a, b, c, ha, hb, hc⟩
  · rintro ⟨a, b, c, rfl, rfl, rfl⟩
    have h1 := (h (some a.toList)).2 ⟨a, rfl⟩
    have h2 := (h (some b.toList)).2 ⟨b, rfl⟩
    have h3 := (h (some c.toList)).2 ⟨c, rfl⟩
    simp [h1, h2, h3]

/-- Cases with a quote, a backslash, a control character and a character outside the BMP. -/
example : encodeStr ['"'] = "\"\\\"\"".toList ∧ encodeStr ['\\'] = "\"\\\\\"".toList ∧
    encodeStr ['\x1f'] = "\"\\u001f\"".toList ∧ encodeStr ['😀'] = "\"\\ud83d\\ude00\"".toList := by
  decide

example : ∃ s, (dialectOf (some '"') (some '\\') (some '😀')).serialize = .ok s ∧
    deserialize asciiEnv s = .ok (dialectOf (some '"') (some '\\') (some '😀')) := by
  rcases C19_serialize_round_trip asciiEnv (by decide) (dialectOf (some '"') (some '\\') (some '😀')) with h | ⟨⟨m, h⟩, _⟩
  · exact h.2
  · simp [validate_dialectOf] at h

example : ∃ m, (⟨some ['a', 'b'], some [], some [], false⟩ : SimpleDialect).serialize =
    .error (.valueError m) := ⟨_, rfl⟩

/-! ## C20 Conversion to a csv dialect and back -/

/-- **C20**, violated: the conversion back raises `AttributeError` for every dialect. -/
theorem C20_conversion_violated (d : SimpleDialect) (hd : d.validate = .ok ()) :
    ∃ c, d.toCsvDialect = .ok c ∧ fromCsvDialect c = .error (.attributeError "strict") := by
  obtain ⟨a, b, c, h⟩ := (C19_valid_iff d).1 hd
  rw [h]
  exact ⟨_, rfl, rfl⟩

/-- **C20**, the part that holds: the three characters survive, i.e. the conversion back would give
an equal dialect if the csv dialect had the attribute `strict`. -/
theorem C20_conversion_partial (d : SimpleDialect) (hd : d.validate = .ok ()) :
    ∃ c, d.toCsvDialect = .ok c ∧ fromCsvDialect { c with strict := some d.strict } = .ok d := by
  obtain ⟨a, b, c, h⟩ := (C19_valid_iff d).1 hd
  rw [h]
  cases a <;> cases b <;> cases c <;> exact ⟨_, rfl, rfl⟩

/-- The same for the conversion of a `_csv.Dialect` and back: delimiter, quotechar, escapechar and
whether quotes are used survive. -/
theorem C20_from_to_partial (c : CsvDialect) (d : SimpleDialect) (h : fromCsvDialect c = .ok d)
    (dl q : Char) (hd : c.delimiter = some [dl]) (hq : c.quotechar = some [q])
    (he : ∀ s, c.escapechar = some s → s ≠ []) :
    ∃ c', d.toCsvDialect = .ok c' ∧ c'.delimiter = c.delimiter ∧ c'.escapechar = c.escapechar ∧
      (c'.quoting = .none ↔ c.quoting = .none) ∧
      (c.quoting ≠ .none → c'.quotechar = c.quotechar) := by
  obtain ⟨cd, cq, ce, c4, c5, c6, c7, c8⟩ := c
  simp only at hd hq he
  subst hd hq
  cases c8 with
  | none => simp [fromCsvDialect] at h
  | some st =>
    simp only [fromCsvDialect, Except.ok.injEq] at h
    subst h
    refine ⟨_, if_neg (by simp), rfl, ?_, ?_, ?_⟩
    · cases ce with
      | none => rfl
      | some s => simp [he s rfl]
    · by_cases h7 : c7 = .none <;> simp [h7]
    · intro h7; simp [h7]

example : ∃ c, (dialectOf (some ';') none (some '\\')).toCsvDialect = .ok c ∧
    fromCsvDialect c = .error (.attributeError "strict") :=
  C20_conversion_violated _ (by decide)

/-! ## C59 field_size_limit is a well-behaved setting -/

/-- The value set by a history of calls: that of the last call with exactly one integer. -/
def lastSet (cur : Int) : List (List LimitArg) → Int
  | [] => cur
  | [.int n] :: as => lastSet n as
  | _ :: as => lastSet cur as

/-- **C59.**  After any history the limit is the value set last, initially 131072, and the result
of a further call is: the current value, if it has no argument (nothing changes); the previous
value, if it has one integer; otherwise `TypeError` (and nothing changes). -/
theorem C59_field_size_limit (calls : List (List LimitArg)) :
    (fieldSizeLimitRun initialLimit calls).1 = lastSet 131072 calls ∧
    (let cur := lastSet 131072 calls
     fieldSizeLimit cur [] = (cur, .ok cur) ∧
     (∀ n, fieldSizeLimit cur [.int n] = (n, .ok cur)) ∧
     (∃ m, fieldSizeLimit cur [.other] = (cur, .error (.typeError m))) ∧
     (∀ a b l, ∃ m, fieldSizeLimit cur (a :: b :: l) = (cur, .error (.typeError m)))) := by
  have h : ∀ cur, (fieldSizeLimitRun cur calls).1 = lastSet cur calls := by
    induction calls with
    | nil => intro cur; rfl
    | cons a as ih =>
      intro cur
      simp only [fieldSizeLimitRun, ih]
      match a with
      | [] => rfl
      | [.int n] => rfl
      | [.other] => rfl
      | a :: b :: l => cases a <;> rfl
  refine ⟨h _, rfl, fun _ => rfl, ⟨_, rfl⟩, fun a b l =>
    ⟨"field_size_limit expected at most 1 arguments", by cases a <;> rfl⟩⟩

/-- The results of a history: each call returns the value set last before it (or raises). -/
theorem C59_history (cur : Int) (before after : List (List LimitArg)) (a : List LimitArg) :
    (fieldSizeLimitRun cur (before ++ a :: after)).2[before.length]? =
      some (fieldSizeLimit (lastSet cur before) a).2 := by
  induction before generalizing cur with
  | nil => simp [fieldSizeLimitRun, lastSet]
  | cons b bs ih =>
    simp only [List.cons_append, fieldSizeLimitRun, List.length_cons, List.getElem?_cons_succ, ih]
    match b with
    | [] => rfl
    | [.int n] => rfl
    | [.other] => rfl
    | b :: c :: l => cases b <;> rfl

example : (fieldSizeLimitRun initialLimit [[], [.int 5], [.other], [.int 1, .int 2], []]).2 =
    [.ok 131072, .ok 131072, .error (.typeError "limit must be an integer"),
     .error (.typeError "field_size_limit expected at most 1 arguments"), .ok 5] := by decide

end Clever.Props
