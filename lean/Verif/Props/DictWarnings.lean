import Verif.Proofs.DictWarnings
import Verif.Props.Dicts
import Mathlib.Data.List.Perm.Subperm

/-!
# Property C130: `DictReader` warns when columns are dropped
-/

namespace Clever

namespace Spec

/-- The columns of a row under field names: the `i`-th name with the `i`-th cell, or with `restval` if there is no cell; and
`restkey` with the surplus cells if there are any. -/
structure IsColumns (names : List Key) (restkey : Key) (row : List Str) (cols : List (Key × DVal)) : Prop where
  keys : cols.map Prod.fst = names ++ if names.length < row.length then [restkey] else []
  cell : ∀ i (h : i < names.length) (hr : i < row.length), cols[i]? = some (names[i], .cell row[i])
  missing : ∀ i (h : i < names.length), row.length ≤ i → cols[i]? = some (names[i], .restval)
  surplus : names.length < row.length → cols[names.length]? = some (restkey, .rest (row.drop names.length))

/-- A dictionary of columns: no key twice, and every key with the value of its last column. -/
structure IsLastOf (cols d : List (Key × DVal)) : Prop where
  nodup : (d.map Prod.fst).Nodup
  last : ∀ k v, (k, v) ∈ d ↔ ∃ pre post, cols = pre ++ (k, v) :: post ∧ k ∉ post.map Prod.fst

end Spec

namespace Props

/-! ## The dictionary of any row -/

theorem mem_iff_dictGet {K V : Type} [DecidableEq K] {d : List (K × V)} (h : (d.map Prod.fst).Nodup) (k : K) (v : V) :
    (k, v) ∈ d ↔ dictGet k d = some v := by
  induction d with
  | nil => simp [dictGet]
  | cons p d ih =>
    obtain ⟨k', v'⟩ := p
    rw [List.map_cons, List.nodup_cons] at h
    rw [List.mem_cons, dictGet]
    by_cases hk : k' = k
    · subst hk
      rw [if_pos rfl, Option.some.injEq]
      constructor
      · rintro (e | e)
        · exact (Prod.mk.inj e).2.symm
        · exact absurd (List.mem_map.2 ⟨_, e, rfl⟩) h.1
      · rintro rfl
        exact .inl rfl
    · rw [if_neg hk, ← ih h.2]
      constructor
      · rintro (e | e)
        · exact absurd (Prod.mk.inj e).1.symm hk
        · exact e
      · exact .inr

theorem dictOf_last (cols : List (Key × DVal)) : Spec.IsLastOf cols (dictOf cols) := by
  refine ⟨dictOf_keys_nodup cols, ?_⟩
  intro k v
  rw [mem_iff_dictGet (dictOf_keys_nodup cols), dictGet_dictOf]
  constructor
  · intro h
    rw [Option.map_eq_some_iff] at h
    obtain ⟨⟨k', v'⟩, h, rfl⟩ := h
    rw [List.find?_eq_some_iff_append] at h
    obtain ⟨hk, as, bs, he, hall⟩ := h
    have hk' : k' = k := by simpa using hk
    subst hk'
    refine ⟨bs.reverse, as.reverse, ?_, ?_⟩
    · have := congrArg List.reverse he
      simpa using this
    · intro hm
      simp only [List.mem_map, List.mem_reverse] at hm
      obtain ⟨p, hp, he⟩ := hm
      have := hall p hp
      simp [he] at this
  · rintro ⟨pre, post, rfl, hp⟩
    have h1 : post.reverse.find? (fun p => decide (p.1 = k)) = none := by
      rw [List.find?_eq_none]
      intro p hm he
      exact hp (List.mem_map.2 ⟨p, List.mem_reverse.1 hm, by simpa using he⟩)
    have h2 : (pre ++ (k, v) :: post).reverse = post.reverse ++ ((k, v) :: pre.reverse) := by simp
    rw [h2, List.find?_append, h1]
    simp

theorem columns_exist (names : List Key) (restkey : Key) (row : List Str) :
    Spec.IsColumns names restkey row (names.zip (row.map .cell) ++
      (if names.length < row.length then [(restkey, .rest (row.drop names.length))]
        else (names.drop row.length).map (·, DVal.restval))) := by
  constructor
  · rw [List.map_append, zip_fst_sublist, List.length_map]
    by_cases h : names.length < row.length
    · rw [if_pos h, if_pos h, List.take_of_length_le (by omega)]
      rfl
    · rw [if_neg h, if_neg h, List.map_map, List.append_nil,
        show (Prod.fst ∘ fun x : Key => (x, DVal.restval)) = id from rfl, List.map_id, List.take_append_drop]
  · intro i h hr
    rw [List.getElem?_append_left (by simp; omega), List.getElem?_eq_getElem (by simp; omega)]
    simp
  · intro i h hr
    rw [if_neg (by omega), List.getElem?_append_right (by simp; omega), List.getElem?_map, List.getElem?_drop]
    have : row.length + (i - (names.zip (row.map DVal.cell)).length) = i := by simp; omega
    rw [this, List.getElem?_eq_getElem h]
    rfl
  · intro h
    rw [if_pos h, List.getElem?_append_right (by simp; omega)]
    have : names.length - (names.zip (row.map DVal.cell)).length = 0 := by simp; omega
    rw [this]
    rfl

theorem last_column {k : Key} : ∀ {cols : List (Key × DVal)}, k ∈ cols.map Prod.fst →
    ∃ v pre post, cols = pre ++ (k, v) :: post ∧ k ∉ post.map Prod.fst
  | [], h => by simp at h
  | (k', v) :: cols, h => by
    by_cases hk : k ∈ cols.map Prod.fst
    · obtain ⟨w, pre, post, he, hp⟩ := last_column hk
      exact ⟨w, (k', v) :: pre, post, by rw [he]; rfl, hp⟩
    · rw [List.map_cons, List.mem_cons] at h
      obtain rfl : k = k' := h.resolve_right hk
      exact ⟨v, [], cols, rfl, hk⟩

/-- A dictionary of columns has fewer items than there are columns just if a key is repeated. -/
theorem dropped_iff {cols d : List (Key × DVal)} (h : Spec.IsLastOf cols d) :
    d.length < cols.length ↔ ¬ (cols.map Prod.fst).Nodup := by
  have hkeys : ∀ k, k ∈ d.map Prod.fst ↔ k ∈ (cols.map Prod.fst).dedup := by
    intro k
    rw [List.mem_dedup]
    constructor
    · intro hm
      obtain ⟨⟨k', v⟩, hm', rfl⟩ := List.mem_map.1 hm
      obtain ⟨pre, post, rfl, -⟩ := (h.last _ _).1 hm'
      simp
    · intro hm
      obtain ⟨v, pre, post, he, hp⟩ := last_column hm
      exact List.mem_map.2 ⟨(k, v), (h.last k v).2 ⟨pre, post, he, hp⟩, rfl⟩
  have hlen := ((List.perm_ext_iff_of_nodup h.nodup (List.nodup_dedup _)).2 hkeys).length_eq
  rw [← dedup_length_iff]
  have hle := (List.dedup_sublist (cols.map Prod.fst)).length_le
  rw [List.length_map] at hlen hle ⊢
  omega

/-- **C46, exactly.**  For any field names, also repeated ones, and any `restkey`: one dictionary per row that is not empty, of the
columns of the row, in which every key has the value of its last column. -/
theorem C46_exact (source : Source) (arg : DialectArg) (f : FmtParams) (fieldnames : Option (List Key)) (restkey : Key)
    (limit : Int) (rd : Reader) (hrd : mkReader source arg f = .ok rd) (rows : List (List Str)) (err : Option PyExc)
    (hall : rd.readAll limit = (rows, err)) :
    ∃ r dicts, mkDictReader source arg fieldnames restkey f = .ok r ∧ r.readAll limit = (dicts, err) ∧
      match fieldnames, rows with
      | none, [] => dicts = []
      | none, header :: rows =>
        List.Forall₂ (fun row d => ∃ cols, Spec.IsColumns (header.map some) restkey row cols ∧ Spec.IsLastOf cols d)
          (rows.filter (· ≠ [])) dicts
      | some names, rows =>
        List.Forall₂ (fun row d => ∃ cols, Spec.IsColumns names restkey row cols ∧ Spec.IsLastOf cols d)
          (rows.filter (· ≠ [])) dicts := by
  have main : ∀ (names : List Key) (rows : List (List Str)),
      List.Forall₂ (fun row d => ∃ cols, Spec.IsColumns names restkey row cols ∧ Spec.IsLastOf cols d)
        rows (rows.map (rowDict names restkey)) := by
    intro names rows
    rw [List.forall₂_map_right_iff, List.forall₂_same]
    exact fun row _ => ⟨_, columns_exist names restkey row, rowDict_dictOf names restkey row ▸ dictOf_last _⟩
  obtain ⟨r, h1, h2⟩ := C46_rows_partial source arg f fieldnames restkey limit rd hrd
  have h3 := h2 _ _ hall
  cases fieldnames with
  | some names => exact ⟨r, _, h1, h3, main _ _⟩
  | none =>
    cases rows with
    | nil => exact ⟨r, _, h1, h3, rfl⟩
    | cons header rows => exact ⟨r, _, h1, h3, main _ _⟩

/-! ## C130 -/

/-- **C130 (the rows are those of the model without warnings).** -/
theorem C130_same (limit : Int) (r : DictReader) :
    (nextW false limit r).2.1 = (r.next limit).1 ∧
      (nextW false limit r).1 = match (r.next limit).2 with
        | .ok d => .ok d
        | .error e => .error (.exc e) := by
  rw [nextW_eq, next_eq, firstNamesW_eq, namesAtStart]
  have tail : ∀ (r1 : DictReader) (n : Nat),
      let x : Except Raised (List (Key × DVal)) × DictReader × Nat :=
        match bodyRow r1 limit with
        | (r', .error e) => (.error (.exc e), r', n)
        | (r', .ok row) =>
          ((rowDictW false limit row r').1, (rowDictW false limit row r').2.1, n + (rowDictW false limit row r').2.2)
      let y : DictReader × Except PyExc (List (Key × DVal)) :=
        match bodyRow r1 limit with
        | (r, .error e) => (r, .error e)
        | (r, .ok row) =>
          match r.getFieldnames limit with
          | (r, .error e) => (r, .error e)
          | (r, .ok none) => (r, .error (.typeError "'NoneType' object is not iterable"))
          | (r, .ok (some f)) => (r, .ok (rowDict f r.restkey row))
      x.2.1 = y.1 ∧ x.1 = match y.2 with
        | .ok d => .ok d
        | .error e => .error (.exc e) := by
    intro r1 n
    rcases bodyRow r1 limit with ⟨r2, e | row⟩
    · exact ⟨rfl, rfl⟩
    · simp only [rowDictW_eq]
      rcases r2.getFieldnames limit with ⟨r3, e | o⟩
      · exact ⟨rfl, rfl⟩
      · cases o with
        | none => exact ⟨rfl, rfl⟩
        | some f => by_cases hn : f.Nodup <;> simp [hn]
  by_cases h0 : r.lineNum = 0
  · simp only [h0, if_true]
    rcases r.getFieldnames limit with ⟨r1, e | o⟩
    · exact ⟨rfl, rfl⟩
    · cases o with
      | none => exact tail r1 0
      | some f =>
        by_cases hn : f.Nodup
        · simp only [hn, if_true]
          exact tail r1 0
        · simp only [hn, if_false, Bool.false_eq_true]
          exact tail r1 1
  · simp only [h0, if_false]
    exact tail r 0

theorem nextW_ok {limit : Int} {r r' : DictReader} {d : List (Key × DVal)} {n : Nat}
    (h : nextW false limit r = (.ok d, r', n)) :
    ∃ f row, r'.fieldnames = some f ∧ d = rowDict f r.restkey row ∧ (f.Nodup → n = 0) ∧ (¬ f.Nodup → 2 ≤ n ∧ n ≤ 4) := by
  rw [nextW_eq] at h
  have tail : ∀ (r1 : DictReader) (m : Nat), r1.restkey = r.restkey →
      (∀ f, r1.fieldnames = some f → f.Nodup → m = 0) → (r1.fieldnames = none → m = 0) → m ≤ 1 →
      (match bodyRow r1 limit with
        | (r', .error e) => (.error (.exc e), r', m)
        | (r', .ok row) =>
          ((rowDictW false limit row r').1, (rowDictW false limit row r').2.1, m + (rowDictW false limit row r').2.2)) =
        (.ok d, r', n) →
      ∃ f row, r'.fieldnames = some f ∧ d = rowDict f r.restkey row ∧ (f.Nodup → n = 0) ∧
        (¬ f.Nodup → 2 ≤ n ∧ n ≤ 4) := by
    intro r1 m hr hm hm' hm1 h
    have hk := bodyRow_keeps r1 limit
    generalize bodyRow r1 limit = b at h hk
    obtain ⟨r2, e | row⟩ := b
    · simp at h
    · simp only [rowDictW_eq] at h hk
      rcases hg : r2.getFieldnames limit with ⟨r3, e | o⟩
      · rw [hg] at h
        simp at h
      · rw [hg] at h
        cases o with
        | none => simp at h
        | some f =>
          obtain ⟨g1, -, g2, -⟩ := getFieldnames_known hg
          have hm2 : f.Nodup → m = 0 := by
            intro hn
            cases hf : r1.fieldnames with
            | none => exact hm' hf
            | some g =>
              have : r2.fieldnames = some g := hk.1.trans hf
              rw [getFieldnames_of_some this] at hg
              simp only [Prod.mk.injEq, Except.ok.injEq, Option.some.injEq] at hg
              exact hm g hf (hg.2 ▸ hn)
          refine ⟨f, row, ?_⟩
          by_cases hn : f.Nodup
          · simp only [hn, if_true, Prod.mk.injEq, Except.ok.injEq] at h
            obtain ⟨rfl, rfl, rfl⟩ := h
            refine ⟨g1, by rw [g2, hk.2, hr], fun _ => by simp [hm2 hn], fun h => absurd hn h⟩
          · simp only [hn, if_false, Bool.false_eq_true, Prod.mk.injEq, Except.ok.injEq] at h
            obtain ⟨rfl, rfl, rfl⟩ := h
            refine ⟨g1, by rw [g2, hk.2, hr], fun h => absurd h hn, fun _ => by split <;> omega⟩
  rw [firstNamesW_eq] at h
  by_cases h0 : r.lineNum = 0
  · simp only [h0, if_true] at h
    rcases hg : r.getFieldnames limit with ⟨r1, e | o⟩
    · rw [hg] at h
      simp at h
    · have hr := getFieldnames_restkey (limit := limit) r
      rw [hg] at h hr
      cases o with
      | none => exact tail r1 0 hr (fun _ _ _ => rfl) (fun _ => rfl) (by omega) h
      | some f =>
        obtain ⟨g1, -, -, -⟩ := getFieldnames_known hg
        by_cases hn : f.Nodup
        · simp only [hn, if_true] at h
          exact tail r1 0 hr (fun _ _ _ => rfl) (fun _ => rfl) (by omega) h
        · simp only [hn, if_false, Bool.false_eq_true] at h
          refine tail r1 1 hr ?_ (fun e => by rw [g1] at e; cases e) (by omega) h
          intro g hg' hn'
          rw [g1] at hg'
          exact absurd (Option.some.inj hg' ▸ hn') hn
  · simp only [h0, if_false] at h
    exact tail r 0 rfl (fun _ _ _ => rfl) (fun _ => rfl) (by omega) h

/-- **C130 (announced).**  A call of `next` that returns a dictionary warns, at least twice and at most four times, just if the
field names are not distinct; and the dictionary has fewer items than there are columns just if there was a warning or the row
is longer than the names and `restkey` is one of them.  The value of a key is always that of its last column. -/
theorem C130_announced {limit : Int} {r r' : DictReader} {d : List (Key × DVal)} {n : Nat}
    (h : nextW false limit r = (.ok d, r', n)) :
    ∃ names row cols, r'.fieldnames = some names ∧ Spec.IsColumns names r.restkey row cols ∧ Spec.IsLastOf cols d ∧
      (0 < n ↔ ¬ names.Nodup) ∧ (0 < n → 2 ≤ n ∧ n ≤ 4) ∧
      (d.length < cols.length ↔ 0 < n ∨ (names.length < row.length ∧ r.restkey ∈ names)) := by
  obtain ⟨f, row, h1, h2, h3, h4⟩ := nextW_ok h
  have hc := columns_exist f r.restkey row
  have hl := rowDict_dictOf f r.restkey row ▸ dictOf_last _
  have hn : 0 < n ↔ ¬ f.Nodup := by
    constructor
    · intro h5 h6
      have := h3 h6
      omega
    · intro h5
      have := h4 h5
      omega
  refine ⟨f, row, _, h1, hc, h2 ▸ hl, hn, fun h5 => h4 (hn.1 h5), ?_⟩
  rw [h2, dropped_iff hl, hc.keys, hn]
  by_cases hlt : f.length < row.length
  · rw [if_pos hlt, List.nodup_append]
    simp only [List.nodup_cons, List.not_mem_nil, not_false_eq_true, List.nodup_nil, and_self, true_and, hlt]
    constructor
    · intro h
      by_cases hf : f.Nodup
      · right
        by_contra hm
        exact h ⟨hf, fun a ha b hb he => hm (List.mem_singleton.1 hb ▸ he ▸ ha)⟩
      · exact .inl hf
    · rintro (h | h) ⟨h5, h6⟩
      · exact h h5
      · exact h6 _ h _ (by simp) rfl
  · rw [if_neg hlt, List.append_nil]
    simp [hlt]

/-- **C130 (complete).**  Without a warning, and unless `restkey` is one of the names, the dictionary is the complete row. -/
theorem C130_complete_partial {limit : Int} {r r' : DictReader} {d : List (Key × DVal)}
    (h : nextW false limit r = (.ok d, r', 0)) :
    ∃ names row, r'.fieldnames = some names ∧ (r.restkey ∉ names → Spec.IsDictOf names r.restkey row d) := by
  obtain ⟨f, row, h1, h2, h3, h4⟩ := nextW_ok h
  refine ⟨f, row, h1, fun hr => ?_⟩
  by_cases hn : f.Nodup
  · exact h2 ▸ C46_cells_partial f r.restkey hn hr row
  · have := h4 hn
    omega

/-- **C130 (warnings as errors).**  With `warnings.simplefilter("error")` a call does the same as without if that does not warn,
and raises the warning if that warns. -/
theorem C130_error_mode (limit : Int) (r : DictReader) :
    ((nextW false limit r).2.2 = 0 → nextW true limit r = nextW false limit r) ∧
      (0 < (nextW false limit r).2.2 → (nextW true limit r).1 = .error .userWarning ∧ (nextW true limit r).2.2 = 1) := by
  have tail : ∀ (r1 : DictReader),
      let x (a : Bool) : Except Raised (List (Key × DVal)) × DictReader × Nat :=
        match bodyRow r1 limit with
        | (r', .error e) => (.error (.exc e), r', 0)
        | (r', .ok row) =>
          ((rowDictW a limit row r').1, (rowDictW a limit row r').2.1, 0 + (rowDictW a limit row r').2.2)
      ((x false).2.2 = 0 → x true = x false) ∧
        (0 < (x false).2.2 → (x true).1 = .error .userWarning ∧ (x true).2.2 = 1) := by
    intro r1
    rcases bodyRow r1 limit with ⟨r2, e | row⟩
    · exact ⟨fun _ => rfl, fun h => absurd h (Nat.lt_irrefl 0)⟩
    · simp only [rowDictW_eq]
      rcases r2.getFieldnames limit with ⟨r3, e | o⟩
      · exact ⟨fun _ => rfl, fun h => absurd h (Nat.lt_irrefl 0)⟩
      · cases o with
        | none => exact ⟨fun _ => rfl, fun h => absurd h (Nat.lt_irrefl 0)⟩
        | some f =>
          by_cases hn : f.Nodup
          · simp [hn]
          · simp [hn]
            split <;> omega
  simp only [nextW_eq, firstNamesW_eq]
  by_cases h0 : r.lineNum = 0
  · simp only [h0, if_true]
    rcases r.getFieldnames limit with ⟨r1, e | o⟩
    · exact ⟨fun _ => rfl, fun h => absurd h (Nat.lt_irrefl 0)⟩
    · cases o with
      | none => exact tail r1
      | some f =>
        by_cases hn : f.Nodup
        · simp only [hn, if_true]
          exact tail r1
        · simp only [hn, if_false, Bool.false_eq_true, if_true]
          refine ⟨fun h => ?_, fun _ => ⟨trivial, trivial⟩⟩
          exfalso
          revert h
          rcases bodyRow r1 limit with ⟨r2, e | row⟩
          · simp
          · simp only
            omega
  · simp only [h0, if_false]
    exact tail r

/-- **C130 (warnings as errors, again and again).**  On a new `DictReader` whose names are repeated the first call reads the
header, if it has to, and raises; every later call raises too and reads nothing: no dictionary is ever returned. -/
theorem C130_error_stuck {limit : Int} {r r1 : DictReader} {names : List Key} (h0 : r.lineNum = 0)
    (hg : r.getFieldnames limit = (r1, .ok (some names))) (hn : ¬ names.Nodup) :
    nextW true limit r = (.error .userWarning, { r1 with lineNum := 0 }, 1) ∧
      nextW true limit { r1 with lineNum := 0 } = (.error .userWarning, { r1 with lineNum := 0 }, 1) := by
  obtain ⟨g1, -, -, -⟩ := getFieldnames_known hg
  constructor
  · rw [nextW_eq, firstNamesW_eq, if_pos h0, hg]
    simp [hn, h0]
  · rw [nextW_eq, firstNamesW_eq, if_pos rfl,
      getFieldnames_of_some (r := { r1 with lineNum := 0 }) (f := names) g1]
    simp [hn]

/-! ## Whole iterations -/

theorem nextW_known {limit : Int} {r : DictReader} {f : List Key} (h : r.fieldnames = some f) :
    (nextW false limit r).2.1.fieldnames = some f ∧ (f.Nodup → (nextW false limit r).2.2 = 0) := by
  have tail : ∀ (r1 : DictReader) (m : Nat), r1.fieldnames = some f → (f.Nodup → m = 0) →
      let x : Except Raised (List (Key × DVal)) × DictReader × Nat :=
        match bodyRow r1 limit with
        | (r', .error e) => (.error (.exc e), r', m)
        | (r', .ok row) =>
          ((rowDictW false limit row r').1, (rowDictW false limit row r').2.1, m + (rowDictW false limit row r').2.2)
      x.2.1.fieldnames = some f ∧ (f.Nodup → x.2.2 = 0) := by
    intro r1 m h1 hm
    have hk := (bodyRow_keeps r1 limit).1
    rw [h1] at hk
    rcases hb : bodyRow r1 limit with ⟨r2, e | row⟩
    · rw [hb] at hk
      exact ⟨hk, hm⟩
    · rw [hb] at hk
      replace hk : r2.fieldnames = some f := hk
      simp only [rowDictW_eq, getFieldnames_of_some (limit := limit) hk]
      by_cases hn : f.Nodup
      · simp [hn, hk, hm hn]
      · simp [hn, hk]
  rw [nextW_eq, firstNamesW_eq, getFieldnames_of_some h]
  by_cases h0 : r.lineNum = 0
  · by_cases hn : f.Nodup
    · simp only [h0, hn, if_true]
      exact (tail { r with lineNum := r.reader.lineNum } 0 h (fun _ => rfl)).imp_right (fun g _ => g hn)
    · simp only [h0, hn, if_true, if_false, Bool.false_eq_true]
      exact (tail { r with lineNum := r.reader.lineNum } 1 h (fun e => absurd e hn)).imp_right
        (fun g e => absurd e id)
  · simp only [h0, if_false]
    exact tail r 0 h (fun _ => rfl)

/-- **C130 (iteration).**  A loop over a `DictReader` gets the dictionaries of the model without warnings; and once the names
are known there is a warning in the loop just if they are repeated and there is a dictionary. -/
theorem C130_iteration (limit : Int) : ∀ (m : Nat) (r : DictReader),
    (callsW false limit m r).1 = (r.readAux limit m).1 ∧
      (∀ names, r.fieldnames = some names →
        (names.Nodup → (callsW false limit m r).2.2 = 0) ∧
        (¬ names.Nodup → 2 * (callsW false limit m r).1.length ≤ (callsW false limit m r).2.2))
  | 0, r => ⟨rfl, fun _ _ => ⟨fun _ => rfl, fun _ => Nat.le_refl _⟩⟩
  | m + 1, r => by
    obtain ⟨h1, h2⟩ := C130_same limit r
    rw [callsW, DictReader.readAux]
    rcases hw : nextW false limit r with ⟨e | d, r', n⟩
    · rw [hw] at h1 h2
      rcases hx : r.next limit with ⟨r2, e2 | d2⟩
      · rw [hx] at h2
        refine ⟨by cases e2 <;> rfl, fun names hf => ⟨fun hn => ?_, fun _ => Nat.zero_le _⟩⟩
        have := (nextW_known (limit := limit) hf).2 hn
        rw [hw] at this
        exact this
      · rw [hx] at h2
        simp at h2
    · rw [hw] at h1 h2
      rcases hx : r.next limit with ⟨r2, e2 | d2⟩
      · rw [hx] at h2
        simp at h2
      · rw [hx] at h1 h2
        simp only [Except.ok.injEq] at h1 h2
        subst h1 h2
        obtain ⟨i1, i2⟩ := C130_iteration limit m r'
        refine ⟨by simp [i1], fun names hf => ?_⟩
        have hk := nextW_known (limit := limit) hf
        rw [hw] at hk
        obtain ⟨i3, i4⟩ := i2 names hk.1
        refine ⟨fun hn => ?_, fun hn => ?_⟩
        · have := hk.2 hn
          have := i3 hn
          simp only at *
          omega
        · obtain ⟨f, -, g1, -, -, g4⟩ := nextW_ok hw
          have hf' : f = names := Option.some.inj (g1.symm.trans hk.1)
          have := (g4 (hf' ▸ hn)).1
          have := i4 hn
          simp only [List.length_cons] at *
          omega

/-! ## Concrete cases -/

/-- A repeated name: two calls of `next`, the first with four warnings, the second with two; the first column of `a` is lost. -/
example : ∃ r, mkDictReader (.stream (strItems (linesUniv "a,b,a\n1,2\n3,4,5\n".toList))) (.name "excel") = .ok r ∧
    callsW false 131072 3 r = ([[(some "a".toList, .restval), (some "b".toList, .cell "2".toList)],
      [(some "a".toList, .cell "5".toList), (some "b".toList, .cell "4".toList)]], some (.exc .stopIteration), 6) ∧
    callsW true 131072 3 r = ([], some .userWarning, 1) :=
  ⟨_, by rfl, by decide +kernel, by decide +kernel⟩

/-- The hypotheses of `C130_error_stuck` hold of it. -/
example : ∃ r r1 names, mkDictReader (.stream (strItems (linesUniv "a,b,a\n1,2\n".toList))) (.name "excel") = .ok r ∧
    r.lineNum = 0 ∧ r.getFieldnames 131072 = (r1, .ok (some names)) ∧ ¬ names.Nodup :=
  ⟨_, _, _, by rfl, by rfl, by rfl, by decide +kernel⟩

/-- Distinct names: no warnings, and the same with warnings as errors. -/
example : ∃ r, mkDictReader (.stream (strItems (linesUniv "a,b\n1,2\n".toList))) (.name "excel") = .ok r ∧
    callsW false 131072 3 r = ([[(some "a".toList, .cell "1".toList), (some "b".toList, .cell "2".toList)]],
      some (.exc .stopIteration), 0) ∧ callsW true 131072 3 r = callsW false 131072 3 r :=
  ⟨_, by rfl, by decide +kernel, by decide +kernel⟩

/-- **C130 is violated** if `restkey` is one of the names: a cell is lost without a warning. -/
theorem C130_violated : ∃ (text : Str) (r : DictReader) (d : List (Key × DVal)),
    mkDictReader (.stream (strItems (linesUniv text))) (.name "excel") none (some "b".toList) = .ok r ∧
    readText 131072 (.name "excel") {} text =
      .ok [["a".toList, "b".toList], ["1".toList, "2".toList, "3".toList]] ∧
    (nextW false 131072 r).1 = .ok d ∧ (nextW false 131072 r).2.2 = 0 ∧ DVal.cell "2".toList ∉ d.map Prod.snd :=
  ⟨"a,b\n1,2,3\n".toList,
    ⟨⟨.stream (strItems (linesUniv "a,b\n1,2,3\n".toList)), ⟨some [','], some ['"'], some [], false⟩, 0, none⟩,
      none, some "b".toList, 0⟩,
    [(some "a".toList, .cell "1".toList), (some "b".toList, .rest ["3".toList])],
    by decide +kernel, by decide +kernel, by decide +kernel, by decide +kernel, by decide⟩

end Props

end Clever
