import Verif.Model.DictWarnings
import Verif.Proofs.DictIO
import Mathlib.Data.List.Induction

/-!
# Helper lemmas: `DictReader` with its warnings
-/

namespace Clever

theorem wbind {α β : Type} (m : WAct α) (f : α → WAct β) (r : DictReader) :
    (m >>= f) r = match m r with
      | (.error e, r', n) => (.error e, r', n)
      | (.ok a, r', n) => ((f a r').1, (f a r').2.1, n + (f a r').2.2) := rfl

theorem wpure {α : Type} (a : α) (r : DictReader) : (pure a : WAct α) r = (.ok a, r, 0) := rfl

theorem dedup_length_iff {names : List Key} : names.length ≠ names.dedup.length ↔ ¬ names.Nodup := by
  constructor
  · intro h hn
    exact h (by rw [hn.dedup])
  · intro h he
    exact h (by
      have := (List.dedup_sublist names).eq_of_length he.symm
      rw [← this]
      exact List.nodup_dedup _)

theorem fieldnamesW_some (a : Bool) (limit : Int) (rd : Reader) (f : List Key) (rk : Key) (ln : Nat) :
    fieldnamesW a limit ⟨rd, some f, rk, ln⟩ =
      if f.Nodup then (.ok (some f), ⟨rd, some f, rk, rd.lineNum⟩, 0)
        else if a then (.error .userWarning, ⟨rd, some f, rk, ln⟩, 1)
        else (.ok (some f), ⟨rd, some f, rk, rd.lineNum⟩, 1) := by
  by_cases hn : f.Nodup
  · have h : ¬ f.length ≠ f.dedup.length := by rw [dedup_length_iff]; simpa using hn
    simp only [fieldnamesW, wbind, readHeader, selfW, setLineNum, h, hn, if_false, if_true, wpure]
  · have h : f.length ≠ f.dedup.length := dedup_length_iff.2 hn
    cases a <;> simp only [fieldnamesW, wbind, readHeader, selfW, setLineNum, h, hn, if_false, if_true, wpure, warn, ne_eq,
      not_false_eq_true, Bool.false_eq_true]

theorem fieldnamesW_eq (a : Bool) (limit : Int) (r : DictReader) :
    fieldnamesW a limit r =
      match r.getFieldnames limit with
      | (r', .error e) => (.error (.exc e), r', 0)
      | (r', .ok none) => (.ok none, r', 0)
      | (r', .ok (some f)) =>
        if f.Nodup then (.ok (some f), r', 0)
        else if a then (.error .userWarning, { r' with lineNum := r.lineNum }, 1)
        else (.ok (some f), r', 1) := by
  obtain ⟨rd, fn, rk, ln⟩ := r
  cases fn with
  | some f => rw [fieldnamesW_some]; rfl
  | none =>
    rcases hx : rd.next limit with ⟨rd', row | row⟩
    · cases row <;> simp only [fieldnamesW, wbind, readHeader, selfW, DictReader.getFieldnames, hx, wpure]
    · have h := fieldnamesW_some a limit rd' (row.map some) rk ln
      simp only [fieldnamesW, wbind, readHeader, selfW] at h
      simp only [fieldnamesW, wbind, readHeader, selfW, DictReader.getFieldnames, hx]
      first
        | exact h
        | (rw [h])

/-- After the names are known nothing is read for them. -/
theorem getFieldnames_known {limit : Int} {r r' : DictReader} {f : List Key}
    (h : r.getFieldnames limit = (r', .ok (some f))) :
    r'.fieldnames = some f ∧ r'.lineNum = r'.reader.lineNum ∧ r'.restkey = r.restkey ∧
      r'.getFieldnames limit = (r', .ok (some f)) := by
  obtain ⟨rd, fn, rk, ln⟩ := r
  cases fn with
  | some g =>
    simp only [DictReader.getFieldnames, Prod.mk.injEq, Except.ok.injEq, Option.some.injEq] at h
    obtain ⟨rfl, rfl⟩ := h
    simp [DictReader.getFieldnames]
  | none =>
    simp only [DictReader.getFieldnames] at h
    rcases hx : rd.next limit with ⟨rd', row | row⟩
    · rw [hx] at h
      cases row <;> simp at h
    · rw [hx] at h
      simp only [Prod.mk.injEq, Except.ok.injEq, Option.some.injEq] at h
      obtain ⟨rfl, rfl⟩ := h
      simp [DictReader.getFieldnames]

theorem getFieldnames_restkey {limit : Int} (r : DictReader) : (r.getFieldnames limit).1.restkey = r.restkey := by
  obtain ⟨rd, fn, rk, ln⟩ := r
  cases fn with
  | some g => rfl
  | none =>
    simp only [DictReader.getFieldnames]
    rcases rd.next limit with ⟨rd', row | row⟩
    · cases row <;> rfl
    · rfl

/-- The names, if they are needed again. -/
theorem needNames_known (a : Bool) {limit : Int} {r : DictReader} {f : List Key}
    (h : r.getFieldnames limit = (r, .ok (some f))) :
    needNames a limit r =
      if f.Nodup then (.ok f, r, 0) else if a then (.error .userWarning, r, 1) else (.ok f, r, 1) := by
  rw [needNames, wbind, fieldnamesW_eq, h]
  by_cases hn : f.Nodup
  · simp [hn, wpure]
  · cases a <;> simp [hn, wpure]

theorem needNames_eq (a : Bool) (limit : Int) (r : DictReader) :
    needNames a limit r =
      match r.getFieldnames limit with
      | (r', .error e) => (.error (.exc e), r', 0)
      | (r', .ok none) => (.error (.exc (.typeError "'NoneType' object is not iterable")), r', 0)
      | (r', .ok (some f)) =>
        if f.Nodup then (.ok f, r', 0)
        else if a then (.error .userWarning, { r' with lineNum := r.lineNum }, 1)
        else (.ok f, r', 1) := by
  rw [needNames, wbind, fieldnamesW_eq]
  rcases h : r.getFieldnames limit with ⟨r', e | o⟩
  · rfl
  · cases o with
    | none => rfl
    | some f =>
      by_cases hn : f.Nodup
      · simp [hn, wpure]
      · cases a <;> simp [hn, wpure]

theorem rowDictW_eq (a : Bool) (limit : Int) (row : List Str) (r : DictReader) :
    rowDictW a limit row r =
      match r.getFieldnames limit with
      | (r', .error e) => (.error (.exc e), r', 0)
      | (r', .ok none) => (.error (.exc (.typeError "'NoneType' object is not iterable")), r', 0)
      | (r', .ok (some f)) =>
        if f.Nodup then (.ok (rowDict f r'.restkey row), r', 0)
        else if a then (.error .userWarning, { r' with lineNum := r.lineNum }, 1)
        else (.ok (rowDict f r'.restkey row), r', if row.length < f.length then 3 else 2) := by
  rw [rowDictW, wbind, needNames_eq]
  rcases h : r.getFieldnames limit with ⟨r', e | o⟩
  · rfl
  · cases o with
    | none => rfl
    | some f =>
      obtain ⟨-, -, -, hk⟩ := getFieldnames_known h
      have hN := needNames_known a hk
      by_cases hn : f.Nodup
      · simp only [hn, if_true] at hN ⊢
        simp only [wbind, hN, selfW]
        by_cases h1 : f.length < row.length
        · simp [h1, wpure, rowDict]
        · by_cases h2 : f.length > row.length
          · have h2' : row.length < f.length := h2
            simp [h1, h2', wpure, wbind, hN, rowDict]
          · have : ¬ row.length < f.length := by omega
            simp [h1, this, wpure, rowDict]
      · cases a with
        | true => simp [hn]
        | false =>
          simp only [hn, if_false, Bool.false_eq_true] at hN ⊢
          simp only [wbind, hN, selfW]
          by_cases h1 : f.length < row.length
          · have : ¬ row.length < f.length := by omega
            simp [h1, this, wpure, rowDict]
          · by_cases h2 : f.length > row.length
            · have h2' : row.length < f.length := h2
              simp [h1, h2', wpure, wbind, hN, rowDict]
            · have : ¬ row.length < f.length := by omega
              simp [h1, this, wpure, rowDict]

/-- The first lines of `DictReader.next`. -/
def namesAtStart (r : DictReader) (limit : Int) : DictReader × Except PyExc Unit :=
  if r.lineNum = 0 then
    match r.getFieldnames limit with
    | (r, .ok _) => (r, .ok ())
    | (r, .error e) => (r, .error e)
  else (r, .ok ())

/-- The middle of `DictReader.next`: the row. -/
def bodyRow (r : DictReader) (limit : Int) : DictReader × Except PyExc (List Str) :=
  match r.reader.next limit with
  | (rd, .error e) => ({ r with reader := rd }, .error e)
  | (rd, .ok row) =>
    let r := { r with reader := rd, lineNum := rd.lineNum }
    match skipBlank limit (rd.left + 1) rd row with
    | (rd, .error e) => ({ r with reader := rd }, .error e)
    | (rd, .ok row) => ({ r with reader := rd }, .ok row)

theorem next_eq (r : DictReader) (limit : Int) :
    r.next limit =
      match namesAtStart r limit with
      | (r, .error e) => (r, .error e)
      | (r, .ok _) =>
        match bodyRow r limit with
        | (r, .error e) => (r, .error e)
        | (r, .ok row) =>
          match r.getFieldnames limit with
          | (r, .error e) => (r, .error e)
          | (r, .ok none) => (r, .error (.typeError "'NoneType' object is not iterable"))
          | (r, .ok (some f)) => (r, .ok (rowDict f r.restkey row)) := by
  have tail : ∀ r1 : DictReader,
      (match r1.reader.next limit with
        | (rd, .error e) => ({ r1 with reader := rd }, .error e)
        | (rd, .ok row) =>
          match skipBlank limit (rd.left + 1) rd row with
          | (rd', .error e) => ({ r1 with reader := rd', lineNum := rd.lineNum }, .error e)
          | (rd', .ok row) =>
            match ({ r1 with reader := rd', lineNum := rd.lineNum } : DictReader).getFieldnames limit with
            | (r, .error e) => (r, .error e)
            | (r, .ok none) => (r, .error (.typeError "'NoneType' object is not iterable"))
            | (r, .ok (some f)) => (r, .ok (rowDict f r.restkey row)) :
          DictReader × Except PyExc (List (Key × DVal))) =
      match bodyRow r1 limit with
        | (r, .error e) => (r, .error e)
        | (r, .ok row) =>
          match r.getFieldnames limit with
          | (r, .error e) => (r, .error e)
          | (r, .ok none) => (r, .error (.typeError "'NoneType' object is not iterable"))
          | (r, .ok (some f)) => (r, .ok (rowDict f r.restkey row)) := by
    intro r1
    simp only [bodyRow]
    rcases r1.reader.next limit with ⟨rd, e | row⟩
    · rfl
    · simp only
      rcases skipBlank limit (rd.left + 1) rd row with ⟨rd2, e | row2⟩ <;> rfl
  unfold DictReader.next namesAtStart
  by_cases h0 : r.lineNum = 0
  · simp only [h0, if_true]
    rcases r.getFieldnames limit with ⟨r1, e | o⟩
    · rfl
    · exact tail r1
  · simp only [h0, if_false]
    exact tail r

theorem nextW_eq (a : Bool) (limit : Int) (r : DictReader) :
    nextW a limit r =
      match firstNamesW a limit r with
      | (.error e, r', n) => (.error e, r', n)
      | (.ok _, r', n) =>
        match bodyRow r' limit with
        | (r', .error e) => (.error (.exc e), r', n)
        | (r', .ok row) =>
          ((rowDictW a limit row r').1, (rowDictW a limit row r').2.1, n + (rowDictW a limit row r').2.2) := by
  rw [nextW, wbind]
  rcases firstNamesW a limit r with ⟨e | u, r1, n⟩
  · rfl
  · simp only [wbind, nextRowW, bodyRow]
    rcases r1.reader.next limit with ⟨rd, e | row⟩
    · rfl
    · simp only [skipBlankW]
      rcases skipBlank limit (rd.left + 1) rd row with ⟨rd2, e | row2⟩ <;> simp

theorem firstNamesW_eq (a : Bool) (limit : Int) (r : DictReader) :
    firstNamesW a limit r =
      if r.lineNum = 0 then
        match r.getFieldnames limit with
        | (r', .error e) => (.error (.exc e), r', 0)
        | (r', .ok none) => (.ok (), r', 0)
        | (r', .ok (some f)) =>
          if f.Nodup then (.ok (), r', 0)
          else if a then (.error .userWarning, { r' with lineNum := r.lineNum }, 1)
          else (.ok (), r', 1)
      else (.ok (), r, 0) := by
  rw [firstNamesW, wbind]
  simp only [selfW]
  by_cases h0 : r.lineNum = 0
  · simp only [h0, if_true, wbind, fieldnamesW_eq]
    rcases h : r.getFieldnames limit with ⟨r', e | o⟩
    · rfl
    · cases o with
      | none => rfl
      | some f =>
        by_cases hn : f.Nodup
        · simp [hn, wpure]
        · cases a <;> simp [hn, wpure, h0]
  · simp [h0, wpure]

/-! ## What stays the same -/

theorem bodyRow_keeps (r : DictReader) (limit : Int) :
    (bodyRow r limit).1.fieldnames = r.fieldnames ∧ (bodyRow r limit).1.restkey = r.restkey := by
  simp only [bodyRow]
  rcases r.reader.next limit with ⟨rd, e | row⟩
  · exact ⟨rfl, rfl⟩
  · simp only
    rcases skipBlank limit (rd.left + 1) rd row with ⟨rd2, e | row2⟩ <;> exact ⟨rfl, rfl⟩

theorem getFieldnames_of_some {limit : Int} {r : DictReader} {f : List Key} (h : r.fieldnames = some f) :
    r.getFieldnames limit = ({ r with lineNum := r.reader.lineNum }, .ok (some f)) := by
  simp only [DictReader.getFieldnames, h]

/-! ## Dictionaries of repeated keys -/

theorem dictGet_dictOf {K V : Type} [DecidableEq K] (k : K) (pairs : List (K × V)) :
    dictGet k (dictOf pairs) = (pairs.reverse.find? (fun p => p.1 = k)).map Prod.snd := by
  induction pairs using List.reverseRecOn with
  | nil => rfl
  | append_singleton l p ih =>
    have : dictOf (l ++ [p]) = dictPut p.1 p.2 (dictOf l) := by simp [dictOf]
    rw [this, dictGet_set, List.reverse_append, ih]
    by_cases h : k = p.1
    · simp [h]
    · have h' : ¬ p.1 = k := fun e => h e.symm
      simp [h, h']

theorem dictPut_keys_nodup {K V : Type} [DecidableEq K] (k : K) (v : V) (d : List (K × V))
    (h : (d.map Prod.fst).Nodup) : ((dictPut k v d).map Prod.fst).Nodup := by
  by_cases hk : k ∈ d.map Prod.fst
  · rw [dictPut_keys k v d hk]
    exact h
  · rw [dictPut_new k v d hk, List.map_append, List.nodup_append]
    refine ⟨h, by simp, ?_⟩
    intro a ha b hb he
    simp only [List.map_cons, List.map_nil, List.mem_singleton] at hb
    exact hk (hb ▸ he ▸ ha)

theorem dictOf_keys_nodup {K V : Type} [DecidableEq K] (pairs : List (K × V)) :
    ((dictOf pairs).map Prod.fst).Nodup := by
  induction pairs using List.reverseRecOn with
  | nil => exact List.nodup_nil
  | append_singleton l p ih =>
    have : dictOf (l ++ [p]) = dictPut p.1 p.2 (dictOf l) := by simp [dictOf]
    rw [this]
    exact dictPut_keys_nodup _ _ _ ih

/-- `DictReader` puts the columns into the dictionary one after the other. -/
theorem rowDict_dictOf (f : List Key) (restkey : Key) (row : List Str) :
    rowDict f restkey row =
      dictOf (f.zip (row.map .cell) ++
        (if f.length < row.length then [(restkey, .rest (row.drop f.length))]
          else (f.drop row.length).map (·, DVal.restval))) := by
  have hf : ∀ (l : List Key) (d : List (Key × DVal)),
      l.foldl (fun d k => dictPut k .restval d) d =
        (l.map (·, DVal.restval)).foldl (fun d p => dictPut p.1 p.2 d) d := by
    intro l d
    rw [List.foldl_map]
  by_cases h1 : f.length < row.length
  · simp [rowDict, h1, dictOf, List.foldl_append]
  · by_cases h2 : f.length > row.length
    · simp only [rowDict, h1, h2, if_true, if_false, hf, dictOf, List.foldl_append]
    · have : f.drop row.length = [] := by simp; omega
      simp [rowDict, h1, h2, dictOf, this]

end Clever
