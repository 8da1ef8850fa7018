import Verif.Model.DictIO
import Verif.Proofs.Reader
import Verif.Proofs.WriterApi

/-!
# `DictReader` and `DictWriter`
-/

namespace Clever

/-! ## Dictionaries -/

section
variable {K V : Type} [DecidableEq K]

theorem dictGet_set (k k' : K) (v : V) : ∀ d : List (K × V),
    dictGet k' (dictPut k v d) = if k' = k then some v else dictGet k' d
  | [] => by
    simp only [dictPut, dictGet]
    by_cases h : k' = k
    · simp [h]
    · simp [h, Ne.symm h]
  | (a, b) :: d => by
    rw [dictPut]
    by_cases ha : a = k
    · rw [if_pos ha, dictGet, dictGet, ha]
      by_cases h : k' = k
      · simp [h]
      · simp [h, Ne.symm h]
    · rw [if_neg ha, dictGet, dictGet, dictGet_set k k' v d]
      by_cases h : a = k'
      · rw [if_pos h, if_pos h, if_neg (by rw [← h]; exact ha)]
      · rw [if_neg h, if_neg h]

theorem dictPut_new (k : K) (v : V) : ∀ d : List (K × V), k ∉ d.map Prod.fst → dictPut k v d = d ++ [(k, v)]
  | [], _ => rfl
  | (a, b) :: d, h => by
    simp only [List.map_cons, List.mem_cons, not_or] at h
    rw [dictPut, if_neg (Ne.symm h.1), dictPut_new k v d h.2]
    rfl

theorem dictPut_keys (k : K) (v : V) : ∀ d : List (K × V), k ∈ d.map Prod.fst →
    (dictPut k v d).map Prod.fst = d.map Prod.fst
  | [], h => by simp at h
  | (a, b) :: d, h => by
    rw [dictPut]
    by_cases ha : a = k
    · simp [ha]
    · rw [if_neg ha]
      simp only [List.map_cons, List.mem_cons] at h ⊢
      rw [dictPut_keys k v d (h.resolve_left (Ne.symm ha))]

theorem foldl_dictPut_new : ∀ (pairs d : List (K × V)), (pairs.map Prod.fst).Nodup →
    (∀ k ∈ pairs.map Prod.fst, k ∉ d.map Prod.fst) →
    pairs.foldl (fun d p => dictPut p.1 p.2 d) d = d ++ pairs
  | [], d, _, _ => by simp
  | (k, v) :: pairs, d, hn, hd => by
    simp only [List.map_cons, List.nodup_cons] at hn
    rw [List.foldl_cons, dictPut_new k v d (hd k (by simp)),
      foldl_dictPut_new pairs _ hn.2 ?_, List.append_assoc]
    · rfl
    · intro k' hk'
      simp only [List.map_append, List.mem_append, List.map_cons, List.map_nil, List.mem_singleton, not_or]
      refine ⟨hd k' (by simp only [List.map_cons, List.mem_cons]; exact .inr hk'), ?_⟩
      rintro rfl
      exact hn.1 hk'

theorem dictOf_nodup (pairs : List (K × V)) (h : (pairs.map Prod.fst).Nodup) : dictOf pairs = pairs := by
  rw [dictOf, foldl_dictPut_new pairs [] h (by simp)]
  rfl

theorem dictGet_none {k : K} : ∀ {d : List (K × V)}, k ∉ d.map Prod.fst → dictGet k d = none
  | [], _ => rfl
  | (a, b) :: d, h => by
    simp only [List.map_cons, List.mem_cons, not_or] at h
    rw [dictGet, if_neg (Ne.symm h.1), dictGet_none h.2]

theorem dictGet_append (k : K) : ∀ (d e : List (K × V)),
    dictGet k (d ++ e) = (dictGet k d).or (dictGet k e)
  | [], e => by simp [dictGet]
  | (a, b) :: d, e => by
    rw [List.cons_append, dictGet, dictGet]
    by_cases h : a = k
    · simp [h]
    · simp [h, dictGet_append k d e]

theorem dictGet_zip : ∀ (f : List K) (l : List V) (i : Nat) (hi : i < f.length), f.Nodup →
    dictGet f[i] (f.zip l) = l[i]?
  | [], _, i, hi, _ => by simp at hi
  | a :: f, [], i, hi, _ => by simp [dictGet]
  | a :: f, b :: l, 0, hi, _ => by simp [dictGet]
  | a :: f, b :: l, i + 1, hi, h => by
    simp only [List.nodup_cons] at h
    have : a ≠ f[i]'(by simpa using hi) := by
      intro he
      exact h.1 (he ▸ List.getElem_mem _)
    simp only [List.zip_cons_cons, dictGet, List.getElem_cons_succ, this, if_false]
    rw [dictGet_zip f l i (by simpa using hi) h.2]
    simp

end

/-! ## The dictionary of a row -/

theorem zip_fst_sublist {A B : Type} : ∀ (f : List A) (l : List B), (f.zip l).map Prod.fst = f.take l.length
  | [], l => by simp
  | a :: f, [] => by simp
  | a :: f, b :: l => by simp [zip_fst_sublist f l]

/-- With distinct field names and a new `restkey`, the dictionary is just the list of its items. -/
theorem rowDict_eq {f : List Key} {restkey : Key} (hn : f.Nodup) (hr : restkey ∉ f) (row : List Str) :
    rowDict f restkey row =
      if f.length < row.length then f.zip (row.map .cell) ++ [(restkey, .rest (row.drop f.length))]
      else f.zip (row.map .cell) ++ (f.drop row.length).map (·, DVal.restval) := by
  have hk : ((f.zip (row.map DVal.cell)).map Prod.fst) = f.take row.length := by
    rw [zip_fst_sublist, List.length_map]
  have h0 : dictOf (f.zip (row.map DVal.cell)) = f.zip (row.map DVal.cell) :=
    dictOf_nodup _ (by rw [hk]; exact hn.sublist (List.take_sublist _ _))
  unfold rowDict
  simp only [h0]
  by_cases h1 : f.length < row.length
  · rw [if_pos h1, if_pos h1, dictPut_new]
    rw [hk]
    exact fun h => hr (List.mem_of_mem_take h)
  · rw [if_neg h1, if_neg h1]
    by_cases h2 : f.length > row.length
    · rw [if_pos h2]
      have hfold : ∀ (l : List Key) (d : List (Key × DVal)),
          l.foldl (fun d k => dictPut k DVal.restval d) d =
            (l.map (·, DVal.restval)).foldl (fun d p => dictPut p.1 p.2 d) d := by
        intro l
        induction l with
        | nil => intro d; rfl
        | cons a l ih => intro d; exact ih _
      have hm : ((f.drop row.length).map (·, DVal.restval)).map Prod.fst = f.drop row.length := by
        rw [List.map_map]; exact List.map_id _
      rw [hfold, foldl_dictPut_new]
      · rw [hm]; exact hn.sublist (List.drop_sublist _ _)
      · intro k hk1 hk2
        rw [hm] at hk1
        rw [hk] at hk2
        rw [← List.take_append_drop row.length f] at hn
        exact (List.nodup_append.mp hn).2.2 k hk2 k hk1 rfl
    · rw [if_neg h2, List.drop_of_length_le (by omega)]
      simp

/-! ## Readers that deliver items -/

/-- A reader object that is going to parse `items`. -/
inductive Delivers (limit : Int) (cfg : Cfg) : Reader → List Item → Prop where
  | stream (items : List Item) (d : SimpleDialect) (k : Nat) (g : Option ParserGen)
      (hd : d.cfg limit = .ok cfg) (hg : ∀ g', g = some g' → g'.cfg = cfg) :
      Delivers limit cfg ⟨.stream items, d, k, g⟩ items
  | started (all items : List Item) (d : SimpleDialect) (k : Nat) :
      Delivers limit cfg ⟨.seq all, d, k, some ⟨cfg, items⟩⟩ items
  | fresh (items : List Item) (d : SimpleDialect) (k : Nat) (hd : d.cfg limit = .ok cfg) :
      Delivers limit cfg ⟨.seq items, d, k, none⟩ items

theorem Delivers.left {limit : Int} {cfg : Cfg} {r : Reader} {items : List Item}
    (h : Delivers limit cfg r items) : r.left = items.length := by
  cases h with
  | stream _ d k g hd hg => cases g <;> rfl
  | started => rfl
  | fresh => rfl

/-- The result of `next` for an outcome of the parser. -/
def outcomeExcept : Outcome Str → Except PyExc (List Str)
  | .row r => .ok r
  | .stop => .error .stopIteration
  | .error e => .error (.parse e)

theorem Delivers.next {limit : Int} {cfg : Cfg} {r : Reader} {items : List Item}
    (h : Delivers limit cfg r items) :
    Delivers limit cfg (r.next limit).1 (nextRow cfg mkPlain items).2 ∧
    (r.next limit).2 = outcomeExcept (nextRow cfg mkPlain items).1 := by
  cases h with
  | stream _ d k g hd hg =>
    cases g with
    | none =>
      simp only [Reader.next, Reader.iter, hd, bind, Except.bind, pure, Except.pure, Reader.nextGen]
      rcases hn : nextRow cfg mkPlain items with ⟨out, rest⟩
      cases out <;>
        exact ⟨.stream _ _ _ _ hd (by rintro g' hg'; simp at hg'; rw [← hg']), rfl⟩
    | some g =>
      simp only [Reader.next, Reader.nextGen, hg g rfl]
      rcases hn : nextRow cfg mkPlain items with ⟨out, rest⟩
      cases out <;> exact ⟨.stream _ _ _ _ hd hg, rfl⟩
  | started all _ d k =>
    simp only [Reader.next, Reader.nextGen]
    rcases hn : nextRow cfg mkPlain items with ⟨out, rest⟩
    cases out <;> exact ⟨.started _ _ _ _, rfl⟩
  | fresh _ d k hd =>
    simp only [Reader.next, Reader.iter, hd, bind, Except.bind, pure, Except.pure, Reader.nextGen]
    rcases hn : nextRow cfg mkPlain items with ⟨out, rest⟩
    cases out <;> exact ⟨.started _ _ _ _, rfl⟩

/-- The three outcomes of `next`, and what they mean for the rows to come. -/
theorem Delivers.cases {limit : Int} {cfg : Cfg} {r : Reader} {items : List Item}
    (h : Delivers limit cfg r items) :
    (∃ r', r.next limit = (r', .error .stopIteration) ∧ parseRows cfg mkPlain items = ([], none)) ∨
    (∃ r' e, r.next limit = (r', .error (.parse e)) ∧ parseRows cfg mkPlain items = ([], some e)) ∨
    (∃ r' row rest, r.next limit = (r', .ok row) ∧ Delivers limit cfg r' rest ∧
      rest.length < items.length ∧
      parseRows cfg mkPlain items = (row :: (parseRows cfg mkPlain rest).1, (parseRows cfg mkPlain rest).2)) := by
  obtain ⟨h1, h2⟩ := h.next
  rcases hx : r.next limit with ⟨r', res⟩
  rw [hx] at h1 h2
  simp only at h1 h2
  have hp := parseRows_eq cfg mkPlain items
  have hlt : items ≠ [] → (nextRow cfg mkPlain items).2.length < items.length :=
    nextRowFrom_lt cfg mkPlain PObj.init items
  have hnil : items = [] → (nextRow cfg mkPlain items) = (.stop, []) := by
    rintro rfl; exact nextRow_nil _ _
  rcases hn : nextRow cfg mkPlain items with ⟨out, rest⟩
  rw [hn] at hp h1 h2 hlt hnil
  subst h2
  cases out with
  | stop => exact .inl ⟨r', rfl, hp⟩
  | error e => exact .inr (.inl ⟨r', e, rfl, hp⟩)
  | row row =>
    refine .inr (.inr ⟨r', row, rest, rfl, h1, hlt ?_, hp⟩)
    intro he
    exact absurd (hnil he) (by simp)

/-- The rows that a `DictReader` makes dictionaries of. -/
def nonBlank (p : List (List Str) × Option PErr) : List (List Str) × Option PErr :=
  (p.1.filter (· ≠ []), p.2)

theorem skipBlank_spec {limit : Int} {cfg : Cfg} : ∀ (n : Nat) {rd : Reader} {items : List Item}
    (row : List Str), Delivers limit cfg rd items → items.length < n →
    let all := nonBlank (row :: (parseRows cfg mkPlain items).1, (parseRows cfg mkPlain items).2)
    (∃ rd', skipBlank limit n rd row = (rd', .error .stopIteration) ∧ all = ([], none)) ∨
    (∃ rd' e, skipBlank limit n rd row = (rd', .error (.parse e)) ∧ all = ([], some e)) ∨
    (∃ rd' row' rest, skipBlank limit n rd row = (rd', .ok row') ∧ Delivers limit cfg rd' rest ∧
      rest.length ≤ items.length ∧
      all = (row' :: (nonBlank (parseRows cfg mkPlain rest)).1, (nonBlank (parseRows cfg mkPlain rest)).2))
  | 0, _, _, _, _, h => by omega
  | n + 1, rd, items, row, h, hn => by
    intro all
    by_cases hr : row = []
    · have hall : all = nonBlank (parseRows cfg mkPlain items) := by
        simp [all, nonBlank, hr]
      rw [hall]
      rw [skipBlank, if_pos hr]
      rcases h.cases with ⟨r', h1, h2⟩ | ⟨r', e, h1, h2⟩ | ⟨r', row', rest, h1, hd, hlt, h2⟩
      · exact .inl ⟨r', by rw [h1], by rw [h2]; rfl⟩
      · exact .inr (.inl ⟨r', e, by rw [h1], by rw [h2]; rfl⟩)
      · rw [h1, h2]
        simp only
        rcases skipBlank_spec n row' hd (by omega) with h' | h' | ⟨a, b, c, h3, h4, h5, h6⟩
        · exact .inl h'
        · exact .inr (.inl h')
        · exact .inr (.inr ⟨a, b, c, h3, h4, by omega, h6⟩)
    · refine .inr (.inr ⟨rd, row, items, ?_, h, Nat.le_refl _, ?_⟩)
      · rw [skipBlank, if_neg hr]
      · simp [all, nonBlank, hr]

/-- A `DictReader` whose field names are known. -/
theorem DictReader.next_some {limit : Int} {cfg : Cfg} {items : List Item} {rd : Reader}
    (h : Delivers limit cfg rd items) (f : List Key) (restkey : Key) (k : Nat) :
    let all := nonBlank (parseRows cfg mkPlain items)
    (∃ r', (⟨rd, some f, restkey, k⟩ : DictReader).next limit = (r', .error .stopIteration) ∧ all = ([], none)) ∨
    (∃ r' e, (⟨rd, some f, restkey, k⟩ : DictReader).next limit = (r', .error (.parse e)) ∧ all = ([], some e)) ∨
    (∃ rd' k' row rest, (⟨rd, some f, restkey, k⟩ : DictReader).next limit =
        (⟨rd', some f, restkey, k'⟩, .ok (rowDict f restkey row)) ∧ Delivers limit cfg rd' rest ∧
      rest.length < items.length ∧ k' = rd'.lineNum ∧
      all = (row :: (nonBlank (parseRows cfg mkPlain rest)).1, (nonBlank (parseRows cfg mkPlain rest)).2)) := by
  intro all
  -- the first access to the field names changes nothing but the line number
  obtain ⟨k0, hk0⟩ : ∃ k0, (⟨rd, some f, restkey, k⟩ : DictReader).next limit =
      (match rd.next limit with
      | (rd, .error e) => (⟨rd, some f, restkey, k0⟩, .error e)
      | (rd, .ok row) =>
        match skipBlank limit (rd.left + 1) rd row with
        | (rd', .error e) => (⟨rd', some f, restkey, rd.lineNum⟩, .error e)
        | (rd', .ok row) => (⟨rd', some f, restkey, rd'.lineNum⟩, .ok (rowDict f restkey row)) :
          DictReader × Except PyExc (List (Key × DVal))) := by
    by_cases hk : k = 0
    · refine ⟨rd.lineNum, ?_⟩
      simp only [DictReader.next, hk, if_true, DictReader.getFieldnames]
      rcases rd.next limit with ⟨rd1, res⟩
      cases res with
      | error e => rfl
      | ok row =>
        simp only
        rcases skipBlank limit (rd1.left + 1) rd1 row with ⟨rd2, res⟩
        cases res <;> rfl
    · refine ⟨k, ?_⟩
      simp only [DictReader.next, hk, if_false, DictReader.getFieldnames]
      rcases rd.next limit with ⟨rd1, res⟩
      cases res with
      | error e => rfl
      | ok row =>
        simp only
        rcases skipBlank limit (rd1.left + 1) rd1 row with ⟨rd2, res⟩
        cases res <;> rfl
  rw [hk0]
  rcases h.cases with ⟨r', h1, h2⟩ | ⟨r', e, h1, h2⟩ | ⟨r', row, rest, h1, hd, hlt, h2⟩
  · exact .inl ⟨_, by rw [h1], by simp only [all]; rw [h2]; rfl⟩
  · exact .inr (.inl ⟨_, e, by rw [h1], by simp only [all]; rw [h2]; rfl⟩)
  · rw [h1]
    simp only [all]
    rw [h2]
    rcases skipBlank_spec (r'.left + 1) row hd (by rw [hd.left]; omega) with
      ⟨a, h3, h4⟩ | ⟨a, e, h3, h4⟩ | ⟨a, b, c, h3, h4, h5, h6⟩
    · exact .inl ⟨_, by rw [h3], h4⟩
    · exact .inr (.inl ⟨_, e, by rw [h3], h4⟩)
    · exact .inr (.inr ⟨a, _, b, c, by rw [h3], h4, by omega, rfl, h6⟩)

/-- What a loop over a `DictReader` returns for the rows that are left. -/
def dictRows (f : List Key) (restkey : Key) (p : List (List Str) × Option PErr) : Gen (List (Key × DVal)) :=
  ((nonBlank p).1.map (rowDict f restkey), p.2.map PyExc.parse)

theorem DictReader.readAux_some {limit : Int} {cfg : Cfg} (f : List Key) (restkey : Key) :
    ∀ (n : Nat) {items : List Item} {rd : Reader} (k : Nat), Delivers limit cfg rd items →
    items.length < n →
    DictReader.readAux limit n ⟨rd, some f, restkey, k⟩ = dictRows f restkey (parseRows cfg mkPlain items)
  | 0, _, _, _, _, h => by omega
  | n + 1, items, rd, k, h, hn => by
    have key : ∀ (p q : List (List Str) × Option PErr), nonBlank p = q →
        dictRows f restkey p = (q.1.map (rowDict f restkey), q.2.map PyExc.parse) := by
      rintro p q rfl; rfl
    rcases DictReader.next_some h f restkey k with
      ⟨r', h1, h2⟩ | ⟨r', e, h1, h2⟩ | ⟨rd', k', row, rest, h1, hd, hlt, -, h2⟩
    · rw [DictReader.readAux, h1, key _ _ h2]; rfl
    · rw [DictReader.readAux, h1, key _ _ h2]; rfl
    · rw [DictReader.readAux, h1, key _ _ h2]
      simp only
      rw [readAux_some f restkey n k' hd (by omega)]
      rfl

theorem nextRowFrom_stop_rest (cfg : Cfg) (o : PObj Str) (items rest : List Item)
    (h : nextRowFrom cfg mkPlain o items = (.stop, rest)) : rest = [] := by
  induction items generalizing o with
  | nil =>
    simp only [nextRowFrom] at h
    split at h <;> (try split at h) <;> simp_all
  | cons it items ih =>
    cases it with
    | raise => simp [nextRowFrom] at h
    | nonstr => simp [nextRowFrom] at h
    | str l =>
      simp only [nextRowFrom] at h
      split at h
      · simp at h
      · split at h
        · simp at h
        · exact ih _ h

/-- A new `DictReader` without field names: the first row is the header. -/
theorem DictReader.readAux_none {limit : Int} {cfg : Cfg} (restkey : Key) (n : Nat)
    {items : List Item} {rd : Reader} (h : Delivers limit cfg rd items) (hn : items.length < n) :
    DictReader.readAux limit n ⟨rd, none, restkey, 0⟩ =
      match parseRows cfg mkPlain items with
      | ([], err) => ([], err.map .parse)
      | (header :: rows, err) => dictRows (header.map some) restkey (rows, err) := by
  obtain ⟨n, rfl⟩ : ∃ m, n = m + 1 := ⟨n - 1, by omega⟩
  rcases h.cases with ⟨r', h1, h2⟩ | ⟨r', e, h1, h2⟩ | ⟨r', row, rest, h1, hd, hlt, h2⟩
  · -- nothing to read: the row after the header is missing as well
    rw [h2]
    obtain ⟨h3, h4⟩ := h.next
    rw [h1] at h3 h4
    have : (nextRow cfg mkPlain items).2 = [] := by
      rcases hx : nextRow cfg mkPlain items with ⟨out, rest⟩
      rw [hx] at h4
      cases out with
      | stop => exact nextRowFrom_stop_rest cfg PObj.init items rest hx
      | row r => simp [outcomeExcept] at h4
      | error e => simp [outcomeExcept] at h4
    rw [this] at h3
    simp only [DictReader.readAux, DictReader.next, if_true, DictReader.getFieldnames, h1]
    rcases h3.cases with ⟨r2, h6, -⟩ | ⟨r2, e, -, h6⟩ | ⟨r2, row, rest, -, -, h6, -⟩
    · rw [h6]; rfl
    · rw [parseRows_nil] at h6; simp at h6
    · simp at h6
  · rw [h2]
    simp only [DictReader.readAux, DictReader.next, if_true, DictReader.getFieldnames, h1]
    rfl
  · have hstep : (⟨rd, none, restkey, 0⟩ : DictReader).next limit =
        (⟨r', some (row.map some), restkey, r'.lineNum⟩ : DictReader).next limit := by
      by_cases hk : r'.lineNum = 0
      · simp only [DictReader.next, if_true, DictReader.getFieldnames, h1, hk]
      · simp only [DictReader.next, if_true, DictReader.getFieldnames, h1, hk, if_false]
    rw [DictReader.readAux, hstep, h2]
    have := DictReader.readAux_some (row.map some) restkey (n + 1) r'.lineNum hd (by omega)
    rw [DictReader.readAux] at this
    exact this

theorem cfg_error_ne_stop {d : SimpleDialect} {limit : Int} {e : PyExc} (h : d.cfg limit = .error e) :
    e ≠ .stopIteration := by
  rintro rfl
  have hs : ∀ n x, setChar n x ≠ .error .stopIteration := by
    intro n x
    unfold setChar
    split <;> simp
  have hl : setLong limit ≠ .error .stopIteration := by
    unfold setLong
    split <;> simp
  simp only [SimpleDialect.cfg, mkCfg, bind, Except.bind, pure, Except.pure] at h
  split at h
  · next h1 => cases h; exact hs _ _ h1
  · split at h
    · next h1 => cases h; exact hs _ _ h1
    · split at h
      · next h1 => cases h; exact hs _ _ h1
      · split at h
        · next h1 => cases h; exact hl h1
        · simp at h

/-- The dictionaries of a new `DictReader` in terms of the rows of the reader. -/
theorem DictReader.readAll_eq (source : Source) (d : SimpleDialect) (fieldnames : Option (List Key))
    (restkey : Key) (limit : Int) :
    (⟨⟨source, d, 0, none⟩, fieldnames, restkey, 0⟩ : DictReader).readAll limit =
      match fieldnames, (⟨source, d, 0, none⟩ : Reader).readAll limit with
      | some f, (rows, err) => ((rows.filter (· ≠ [])).map (rowDict f restkey), err)
      | none, ([], err) => ([], err)
      | none, (header :: rows, err) =>
        ((rows.filter (· ≠ [])).map (rowDict (header.map some) restkey), err) := by
  rw [Clever.readAll_eq]
  unfold parseData
  cases hc : d.cfg limit with
  | error e =>
    have hne := cfg_error_ne_stop hc
    have hnext : (⟨source, d, 0, none⟩ : Reader).next limit = (⟨source, d, 0, none⟩, .error e) := by
      simp only [Reader.next, Reader.iter, hc, bind, Except.bind]
    cases fieldnames with
    | none =>
      cases e <;> first
        | exact absurd rfl hne
        | simp only [DictReader.readAll, DictReader.readAux, DictReader.next, DictReader.getFieldnames,
            if_true, hnext]
    | some f =>
      cases e <;> first
        | exact absurd rfl hne
        | (simp only [DictReader.readAll, DictReader.readAux, DictReader.next, DictReader.getFieldnames,
            if_true, hnext]; rfl)
  | ok cfg =>
    have hd : Delivers limit cfg ⟨source, d, 0, none⟩ source.items := by
      cases source with
      | stream items => exact .stream _ _ _ _ hc (by simp)
      | seq items => exact .fresh _ _ _ hc
    have hlt : source.items.length < (⟨source, d, 0, none⟩ : Reader).left + 1 := by
      rw [hd.left]; omega
    simp only [DictReader.readAll]
    cases fieldnames with
    | some f =>
      rw [DictReader.readAux_some f restkey _ 0 hd hlt]
      rfl
    | none =>
      rw [DictReader.readAux_none restkey _ hd hlt]
      rcases parseRows cfg mkPlain source.items with ⟨_ | ⟨h, rows⟩, err⟩ <;> rfl

/-! ## `DictWriter` -/

theorem dictGet_eq_none {K V : Type} [DecidableEq K] {k : K} {d : List (K × V)} :
    dictGet k d = none ↔ k ∉ d.map Prod.fst := by
  refine ⟨?_, dictGet_none⟩
  induction d with
  | nil => simp
  | cons p d ih =>
    rcases p with ⟨a, b⟩
    rw [dictGet]
    split
    · simp
    · next h =>
      intro h'
      simp only [List.map_cons, List.mem_cons, not_or]
      exact ⟨Ne.symm h, ih h'⟩

/-- Looking up a name in `dict(zip(names, names))`. -/
theorem dictGet_self {K : Type} [DecidableEq K] (k : K) : ∀ (names : List K) (d : List (K × K)),
    (∀ a b, dictGet a d = some b → b = a) →
    dictGet k ((names.zip names).foldl (fun d p => dictPut p.1 p.2 d) d) =
      if k ∈ names then some k else dictGet k d
  | [], d, _ => by simp
  | a :: names, d, h => by
    rw [List.zip_cons_cons, List.foldl_cons, dictGet_self k names]
    · rw [dictGet_set]
      by_cases h1 : k = a <;> by_cases h2 : k ∈ names <;> simp_all
    · intro x y
      rw [dictGet_set]
      split
      · next hx => intro hy; cases hy; exact hx.symm
      · exact h x y

theorem mem_dictOf_keys {K V : Type} [DecidableEq K] (k : K) (pairs d : List (K × V))
    (h : k ∈ (pairs.foldl (fun d p => dictPut p.1 p.2 d) d).map Prod.fst) :
    k ∈ pairs.map Prod.fst ∨ k ∈ d.map Prod.fst := by
  induction pairs generalizing d with
  | nil => exact .inr h
  | cons p pairs ih =>
    rcases ih _ h with h1 | h1
    · exact .inl (by simp only [List.map_cons, List.mem_cons]; exact .inr h1)
    · by_cases hp : p.1 ∈ d.map Prod.fst
      · rw [dictPut_keys _ _ _ hp] at h1
        exact .inr h1
      · rw [show (fun (d : List (K × V)) (p : K × V) => dictPut p.1 p.2 d) d p = dictPut p.1 p.2 d from rfl,
          dictPut_new _ _ _ hp] at h1
        simp only [List.map_append, List.mem_append, List.map_cons, List.map_nil, List.mem_singleton] at h1
        rcases h1 with h1 | rfl
        · exact .inr h1
        · exact .inl (by simp)

end Clever
