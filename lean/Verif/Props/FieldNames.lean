import Verif.Props.Dicts
import Mathlib.Data.List.Induction

/-!
# Property C105: the dictionaries of rows with repeated field names
-/
namespace Clever

namespace Spec

/-- The different elements of a list in the order of their first occurrences. -/
def firstNames {K : Type} [DecidableEq K] (l : List K) : List K :=
  l.foldl (fun seen k => if k ∈ seen then seen else seen ++ [k]) []

/-- The last place of an element. -/
def IsLastAt {K : Type} (l : List K) (k : K) (i : Nat) : Prop :=
  l[i]? = some k ∧ ∀ j, i < j → l[j]? ≠ some k

end Spec

open Spec

theorem foldl_dictPut_last {K V : Type} [DecidableEq K] {pairs : List (K × V)} {k : K} {v : V} {i : Nat}
    (h1 : pairs[i]? = some (k, v)) (h2 : ∀ j, i < j → (pairs.map Prod.fst)[j]? ≠ some k) (d : List (K × V)) :
    dictGet k (pairs.foldl (fun d p => dictPut p.1 p.2 d) d) = some v := by
  induction pairs using List.reverseRecOn generalizing i with
  | nil => simp at h1
  | append_singleton ps p ih =>
    rw [List.foldl_append, List.foldl_cons, List.foldl_nil, dictGet_set]
    by_cases hi : i < ps.length
    · have hp : k ≠ p.1 := by
        rintro rfl
        exact h2 ps.length hi (by simp)
      rw [if_neg hp]
      refine ih (i := i) ?_ ?_
      · rwa [List.getElem?_append_left hi] at h1
      · intro j hj hjk
        apply h2 j hj
        rw [List.map_append, List.getElem?_append_left]
        · exact hjk
        · exact (List.getElem?_eq_some_iff.1 hjk).1
    · have hi' : i = ps.length := by
        have := (List.getElem?_eq_some_iff.1 h1).1
        simp only [List.length_append, List.length_cons, List.length_nil] at this
        omega
      subst hi'
      simp only [List.getElem?_concat_length, Option.some.injEq] at h1
      rw [h1]
      simp

theorem foldl_dictPut_keys {K V : Type} [DecidableEq K] (pairs d : List (K × V)) :
    (pairs.foldl (fun d p => dictPut p.1 p.2 d) d).map Prod.fst =
      (pairs.map Prod.fst).foldl (fun seen k => if k ∈ seen then seen else seen ++ [k]) (d.map Prod.fst) := by
  induction pairs generalizing d with
  | nil => rfl
  | cons p ps ih =>
    rw [List.foldl_cons, ih, List.map_cons, List.foldl_cons]
    congr 1
    split
    · rename_i h
      exact dictPut_keys _ _ _ h
    · rename_i h
      rw [dictPut_new _ _ _ h, List.map_append]
      rfl

theorem mem_firstNames {K : Type} [DecidableEq K] {k : K} {l : List K} (h : k ∈ firstNames l) : k ∈ l := by
  have hfm : ∀ (l seen : List K), k ∈ l.foldl (fun seen k => if k ∈ seen then seen else seen ++ [k]) seen →
      k ∈ l ∨ k ∈ seen := by
    intro l
    induction l with
    | nil => intro seen h; exact .inr h
    | cons a l ih =>
      intro seen h
      rcases ih _ h with h | h
      · exact .inl (by simp [h])
      · dsimp only at h
        split at h
        · exact .inr h
        · rcases List.mem_append.1 h with h | h
          · exact .inr h
          · exact .inl (by simp [List.mem_singleton.1 h])
  rcases hfm l [] h with h | h
  · exact h
  · simp at h

theorem exists_last {K : Type} [DecidableEq K] {k : K} {l : List K} (h : k ∈ l) : ∃ a b, l = a ++ k :: b ∧ k ∉ b := by
  induction l using List.reverseRecOn with
  | nil => simp at h
  | append_singleton l y ih =>
    by_cases hy : y = k
    · exact ⟨l, [], by rw [hy], by simp⟩
    · obtain ⟨a, b, rfl, hb⟩ := ih (by
        rcases List.mem_append.1 h with h | h
        · exact h
        · exact absurd (List.mem_singleton.1 h).symm hy)
      exact ⟨a, b ++ [y], by simp, by simp [hb, Ne.symm hy]⟩

/-- The assignments that make the dictionary of a row. -/
def rowPairs (fields : List Key) (restkey : Key) (row : List Str) : List (Key × DVal) :=
  (fields.zip (row.map .cell) ++ (fields.drop row.length).map (·, DVal.restval)) ++
    if fields.length < row.length then [(restkey, .rest (row.drop fields.length))] else []

theorem rowDict_foldl (fields : List Key) (restkey : Key) (row : List Str) :
    rowDict fields restkey row = (rowPairs fields restkey row).foldl (fun d p => dictPut p.1 p.2 d) [] := by
  unfold rowDict rowPairs dictOf
  simp only
  rw [List.foldl_append, List.foldl_append, List.foldl_map]
  by_cases h : fields.length < row.length
  · rw [if_pos h, if_pos h, List.drop_eq_nil_of_le (as := fields) (i := row.length) (by omega)]
    rfl
  · rw [if_neg h, if_neg h]
    by_cases h' : fields.length > row.length
    · rw [if_pos h']
      rfl
    · rw [if_neg h', List.drop_eq_nil_of_le (by omega)]
      rfl

theorem rowPairs_fst (fields : List Key) (restkey : Key) (row : List Str) :
    (rowPairs fields restkey row).map Prod.fst = fields ++ if fields.length < row.length then [restkey] else [] := by
  unfold rowPairs
  rw [List.map_append, List.map_append, zip_fst_sublist, List.map_map, List.length_map]
  rw [show (Prod.fst ∘ fun x : Key => (x, DVal.restval)) = id from rfl, List.map_id, List.take_append_drop]
  split <;> rfl

theorem rowPairs_get {fields : List Key} (restkey : Key) (row : List Str) {k : Key} {i : Nat}
    (h : fields[i]? = some k) :
    (rowPairs fields restkey row)[i]? = some (k, match row[i]? with | some c => DVal.cell c | none => DVal.restval) := by
  obtain ⟨hi, hk⟩ := List.getElem?_eq_some_iff.1 h
  have hl : (fields.zip (row.map DVal.cell) ++ (fields.drop row.length).map (·, DVal.restval)).length =
      fields.length := by
    simp only [List.length_append, List.length_zip, List.length_map, List.length_drop]
    omega
  unfold rowPairs
  rw [List.getElem?_append_left (by omega)]
  by_cases hr : i < row.length
  · rw [List.getElem?_append_left (by simp; omega)]
    rw [List.getElem?_eq_getElem (by simp; omega), List.getElem_zip, List.getElem_map, hk, List.getElem?_eq_getElem hr]
  · rw [List.getElem?_append_right (by simp; omega)]
    have e : i - (fields.zip (row.map DVal.cell)).length = i - row.length := by
      simp only [List.length_zip, List.length_map]
      omega
    rw [e, List.getElem?_map, List.getElem?_drop, show row.length + (i - row.length) = i by omega, h,
      List.getElem?_eq_none (by omega)]
    rfl

namespace Props

/-- **C105**, keys: each field name is a key once, in the order of the first occurrences, followed by `restkey` if there
are surplus cells and it is not a field name. -/
theorem C105_keys (fields : List Key) (restkey : Key) (row : List Str) :
    (rowDict fields restkey row).map Prod.fst =
      firstNames (fields ++ if fields.length < row.length then [restkey] else []) := by
  rw [rowDict_foldl, foldl_dictPut_keys, rowPairs_fst]
  rfl

/-- **C105**, cells: the value of a field name is the cell in the column of its last occurrence, or `restval` if the row
has no such cell; except for `restkey` if there are surplus cells. -/
theorem C105_cell (fields : List Key) (restkey : Key) (row : List Str) (k : Key) (i : Nat) (h : IsLastAt fields k i)
    (hr : k = restkey → row.length ≤ fields.length) :
    dictGet k (rowDict fields restkey row) =
      some (match row[i]? with | some c => DVal.cell c | none => DVal.restval) := by
  rw [rowDict_foldl]
  refine foldl_dictPut_last (rowPairs_get restkey row h.1) ?_ []
  intro j hj
  rw [rowPairs_fst]
  by_cases hl : j < fields.length
  · rw [List.getElem?_append_left hl]
    exact h.2 j hj
  · rw [List.getElem?_append_right (by omega)]
    split
    · rename_i hlt
      by_cases hk : k = restkey
      · have := hr hk
        omega
      · intro hj'
        have := List.mem_of_getElem? hj'
        simp at this
        exact hk this
    · simp

/-- **C105**, surplus cells: `restkey` has them, whether it is a field name or not. -/
theorem C105_surplus (fields : List Key) (restkey : Key) (row : List Str) (h : fields.length < row.length) :
    dictGet restkey (rowDict fields restkey row) = some (.rest (row.drop fields.length)) := by
  rw [rowDict, if_pos h, dictGet_set, if_pos rfl]

/-- **C105**, dropped columns: if a field name occurs again, its first column is in no dictionary: two rows that differ
in this column only have the same dictionary. -/
theorem C105_dropped (fields : List Key) (restkey : Key) (row : List Str) (i j : Nat) (k : Key) (hij : i < j)
    (hj : j < row.length) (h1 : fields[i]? = some k) (h2 : fields[j]? = some k) (c : Str) :
    ∀ key, dictGet key (rowDict fields restkey (row.set i c)) = dictGet key (rowDict fields restkey row) := by
  intro key
  have hl : (row.set i c).length = row.length := List.length_set
  have hjf := (List.getElem?_eq_some_iff.1 h2).1
  by_cases hs : key = restkey ∧ fields.length < row.length
  · obtain ⟨rfl, hs⟩ := hs
    rw [C105_surplus _ _ _ hs, C105_surplus _ _ _ (by omega), List.drop_set_of_lt (by omega)]
  · by_cases hk : key ∈ fields
    · obtain ⟨m, hm⟩ : ∃ m, IsLastAt fields key m := by
        obtain ⟨a, b, hab, hb⟩ := exists_last hk
        refine ⟨a.length, by simp [hab], fun n hn hc => hb ?_⟩
        rw [hab, List.getElem?_append_right (by omega)] at hc
        obtain ⟨q, hq⟩ : ∃ q, n - a.length = q + 1 := ⟨n - a.length - 1, by omega⟩
        rw [hq, List.getElem?_cons_succ] at hc
        exact List.mem_of_getElem? hc
      have hmi : m ≠ i := by
        rintro rfl
        have : key = k := by
          have := hm.1
          rw [h1] at this
          exact (Option.some.inj this).symm
        subst this
        exact hm.2 j hij h2
      rw [C105_cell _ _ _ key m hm (fun e => by
          rcases Nat.lt_or_ge fields.length row.length with hlt | hge
          · exact absurd ⟨e, hlt⟩ hs
          · omega),
        C105_cell _ _ _ key m hm (fun e => by
          rcases Nat.lt_or_ge fields.length row.length with hlt | hge
          · exact absurd ⟨e, hlt⟩ hs
          · omega), List.getElem?_set_ne (Ne.symm hmi)]
    · have hn : ∀ r : List Str, r.length = row.length → dictGet key (rowDict fields restkey r) = none := by
        intro r hr
        rw [dictGet_eq_none, C105_keys, hr]
        intro hm
        · rcases List.mem_append.1 (mem_firstNames hm) with h | h
          · exact hk h
          · split at h
            · rename_i hlt
              exact hs ⟨List.mem_singleton.1 h, hlt⟩
            · simp at h
      rw [hn _ hl, hn _ rfl]

/-- Three columns, two of them with the same name. -/
example : rowDict [some ['a'], some ['b'], some ['a']] none [['1'], ['2'], ['3'], ['4']] =
    [(some ['a'], .cell ['3']), (some ['b'], .cell ['2']), (none, .rest [['4']])] := by decide

/-- The last column with the name has no cell: the value is `restval`, although an earlier column has one. -/
example : rowDict [some ['a'], some ['b'], some ['a']] none [['1'], ['2']] =
    [(some ['a'], .restval), (some ['b'], .cell ['2'])] ∧ IsLastAt [some ['a'], some ['b'], some ['a']] (some ['a']) 2 := by
  refine ⟨by decide, rfl, ?_⟩
  intro j hj
  rw [List.getElem?_eq_none (by simp; omega)]
  simp

end Props

end Clever
