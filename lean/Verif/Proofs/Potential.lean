import Verif.Model.Potential

/-! # Facts about the candidate dialects -/

namespace Clever

theorem pairwise_mem {α : Type} {a b : α} {s : List α} :
    (a, b) ∈ pairwise s ↔ ∃ u v, s = u ++ a :: b :: v := by
  induction s with
  | nil => simp [pairwise]
  | cons x xs ih =>
    cases xs with
    | nil =>
      simp only [pairwise, List.not_mem_nil, false_iff, not_exists]
      intro u v h
      have := congrArg List.length h
      simp at this
      omega
    | cons y ys =>
      simp only [pairwise, List.mem_cons, Prod.mk.injEq, ih]
      constructor
      · rintro (⟨rfl, rfl⟩ | ⟨u, v, h⟩)
        · exact ⟨[], ys, rfl⟩
        · exact ⟨x :: u, v, by rw [h]; rfl⟩
      · rintro ⟨u, v, h⟩
        cases u with
        | nil =>
          simp at h
          exact .inl ⟨h.1.symm, h.2.1.symm⟩
        | cons z u =>
          simp at h
          exact .inr ⟨u, v, h.2⟩

theorem SetOrder.mem_strs (ord : SetOrder) {l : List Str} {x : Str} : x ∈ ord.strs l ↔ x ∈ l := by
  rw [(ord.strs_perm l).mem_iff, List.mem_dedup]

theorem SetOrder.mem_chars (ord : SetOrder) {l : List Char} {x : Char} : x ∈ ord.chars l ↔ x ∈ l := by
  rw [(ord.chars_perm l).mem_iff, List.mem_dedup]

theorem SetOrder.mem_dialects (ord : SetOrder) {l : List SimpleDialect} {x : SimpleDialect} :
    x ∈ ord.dialects l ↔ x ∈ l := by
  rw [(ord.dialects_perm l).mem_iff, List.mem_dedup]

theorem SetOrder.nodup_strs (ord : SetOrder) (l : List Str) : (ord.strs l).Nodup :=
  (ord.strs_perm l).nodup_iff.mpr (List.nodup_dedup l)

theorem SetOrder.nodup_dialects (ord : SetOrder) (l : List SimpleDialect) : (ord.dialects l).Nodup :=
  (ord.dialects_perm l).nodup_iff.mpr (List.nodup_dedup l)

theorem mem_getDelimiters {env : PyEnv} {ord : SetOrder} {data : Str} {ds : Option (List Str)}
    {x : Str} : x ∈ getDelimiters env ord data ds ↔
      x = [] ∨ ∃ c ∈ data, isDelimiter env ds c = true ∧ x = [c] := by
  simp only [getDelimiters, List.mem_append, List.mem_map, List.mem_filter, ord.mem_chars,
    List.mem_singleton]
  constructor
  · rintro (⟨c, ⟨h1, h2⟩, rfl⟩ | rfl)
    · exact .inr ⟨c, h1, h2, rfl⟩
    · exact .inl rfl
  · rintro (rfl | ⟨c, h1, h2, rfl⟩)
    · exact .inr rfl
    · exact .inl ⟨c, ⟨h1, h2⟩, rfl⟩

theorem mem_quoteInsertions {ord : SetOrder} {qs data : List Char} {c : Char} :
    c ∈ quoteInsertions ord qs data ↔ c ∈ data ∧ c ∈ qs := by
  unfold quoteInsertions
  split <;> simp only [List.mem_filter, ord.mem_chars, List.contains_iff_mem]
  exact And.comm

theorem mem_getQuotecharsOf {ord : SetOrder} {data : Str} {qs : List Char} {x : Str} : x ∈ getQuotechars ord data qs ↔
    x = [] ∨ ∃ c ∈ data, c ∈ qs ∧ x = [c] := by
  simp only [getQuotechars, List.mem_append, List.mem_map, mem_quoteInsertions, List.mem_singleton]
  constructor
  · rintro (⟨c, ⟨h1, h2⟩, rfl⟩ | rfl)
    · exact .inr ⟨c, h1, h2, rfl⟩
    · exact .inl rfl
  · rintro (rfl | ⟨c, h1, h2, rfl⟩)
    · exact .inr rfl
    · exact .inl ⟨c, ⟨h1, h2⟩, rfl⟩

theorem mem_getQuotechars {ord : SetOrder} {data : Str} {x : Str} : x ∈ getQuotechars ord data ↔
    x = [] ∨ ∃ c ∈ data, c ∈ defaultQuoteChars ∧ x = [c] := mem_getQuotecharsOf

theorem mem_escapeInsertions {env : PyEnv} {data d q x : Str} :
    x ∈ escapeInsertions env data d q ↔
      x = [] ∨ ∃ u c n v, data = u ++ c :: n :: v ∧ x = [c] ∧ isPotentialEscapechar env c = true ∧
        ([n] = d ∨ [n] = q) := by
  simp only [escapeInsertions, List.mem_cons, List.mem_map, List.mem_filter, Prod.exists,
    Bool.and_eq_true, Bool.or_eq_true, decide_eq_true_eq]
  constructor
  · rintro (rfl | ⟨c, n, ⟨h1, h2, h3⟩, rfl⟩)
    · exact .inl rfl
    · obtain ⟨u, v, h⟩ := pairwise_mem.mp h1
      exact .inr ⟨u, c, n, v, h, rfl, h2, h3⟩
  · rintro (rfl | ⟨u, c, n, v, h, rfl, h2, h3⟩)
    · exact .inl rfl
    · exact .inr ⟨c, n, ⟨pairwise_mem.mpr ⟨u, v, h⟩, h2, h3⟩, rfl⟩

theorem mem_getDialects {env : PyEnv} {ord : SetOrder} {data : Str} {ds : Option (List Str)}
    {m : Bool} {x : SimpleDialect} : x ∈ getDialects env ord data ds m ↔
      ∃ d q e, x = mkDialect d q e ∧ d ∈ getDelimiters env ord (filterUrls env data) ds ∧
        q ∈ getQuotechars ord (filterUrls env data) ∧ e ∈ escapeInsertions env data d q ∧
        (m && maskedByQuotechar data q e d) = false := by
  simp only [getDialects, List.mem_flatMap, List.mem_map, List.mem_filter, ord.mem_strs,
    Bool.not_eq_true']
  constructor
  · rintro ⟨d, h1, q, h2, e, ⟨h3, h4⟩, rfl⟩
    exact ⟨d, q, e, rfl, h1, h2, h3, h4⟩
  · rintro ⟨d, q, e, rfl, h1, h2, h3, h4⟩
    exact ⟨d, h1, q, h2, e, ⟨h3, h4⟩, rfl⟩

theorem mkDialect_inj {d q e d' q' e' : Str} (h : mkDialect d q e = mkDialect d' q' e') :
    d = d' ∧ q = q' ∧ e = e' := by
  simp [mkDialect] at h
  exact h

theorem getDialects_nodup (env : PyEnv) (ord : SetOrder) (data : Str) (ds : Option (List Str))
    (m : Bool) : (getDialects env ord data ds m).Nodup := by
  simp only [getDialects]
  refine List.nodup_flatMap.mpr ⟨fun d _ => List.nodup_flatMap.mpr ⟨fun q _ => ?_, ?_⟩, ?_⟩
  · refine List.Nodup.map ?_ ((ord.nodup_strs _).filter _)
    intro a b hab
    exact (mkDialect_inj hab).2.2
  · refine List.Pairwise.imp ?_ (ord.nodup_strs _)
    intro q q' hq
    simp only [Function.onFun, List.disjoint_left, List.mem_map, not_exists]
    rintro x ⟨e, _, rfl⟩ e' ⟨_, h⟩
    exact hq (mkDialect_inj h).2.1.symm
  · refine List.Pairwise.imp ?_ (ord.nodup_strs _)
    intro d d' hd
    simp only [Function.onFun, List.disjoint_left, List.mem_flatMap, List.mem_map, not_exists]
    rintro x ⟨q, _, e, _, rfl⟩ q' ⟨_, e', _, h⟩
    exact hd (mkDialect_inj h).1.symm

/-- Substitution introduces only characters of the replacement. -/
theorem Re.mem_subAux {r : Re} {rep : Str} {c : Char} :
    ∀ (s : Str) (k : Nat) (pre : Str), c ∈ r.subAux rep k pre s → c ∈ rep ∨ c ∈ s := by
  intro s
  induction s with
  | nil => intro k pre h; simp [Re.subAux] at h
  | cons x xs ih =>
    intro k pre h
    cases k with
    | succ k =>
      rw [Re.subAux] at h
      rcases ih _ _ h with h | h <;> simp [h]
    | zero =>
      rw [Re.subAux] at h
      split at h
      · rcases List.mem_cons.mp h with rfl | h
        · simp
        · rcases ih _ _ h with h | h <;> simp [h]
      · split at h
        · rcases List.mem_append.mp h with h | h
          · exact .inl h
          · rcases ih _ _ h with h | h <;> simp [h]
        · rcases List.mem_cons.mp h with rfl | h
          · simp
          · rcases ih _ _ h with h | h <;> simp [h]

theorem mem_filterUrls {env : PyEnv} {data : Str} {c : Char} (h : c ∈ filterUrls env data) :
    c = 'U' ∨ c ∈ data := by
  rcases Re.mem_subAux data 0 [] h with h | h
  · exact .inl (by simpa using h)
  · exact .inr h

end Clever
