import Verif.Proofs.BreakTies

/-! # Tie breaking and the order of the dialects -/

namespace Clever

theorem SimpleDialect.ext_iff' {A B : SimpleDialect} :
    A = B ↔ A.delimiter = B.delimiter ∧ A.quotechar = B.quotechar ∧ A.escapechar = B.escapechar ∧
      A.strict = B.strict := by
  cases A; cases B; simp

theorem tieQuote_symm {limit : Int} {data : Str} {A B : SimpleDialect} (hne : A.quotechar ≠ B.quotechar) :
    tieQuote limit data A B = tieQuote limit data B A := by
  have hAB : A ≠ B := fun h => hne (by rw [h])
  unfold tieQuote
  by_cases ha : A.quotechar = some []
  · have hb : B.quotechar ≠ some [] := fun h => hne (by rw [ha, h])
    simp [ha, hb, hAB, Ne.symm hAB]
  · by_cases hb : B.quotechar = some []
    · simp [ha, hb, hAB, Ne.symm hAB]
    · simp [ha, hb]

theorem tieDelimiter_symm {A B : SimpleDialect} (hne : A.delimiter ≠ B.delimiter) :
    tieDelimiter A B = tieDelimiter B A := by
  unfold tieDelimiter
  by_cases h1 : A.delimiter = some [','] <;> by_cases h2 : B.delimiter = some [','] <;>
  by_cases h3 : A.delimiter = some [' '] <;> by_cases h4 : B.delimiter = some [' '] <;>
  by_cases h5 : A.delimiter = some ['-'] <;> by_cases h6 : B.delimiter = some ['-'] <;>
  simp_all

theorem tieEscape_symm {limit : Int} {data : Str} {A B : SimpleDialect}
    (hne : A.escapechar ≠ B.escapechar) (h : A.escapechar = some [] ∨ B.escapechar = some []) :
    tieEscape limit data A B = tieEscape limit data B A := by
  unfold tieEscape
  rcases h with h | h
  · have hb : B.escapechar ≠ some [] := fun h' => hne (by rw [h, h'])
    simp [h, hb]
  · have hb : A.escapechar ≠ some [] := fun h' => hne (by rw [h, h'])
    simp [h, hb]

theorem tieQuoteEscape_symm {limit : Int} {data : Str} {A B : SimpleDialect}
    (hne : A.quotechar ≠ B.quotechar) :
    tieQuoteEscape limit data A B = tieQuoteEscape limit data B A := by
  have hAB : A ≠ B := fun h => hne (by rw [h])
  unfold tieQuoteEscape
  simp only
  by_cases ha : A.quotechar = some [] ∧ A.escapechar = some []
  · have hb : ¬ (B.quotechar = some [] ∧ B.escapechar = some []) := fun h => hne (by rw [ha.1, h.1])
    have ha' : (decide (A.quotechar = some []) && decide (A.escapechar = some [])) = true := by simp [ha]
    have hb' : (decide (B.quotechar = some []) && decide (B.escapechar = some [])) = false := by
      simpa using hb
    simp only [ha', hb', if_true, true_or, or_true, Bool.false_eq_true, if_false,
      hAB]
  · have ha' : (decide (A.quotechar = some []) && decide (A.escapechar = some [])) = false := by
      simpa using ha
    by_cases hb : B.quotechar = some [] ∧ B.escapechar = some []
    · have hb' : (decide (B.quotechar = some []) && decide (B.escapechar = some [])) = true := by
        simp [hb]
      simp only [ha', hb', if_true, true_or, or_true, Bool.false_eq_true, if_false,
        Ne.symm hAB]
    · have hb' : (decide (B.quotechar = some []) && decide (B.escapechar = some [])) = false := by
        simpa using hb
      simp only [ha', hb', Bool.false_eq_true, or_self, if_false]

/-- At most one of the two escapechars is non-empty, or they are equal. -/
def EscCompat (A B : SimpleDialect) : Prop :=
  A.escapechar = B.escapechar ∨ A.escapechar = some [] ∨ B.escapechar = some []

theorem breakTiesTwo_symm {limit : Int} {data : Str} {A B : SimpleDialect} (hs : A.strict = B.strict)
    (he : EscCompat A B) : breakTiesTwo limit data A B = breakTiesTwo limit data B A := by
  by_cases hAB : A = B
  · rw [hAB]
  rw [SimpleDialect.ext_iff'] at hAB
  unfold breakTiesTwo
  have c1 : onlyQuotechar A B = onlyQuotechar B A := by simp [onlyQuotechar, eq_comm]
  have c2 : onlyDelimiter A B = onlyDelimiter B A := by simp [onlyDelimiter, eq_comm]
  have c3 : onlyEscapechar A B = onlyEscapechar B A := by simp [onlyEscapechar, eq_comm]
  have c4 : A.delimiter = B.delimiter ↔ B.delimiter = A.delimiter := eq_comm
  rw [← c1, ← c2, ← c3]
  by_cases h1 : onlyQuotechar A B = true
  · rw [if_pos h1, if_pos h1]
    apply tieQuote_symm
    intro hq
    simp [onlyQuotechar] at h1
    exact hAB ⟨h1.1, hq, h1.2, hs⟩
  rw [if_neg h1, if_neg h1]
  by_cases h2 : onlyDelimiter A B = true
  · rw [if_pos h2, if_pos h2]
    rw [tieDelimiter_symm]
    intro hq
    simp [onlyDelimiter] at h2
    exact hAB ⟨hq, h2.1, h2.2, hs⟩
  rw [if_neg h2, if_neg h2]
  by_cases h3 : onlyEscapechar A B = true
  · rw [if_pos h3, if_pos h3]
    simp [onlyEscapechar] at h3
    have hne : A.escapechar ≠ B.escapechar := fun hq => hAB ⟨h3.1, h3.2, hq, hs⟩
    exact tieEscape_symm hne (he.resolve_left hne)
  rw [if_neg h3, if_neg h3]
  by_cases h4 : A.delimiter = B.delimiter
  · rw [if_pos h4, if_pos h4.symm]
    apply tieQuoteEscape_symm
    intro hq
    simp [onlyEscapechar, h4] at h3
    exact h3 hq
  · rw [if_neg h4, if_neg (fun h => h4 h.symm)]

/-! ## Three dialects -/

theorem onlyQuotechar_two {limit : Int} {data : Str} {A B : SimpleDialect} {p : List (List Str)}
    (hd : A.delimiter = B.delimiter) (he : A.escapechar = B.escapechar) (hq : A.quotechar ≠ B.quotechar)
    (hA : parseAll limit data A = .ok p) (hB : parseAll limit data B = .ok p) :
    breakTiesTwo limit data A B =
      .ok (if A.quotechar = some [] then some A else if B.quotechar = some [] then some B else none) := by
  have hAB : A ≠ B := fun h => hq (by rw [h])
  unfold breakTiesTwo
  rw [if_pos (by simp [onlyQuotechar, hd, he])]
  unfold tieQuote
  by_cases ha : A.quotechar = some []
  · have hb : B.quotechar ≠ some [] := fun h => hq (by rw [ha, h])
    simp [ha, hA, hB]
  · by_cases hb : B.quotechar = some []
    · simp [ha, hb, hA, hB, Ne.symm hAB]
    · simp [ha, hb]

/-- What `break_ties_three` does for dialects that differ in the quotechar only. -/
theorem breakTiesThree_quote {ord : SetOrder} {limit : Int} {data : Str} {A B C : SimpleDialect}
    {pA pB pC : List (List Str)}
    (hA : parseAll limit data A = .ok pA) (hB : parseAll limit data B = .ok pB)
    (hC : parseAll limit data C = .ok pC)
    (hd : A.delimiter = B.delimiter ∧ B.delimiter = C.delimiter)
    (he : A.escapechar = B.escapechar ∧ B.escapechar = C.escapechar)
    (h12 : A.quotechar ≠ B.quotechar) (h13 : A.quotechar ≠ C.quotechar)
    (h23 : B.quotechar ≠ C.quotechar) :
    breakTiesThree ord limit data A B C =
      .ok (if pA = pB ∧ pB = pC then [A, B, C].find? (fun d => d.quotechar = some []) else none) := by
  have nAB : A ≠ B := fun h => h12 (by rw [h])
  have nAC : A ≠ C := fun h => h13 (by rw [h])
  have nBC : B ≠ C := fun h => h23 (by rw [h])
  have heq : equalDelim [A, B, C] = true := by
    simp [equalDelim, hd.1, hd.2, List.dedup_cons_of_mem]
  have single : ∀ x : SimpleDialect, ∀ l : List SimpleDialect, l.dedup = [x] → ord.dialects l = [x] := by
    intro x l hl
    have := ord.dialects_perm l
    rw [hl] at this
    exact List.perm_singleton.mp this
  have notSingle : ∀ l : List SimpleDialect, 2 ≤ l.dedup.length → ∀ x, ord.dialects l ≠ [x] := by
    intro l hl x hx
    have := (ord.dialects_perm l).length_eq
    rw [hx] at this
    simp at this
    omega
  unfold breakTiesThree
  simp only [hA, hB, hC]
  rw [if_pos ⟨hd, he⟩]
  have two12 : pA = pB → breakTiesTwo limit data A B = _ := fun h =>
    onlyQuotechar_two hd.1 he.1 h12 hA (h ▸ hB)
  have two23 : pB = pC → breakTiesTwo limit data B C = _ := fun h =>
    onlyQuotechar_two hd.2 he.2 h23 hB (h ▸ hC)
  by_cases e1 : pA = pB
  · by_cases e2 : pB = pC
    · subst e1 e2
      have t12 := two12 rfl
      have t23 := two23 rfl
      have red : reducePairwise ord limit data [A, B, C] = .ok (some (ord.dialects
          ((if A.quotechar = some [] then some A else if B.quotechar = some [] then some B else none).toList ++
            (if B.quotechar = some [] then some B else if C.quotechar = some [] then some C else none).toList))) := by
        simp [reducePairwise, heq, pairwise, equalPairs, hA, hB, hC, pairAnswers, t12, t23]
      simp only [ne_eq, not_true_eq_false, or_self, if_false, and_self, if_true]
      by_cases a : A.quotechar = some []
      · have b : B.quotechar ≠ some [] := fun h => h12 (by rw [a, h])
        have c : C.quotechar ≠ some [] := fun h => h13 (by rw [a, h])
        simp only [a, b, c, if_true, if_false, Option.toList_some, Option.toList_none] at red
        rw [single A _ (by simp)] at red
        simp [a, red]
      · by_cases b : B.quotechar = some []
        · simp only [a, b, if_true, if_false, Option.toList_some] at red
          rw [single B _ (by simp)] at red
          simp [a, b, red]
        · by_cases c : C.quotechar = some []
          · simp only [a, b, c, if_true, if_false, Option.toList_some, Option.toList_none] at red
            rw [single C _ (by simp)] at red
            simp [a, b, c, red]
          · simp [a, b, c]
    · subst e1
      have t12 := two12 rfl
      have red : reducePairwise ord limit data [A, B, C] = .ok (some (ord.dialects
          ((if A.quotechar = some [] then some A else if B.quotechar = some [] then some B else none).toList ++
            [C]))) := by
        simp [reducePairwise, heq, pairwise, equalPairs, hA, hB, hC, pairAnswers, t12, e2, Ne.symm nAC,
          Ne.symm nBC]
      conv_rhs => rw [if_neg (fun h => e2 h.2)]
      split
      · rfl
      · have e2' : ¬ pC = pA := fun h => e2 h.symm
        by_cases a : A.quotechar = some []
        · simp only [a, if_true, Option.toList_some] at red
          have := notSingle ([A] ++ [C]) (by simp [nAC])
          simp [a, e2', red]
          split <;> simp_all
        · by_cases b : B.quotechar = some []
          · simp only [a, b, if_true, if_false, Option.toList_some] at red
            have := notSingle ([B] ++ [C]) (by simp [nBC])
            simp [a, b, e2', red]
            split <;> simp_all
          · by_cases c : C.quotechar = some []
            · simp [a, b, c, e2, e2']
            · simp [a, b, c]
  · conv_rhs => rw [if_neg (fun h => e1 h.1)]
    split
    · rfl
    have e1' : ¬ pB = pA := fun h => e1 h.symm
    by_cases e2 : pB = pC
    · subst e2
      have t23 := two23 rfl
      have red : reducePairwise ord limit data [A, B, C] = .ok (some (ord.dialects
          ((if B.quotechar = some [] then some B else if C.quotechar = some [] then some C else none).toList ++
            [A]))) := by
        simp [reducePairwise, heq, pairwise, equalPairs, hA, hB, hC, pairAnswers, t23, e1, nAB, nAC]
      by_cases a : A.quotechar = some []
      · simp [a, e1, e1']
      · by_cases b : B.quotechar = some []
        · simp only [b, if_true, Option.toList_some] at red
          have := notSingle ([B] ++ [A]) (by simp [Ne.symm nAB])
          simp [a, b, e1, red]
          split <;> simp_all
        · by_cases c : C.quotechar = some []
          · simp only [b, c, if_true, if_false, Option.toList_some] at red
            have := notSingle ([C] ++ [A]) (by simp [Ne.symm nAC])
            simp [a, b, c, e1, red]
            split <;> simp_all
          · simp [a, b, c]
    · have e2' : ¬ pC = pB := fun h => e2 h.symm
      have red : reducePairwise ord limit data [A, B, C] = .ok (some (ord.dialects [A, B, C])) := by
        simp [reducePairwise, heq, pairwise, equalPairs, hA, hB, hC, pairAnswers, e1, e2]
      have hns := notSingle [A, B, C] (by
        rw [List.Nodup.dedup (by simp [nAB, nAC, nBC])]; simp)
      by_cases e3 : pA = pC
      · subst e3
        by_cases a : A.quotechar = some []
        · simp [a, e1', red]
          split <;> simp_all
        · by_cases b : B.quotechar = some []
          · simp [a, b, e1, e1']
          · by_cases c : C.quotechar = some []
            · simp [a, b, c, e1', red]
              split <;> simp_all
            · simp [a, b, c]
      · have e3' : ¬ pC = pA := fun h => e3 h.symm
        by_cases a : A.quotechar = some []
        · simp [a, e1, e3, e1', e3']
        · by_cases b : B.quotechar = some []
          · simp [a, b, e1, e1', e2, e2']
          · by_cases c : C.quotechar = some []
            · simp [a, b, c, e3, e2, e2', e3']
            · simp [a, b, c]

/-- What `break_ties_three` does for dialects with different escapechars. -/
theorem breakTiesThree_escape {ord : SetOrder} {limit : Int} {data : Str} {A B C : SimpleDialect}
    (he : ¬ (A.escapechar = B.escapechar ∧ B.escapechar = C.escapechar)) :
    breakTiesThree ord limit data A B C =
      if A.delimiter = B.delimiter ∧ B.delimiter = C.delimiter then
        match [A, B, C].filter (fun d => d.quotechar ≠ some []) with
        | [x, y] => breakTiesTwo limit data x y
        | _ => .ok none
      else .ok none := by
  unfold breakTiesThree
  simp only
  rw [if_neg (fun h => he h.2)]
  rfl

/-- A list of tied dialects. -/
structure Tied (limit : Int) (data : Str) (l : List SimpleDialect) : Prop where
  parses : ∀ d ∈ l, Parses limit data d
  strict : ∀ d ∈ l, d.strict = false
  compat : ∀ a ∈ l, ∀ b ∈ l, EscCompat a b
  nodup : l.Nodup

theorem Tied.perm {limit : Int} {data : Str} {l l' : List SimpleDialect} (h : Tied limit data l)
    (hp : l'.Perm l) : Tied limit data l' :=
  ⟨fun d hd => h.parses d (hp.mem_iff.mp hd), fun d hd => h.strict d (hp.mem_iff.mp hd),
    fun a ha b hb => h.compat a (hp.mem_iff.mp ha) b (hp.mem_iff.mp hb), hp.nodup_iff.mpr h.nodup⟩

theorem Tied.sub {limit : Int} {data : Str} {l l' : List SimpleDialect} (h : Tied limit data l)
    (hs : ∀ d ∈ l', d ∈ l) (hn : l'.Nodup) : Tied limit data l' :=
  ⟨fun d hd => h.parses d (hs d hd), fun d hd => h.strict d (hs d hd),
    fun a ha b hb => h.compat a (hs a ha) b (hs b hb), hn⟩

theorem breakTiesThree_swap {ord ord' : SetOrder} {limit : Int} {data : Str} {A B C : SimpleDialect}
    (h : Tied limit data [A, B, C]) :
    breakTiesThree ord limit data A B C = breakTiesThree ord' limit data B A C ∧
    breakTiesThree ord limit data A B C = breakTiesThree ord' limit data A C B := by
  obtain ⟨pA, hA⟩ := (h.parses A (by simp)).parses
  obtain ⟨pB, hB⟩ := (h.parses B (by simp)).parses
  obtain ⟨pC, hC⟩ := (h.parses C (by simp)).parses
  have sA := h.strict A (by simp)
  have sB := h.strict B (by simp)
  have sC := h.strict C (by simp)
  have hn := h.nodup
  simp only [List.nodup_cons, List.mem_cons, List.not_mem_nil, or_false, not_or, List.nodup_nil,
    and_true, not_false_eq_true] at hn
  by_cases he : A.escapechar = B.escapechar ∧ B.escapechar = C.escapechar
  · by_cases hd : A.delimiter = B.delimiter ∧ B.delimiter = C.delimiter
    · have h12 : A.quotechar ≠ B.quotechar := fun hq =>
        hn.1.1 (SimpleDialect.ext_iff'.mpr ⟨hd.1, hq, he.1, by rw [sA, sB]⟩)
      have h13 : A.quotechar ≠ C.quotechar := fun hq =>
        hn.1.2 (SimpleDialect.ext_iff'.mpr ⟨hd.1.trans hd.2, hq, he.1.trans he.2, by rw [sA, sC]⟩)
      have h23 : B.quotechar ≠ C.quotechar := fun hq =>
        hn.2 (SimpleDialect.ext_iff'.mpr ⟨hd.2, hq, he.2, by rw [sB, sC]⟩)
      rw [breakTiesThree_quote hA hB hC hd he h12 h13 h23,
        breakTiesThree_quote hB hA hC ⟨hd.1.symm, hd.1.trans hd.2⟩ ⟨he.1.symm, he.1.trans he.2⟩
          (Ne.symm h12) h23 h13,
        breakTiesThree_quote hA hC hB ⟨hd.1.trans hd.2, hd.2.symm⟩ ⟨he.1.trans he.2, he.2.symm⟩
          h13 h12 (Ne.symm h23)]
      constructor
      · congr 1
        by_cases a : A.quotechar = some [] <;> by_cases b : B.quotechar = some [] <;>
          by_cases c : C.quotechar = some [] <;> simp_all <;> grind
      · congr 1
        by_cases a : A.quotechar = some [] <;> by_cases b : B.quotechar = some [] <;>
          by_cases c : C.quotechar = some [] <;> simp_all <;> grind
    · have n1 : ∀ {o : SetOrder} {X Y Z : SimpleDialect},
          ¬ (X.delimiter = Y.delimiter ∧ Y.delimiter = Z.delimiter) →
          breakTiesThree o limit data X Y Z = .ok none := by
        intro o X Y Z hh
        unfold breakTiesThree
        simp only
        rw [if_neg (fun h => hh h.1), if_neg hh]
      rw [n1 hd, n1 (by grind), n1 (by grind)]
      exact ⟨rfl, rfl⟩
  · rw [breakTiesThree_escape he, breakTiesThree_escape (A := B) (B := A) (C := C) (by grind),
      breakTiesThree_escape (A := A) (B := C) (C := B) (by grind)]
    by_cases hd : A.delimiter = B.delimiter ∧ B.delimiter = C.delimiter
    · rw [if_pos hd, if_pos (by grind), if_pos (by grind)]
      have y12 := breakTiesTwo_symm (limit := limit) (data := data) (sA.trans sB.symm)
        (h.compat A (by simp) B (by simp))
      have y23 := breakTiesTwo_symm (limit := limit) (data := data) (sB.trans sC.symm)
        (h.compat B (by simp) C (by simp))
      constructor
      · by_cases a : A.quotechar = some [] <;> by_cases b : B.quotechar = some [] <;>
          by_cases c : C.quotechar = some [] <;> simp [a, b, c, y12, List.filter_cons]
      · by_cases a : A.quotechar = some [] <;> by_cases b : B.quotechar = some [] <;>
          by_cases c : C.quotechar = some [] <;> simp [a, b, c, y23, List.filter_cons]
    · rw [if_neg hd, if_neg (by grind), if_neg (by grind)]
      exact ⟨rfl, rfl⟩

theorem breakTiesThree_perm {ord ord' : SetOrder} {limit : Int} {data : Str}
    {A B C A' B' C' : SimpleDialect} (h : Tied limit data [A, B, C])
    (hp : [A', B', C'].Perm [A, B, C]) :
    breakTiesThree ord limit data A B C = breakTiesThree ord' limit data A' B' C' := by
  have same : ∀ {o o' : SetOrder} {X Y Z : SimpleDialect}, Tied limit data [X, Y, Z] →
      breakTiesThree o limit data X Y Z = breakTiesThree o' limit data X Y Z := by
    intro o o' X Y Z ht
    rw [(breakTiesThree_swap (ord' := o') ht).1,
      (breakTiesThree_swap (ord' := o') (ht.perm (l' := [Y, X, Z]) (.swap _ _ _))).1]
  have s12 : ∀ {o o' : SetOrder} {X Y Z : SimpleDialect}, Tied limit data [X, Y, Z] →
      breakTiesThree o limit data X Y Z = breakTiesThree o' limit data Y X Z := fun ht =>
    (breakTiesThree_swap ht).1
  have s23 : ∀ {o o' : SetOrder} {X Y Z : SimpleDialect}, Tied limit data [X, Y, Z] →
      breakTiesThree o limit data X Y Z = breakTiesThree o' limit data X Z Y := fun ht =>
    (breakTiesThree_swap ht).2
  have hn := h.nodup
  have hn' := hp.nodup_iff.mpr hn
  have mA := hp.mem_iff.mp (show A' ∈ [A', B', C'] by simp)
  have mB := hp.mem_iff.mp (show B' ∈ [A', B', C'] by simp)
  have mC := hp.mem_iff.mp (show C' ∈ [A', B', C'] by simp)
  simp only [List.mem_cons, List.not_mem_nil, or_false] at mA mB mC
  simp only [List.nodup_cons, List.mem_cons, List.not_mem_nil, or_false, not_or, List.nodup_nil,
    and_true, not_false_eq_true] at hn hn'
  have hBAC := h.perm (l' := [B, A, C]) (.swap _ _ _)
  have hACB := h.perm (l' := [A, C, B]) (.cons _ (.swap _ _ _))
  rcases mA with rfl | rfl | rfl
  · rcases mB with rfl | rfl | rfl
    · exact absurd rfl hn'.1.1
    · rcases mC with rfl | rfl | rfl
      · exact absurd rfl hn'.1.2
      · exact absurd rfl hn'.2
      · exact same h
    · rcases mC with rfl | rfl | rfl
      · exact absurd rfl hn'.1.2
      · exact s23 h
      · exact absurd rfl hn'.2
  · rcases mB with rfl | rfl | rfl
    · rcases mC with rfl | rfl | rfl
      · exact absurd rfl hn'.2
      · exact absurd rfl hn'.1.2
      · exact s12 h
    · exact absurd rfl hn'.1.1
    · rcases mC with rfl | rfl | rfl
      · rw [s12 (o' := ord) h]; exact s23 hBAC
      · exact absurd rfl hn'.1.2
      · exact absurd rfl hn'.2
  · rcases mB with rfl | rfl | rfl
    · rcases mC with rfl | rfl | rfl
      · exact absurd rfl hn'.2
      · rw [s23 (o' := ord) h]; exact s12 hACB
      · exact absurd rfl hn'.1.2
    · rcases mC with rfl | rfl | rfl
      · rw [s23 (o' := ord) h, s12 (o' := ord) hACB]
        exact s23 (hACB.perm (.swap _ _ _))
      · exact absurd rfl hn'.2
      · exact absurd rfl hn'.1.2
    · exact absurd rfl hn'.1.1

/-! ## Any number of dialects -/

/-- The part of `reduce_pairwise` before the set is enumerated. -/
def reduceInsertions (limit : Int) (data : Str) (ds : List SimpleDialect) :
    Except PyExc (Option (List SimpleDialect)) :=
  if !equalDelim ds then .ok none
  else
    match equalPairs limit data (pairwise ds) with
    | .error e => .error e
    | .ok ps =>
      match pairAnswers limit data ps with
      | .error e => .error e
      | .ok ans =>
        .ok (some (ans ++ ds.filter (fun d => !(ps.flatMap (fun p => [p.1, p.2])).contains d)))

theorem reducePairwise_eq (ord : SetOrder) (limit : Int) (data : Str) (ds : List SimpleDialect) :
    reducePairwise ord limit data ds = (reduceInsertions limit data ds).map (Option.map ord.dialects) := by
  unfold reducePairwise reduceInsertions
  cases equalDelim ds with
  | false => rfl
  | true =>
    cases equalPairs limit data (pairwise ds) with
    | error e => rfl
    | ok ps =>
      simp only
      cases pairAnswers limit data ps with
      | error e => rfl
      | ok ans => rfl

theorem breakTiesFour_order {ord ord' : SetOrder} {limit : Int} {data : Str} {ds : List SimpleDialect}
    (h : Tied limit data ds) :
    breakTiesFour ord limit data ds = breakTiesFour ord' limit data ds := by
  unfold breakTiesFour
  split
  · rfl
  have e1 := reducePairwise_eq ord limit data ds
  have e2 := reducePairwise_eq ord' limit data ds
  cases hr : reduceInsertions limit data ds with
  | error e => rw [e1, e2, hr]; rfl
  | ok r =>
    cases r with
    | none => rw [e1, e2, hr]; rfl
    | some L =>
      rw [hr] at e1 e2
      simp only [Except.map, Option.map] at e1 e2
      have hp : (ord'.dialects L).Perm (ord.dialects L) :=
        (ord'.dialects_perm L).trans (ord.dialects_perm L).symm
      have ht : Tied limit data (ord.dialects L) :=
        h.sub (reducePairwise_mem e1) (ord.nodup_dialects L)
      have ht' : Tied limit data (ord'.dialects L) := ht.perm hp
      rw [e1, e2]
      clear e1 e2
      generalize ord.dialects L = l at *
      generalize ord'.dialects L = l' at *
      have hlen := hp.length_eq
      match l, l', hlen with
      | [], [], _ => rfl
      | [x], [x'], _ =>
        have := List.perm_singleton.mp hp
        simp at this
        simp [this]
      | [x, y], [x', y'], _ =>
        have mx := hp.mem_iff.mp (show x' ∈ [x', y'] by simp)
        have my := hp.mem_iff.mp (show y' ∈ [x', y'] by simp)
        have hn' := ht'.nodup
        simp at mx my hn'
        simp only
        rcases mx with rfl | rfl
        · rcases my with rfl | rfl
          · exact absurd rfl hn'
          · rfl
        · rcases my with rfl | rfl
          · exact breakTiesTwo_symm ((ht.strict _ (by simp)).trans (ht.strict _ (by simp)).symm)
              (ht.compat _ (by simp) _ (by simp))
          · exact absurd rfl hn'
      | [x, y, z], [x', y', z'], _ => exact breakTiesThree_perm ht hp
      | _ :: _ :: _ :: _ :: _, _ :: _ :: _ :: _ :: _, _ => rfl

/-- The tie breaker does not depend on the enumeration of sets, unless two different escapechars
occur. -/
theorem tieBreaker_order {ord ord' : SetOrder} {limit : Int} {data : Str} {ds : List SimpleDialect}
    (h : Tied limit data ds) : tieBreaker ord limit data ds = tieBreaker ord' limit data ds := by
  unfold tieBreaker
  split
  · rfl
  · exact breakTiesThree_perm h (.refl _)
  · exact breakTiesFour_order h
  · rfl

end Clever
