import Verif.Proofs.Ties
import Verif.Proofs.TieOrder

/-!
# The rules by which ties are broken: C83, C84
-/

namespace Clever.Props

open Spec

/-! ## C83: two dialects -/

/-- C83, the rule for the quotechar: if the dialects differ only in the quotechar and one has none, then that one is
chosen if the parses are equal, and otherwise the other one.  In both orders. -/
theorem C83_quote_rule (limit : Int) (data : Str) (N P : SimpleDialect) (X Y : List (List Str))
    (hs : N.strict = P.strict) (hd : N.delimiter = P.delimiter) (he : N.escapechar = P.escapechar)
    (hN : N.quotechar = some []) (hP : P.quotechar ≠ some [])
    (h1 : parseAll limit data N = .ok X) (h2 : parseAll limit data P = .ok Y) :
    breakTiesTwo limit data N P = .ok (some (if X = Y then N else P)) ∧
    breakTiesTwo limit data P N = .ok (some (if X = Y then N else P)) := by
  have key : breakTiesTwo limit data N P = .ok (some (if X = Y then N else P)) := by
    unfold breakTiesTwo onlyQuotechar tieQuote
    rw [if_pos (by simp [hd, he]), if_pos (Or.inl hN)]
    simp only [if_pos hN, if_true, h1, h2]
  exact ⟨key, by rw [breakTiesTwo_symm hs.symm (Or.inl he.symm)]; exact key⟩

/-- C83: two different quotechars are not told apart. -/
theorem C83_two_quotes (limit : Int) (data : Str) (P Q : SimpleDialect) (hd : P.delimiter = Q.delimiter)
    (he : P.escapechar = Q.escapechar) (hP : P.quotechar ≠ some []) (hQ : Q.quotechar ≠ some []) :
    breakTiesTwo limit data P Q = .ok none := by
  unfold breakTiesTwo onlyQuotechar tieQuote
  rw [if_pos (by simp [hd, he]), if_neg (by simp [hP, hQ])]

/-- C83, the rules for the delimiter: comma wins against space, in both orders. -/
theorem C83_comma_space (limit : Int) (data : Str) (A B : SimpleDialect) (hq : A.quotechar = B.quotechar)
    (he : A.escapechar = B.escapechar) (hA : A.delimiter = some [',']) (hB : B.delimiter = some [' ']) :
    breakTiesTwo limit data A B = .ok (some A) ∧ breakTiesTwo limit data B A = .ok (some A) := by
  unfold breakTiesTwo onlyQuotechar onlyDelimiter tieDelimiter
  constructor <;> simp [hA, hB, hq, he]

/-- C83: hyphen loses against every other delimiter, in both orders. -/
theorem C83_hyphen (limit : Int) (data : Str) (A B : SimpleDialect) (hq : A.quotechar = B.quotechar)
    (he : A.escapechar = B.escapechar) (hA : A.delimiter ≠ some ['-']) (hB : B.delimiter = some ['-']) :
    breakTiesTwo limit data A B = .ok (some A) ∧ breakTiesTwo limit data B A = .ok (some A) := by
  unfold breakTiesTwo onlyQuotechar onlyDelimiter tieDelimiter
  have hA' : ¬ (some ['-'] = A.delimiter) := fun h => hA h.symm
  constructor <;> simp [hA, hA', hB, hq, he]

/-- C83: there is no other rule for delimiters. -/
theorem C83_other_delimiters (limit : Int) (data : Str) (A B : SimpleDialect) (hd : A.delimiter ≠ B.delimiter)
    (hA : A.delimiter ≠ some ['-']) (hB : B.delimiter ≠ some ['-'])
    (h1 : ¬ (A.delimiter = some [','] ∧ B.delimiter = some [' ']))
    (h2 : ¬ (A.delimiter = some [' '] ∧ B.delimiter = some [','])) :
    breakTiesTwo limit data A B = .ok none := by
  unfold breakTiesTwo onlyQuotechar onlyDelimiter onlyEscapechar tieDelimiter
  rw [if_neg (by simp [hd])]
  split
  · rw [if_neg (not_or.2 ⟨h1, h2⟩), if_neg (not_or.2 ⟨hA, hB⟩)]
  · rw [if_neg (by simp [hd])]

/-- C83: nor for dialects that differ in the delimiter and something else. -/
theorem C83_delimiter_and_more (limit : Int) (data : Str) (A B : SimpleDialect) (hd : A.delimiter ≠ B.delimiter)
    (h : A.quotechar ≠ B.quotechar ∨ A.escapechar ≠ B.escapechar) : breakTiesTwo limit data A B = .ok none := by
  unfold breakTiesTwo onlyQuotechar onlyDelimiter onlyEscapechar
  rw [if_neg (by simp [hd]), if_neg, if_neg (by simp [hd]), if_neg hd]
  rcases h with h | h <;> simp [h]

/-- C83, the rule for the escapechar, as far as it holds: the dialects `N` without and `E` with an escapechar differ in
nothing else.  Tables of different shape leave the tie; so do equal tables; and otherwise the *first* cell that differs
decides: `E` is chosen if the escapechar precedes the quotechar in it a positive and even number of times, otherwise
`N`.  Missing: that all the cells that differ are looked at. -/
theorem C83_escape_partial (limit : Int) (data : Str) (N E : SimpleDialect) (X Y : List (List Str)) (e q : Char)
    (hs : N.strict = E.strict) (hd : N.delimiter = E.delimiter) (hq : N.quotechar = some [q])
    (hq' : E.quotechar = some [q]) (hN : N.escapechar = some []) (hE : E.escapechar = some [e])
    (h1 : parseAll limit data N = .ok X) (h2 : parseAll limit data E = .ok Y) :
    breakTiesTwo limit data N E = breakTiesTwo limit data E N ∧
    (¬ SameShape X Y → breakTiesTwo limit data N E = .ok none) ∧
    (X = Y → breakTiesTwo limit data N E = .ok none) ∧
    (∀ u v, SameShape X Y → (cellPairs X Y).find? (fun p => p.1 ≠ p.2) = some (u, v) →
      breakTiesTwo limit data N E =
        .ok (some (if 0 < escapedQuotes e q u ∧ escapedQuotes e q u % 2 = 0 then E else N))) := by
  have key : breakTiesTwo limit data N E = tieEscape limit data N E := by
    unfold breakTiesTwo onlyQuotechar onlyDelimiter onlyEscapechar
    rw [if_neg (by simp [hN, hE]), if_neg (by simp [hN, hE]), if_pos (by simp [hd, hq, hq'])]
  have hte : tieEscape limit data N E = if !sameShape X Y then .ok none else
      match diffCells X Y with
      | [] => .ok none
      | (u, _) :: _ => .ok (some (if 0 < countEscaped E u ∧ countEscaped E u % 2 = 0 then E else N)) := by
    unfold tieEscape
    simp only [if_pos hN, h1, h2]
    rfl
  refine ⟨breakTiesTwo_symm hs (Or.inr (Or.inl hN)), ?_, ?_, ?_⟩
  · intro hsh
    rw [key, hte, if_pos]
    rw [← sameShape_iff] at hsh
    simpa using hsh
  · rintro rfl
    have hsh : SameShape X X := rfl
    rw [key, hte, if_neg (by simpa using (sameShape_iff X X).2 hsh), diffCells_eq hsh]
    have : (cellPairs X X).filter (fun p => p.1 ≠ p.2) = [] := by
      rw [List.filter_eq_nil_iff]
      intro p hp
      have hz : ∀ {l : List Str} {p : Str × Str}, p ∈ l.zip l → p.1 = p.2 := by
        intro l p hp
        induction l with
        | nil => simp at hp
        | cons a l ih =>
          rcases List.mem_cons.1 hp with rfl | hp
          · rfl
          · exact ih hp
      simp [hz hp]
    rw [this]
  · intro u v hsh hf
    rw [key, hte, if_neg (by simpa using (sameShape_iff X Y).2 hsh), diffCells_eq hsh]
    rw [← List.head?_filter] at hf
    cases hl : (cellPairs X Y).filter (fun p => p.1 ≠ p.2) with
    | nil => rw [hl] at hf; cases hf
    | cons p l =>
      rw [hl] at hf
      simp only [List.head?_cons, Option.some.injEq] at hf
      subst hf
      simp only [countEscaped_eq hE hq']

/-- C83 is false for the escapechar: according to the comment in the code the escapechar has to precede the
quotechar an even number of times within each cell that differs, but only the first of them is looked at.  Here the
second cell has an odd number. -/
theorem C83_each_cell_violated :
    let data := "x\\'y\\'z,a\\'b".toList
    let N := mkDialect [','] ['\''] []
    let E := mkDialect [','] ['\''] ['\\']
    breakTiesTwo 131072 data N E = .ok (some E) ∧
    parseAll 131072 data N = .ok [["x\\'y\\'z".toList, "a\\'b".toList]] ∧
    parseAll 131072 data E = .ok [["x'y'z".toList, "a'b".toList]] ∧
    escapedQuotes '\\' '\'' "a\\'b".toList % 2 = 1 := by
  refine ⟨?_, ?_, ?_, ?_⟩ <;> decide +kernel

/-- C83, the rule for quotechar and escapechar: the dialect `N` has neither and `E` has both, with the same delimiter.
`E` is chosen if the tables have the same shape and all cells that differ contain the escapechar followed by the
quotechar; otherwise the tie is left.  In both orders. -/
theorem C83_quote_escape (limit : Int) (data : Str) (N E : SimpleDialect) (X Y : List (List Str)) (e q : Char)
    (hd : N.delimiter = E.delimiter) (hNq : N.quotechar = some [])
    (hNe : N.escapechar = some []) (hEq : E.quotechar = some [q]) (hEe : E.escapechar = some [e])
    (h1 : parseAll limit data N = .ok X) (h2 : parseAll limit data E = .ok Y) :
    ((SameShape X Y ∧ ∀ p ∈ cellPairs X Y, p.1 ≠ p.2 → ∃ a b, p.1 = a ++ e :: q :: b) →
      breakTiesTwo limit data N E = .ok (some E) ∧ breakTiesTwo limit data E N = .ok (some E)) ∧
    (¬ (SameShape X Y ∧ ∀ p ∈ cellPairs X Y, p.1 ≠ p.2 → ∃ a b, p.1 = a ++ e :: q :: b) →
      breakTiesTwo limit data N E = .ok none ∧ breakTiesTwo limit data E N = .ok none) := by
  have k1 : breakTiesTwo limit data N E = tieQuoteEscape limit data N E := by
    unfold breakTiesTwo onlyQuotechar onlyDelimiter onlyEscapechar
    rw [if_neg (by simp [hNe, hEe]), if_neg (by simp [hNe, hEe]), if_neg (by simp [hNq, hEq]), if_pos hd]
  have k2 : breakTiesTwo limit data E N = tieQuoteEscape limit data N E := by
    unfold breakTiesTwo onlyQuotechar onlyDelimiter onlyEscapechar
    rw [if_neg (by simp [hNe, hEe]), if_neg (by simp [hNe, hEe]), if_neg (by simp [hNq, hEq]), if_pos hd.symm]
    exact (tieQuoteEscape_symm (by simp [hNq, hEq])).symm
  rw [k1, k2]
  simp only [and_self]
  have hte : tieQuoteEscape limit data N E = if !sameShape X Y then .ok none else
      if (diffCells X Y).all (fun p => isInfixOf ([e] ++ [q]) p.1) then .ok (some E) else .ok none := by
    unfold tieQuoteEscape
    simp only [hNq, hNe, hEq, hEe, decide_true, Bool.and_self, true_or, if_true, h1, h2]
  have hall : SameShape X Y → ((diffCells X Y).all (fun p => isInfixOf ([e] ++ [q]) p.1) = true ↔
      ∀ p ∈ cellPairs X Y, p.1 ≠ p.2 → ∃ a b, p.1 = a ++ e :: q :: b) := by
    intro hsh
    rw [diffCells_eq hsh, List.all_eq_true]
    constructor
    · intro h p hp hne
      have := h p (List.mem_filter.2 ⟨hp, by simpa using hne⟩)
      rw [isInfixOf_iff] at this
      exact this
    · intro h p hp
      rw [isInfixOf_iff]
      exact h p (List.mem_of_mem_filter hp) (by simpa using (List.mem_filter.1 hp).2)
  constructor
  · rintro ⟨hsh, h⟩
    rw [hte, if_neg (by simpa using (sameShape_iff X Y).2 hsh), if_pos ((hall hsh).2 h)]
  · intro h
    rw [hte]
    by_cases hsh : SameShape X Y
    · rw [if_neg (by simpa using (sameShape_iff X Y).2 hsh), if_neg]
      rw [hall hsh]
      exact fun h' => h ⟨hsh, h'⟩
    · rw [if_pos]
      rw [← sameShape_iff] at hsh
      simpa using hsh

example : breakTiesTwo 100 "a b,c d".toList (mkDialect [','] [] []) (mkDialect [' '] [] []) =
    .ok (some (mkDialect [','] [] [])) := by decide +kernel
example : breakTiesTwo 100 "'a',b".toList (mkDialect [','] [] []) (mkDialect [','] ['\''] []) =
    .ok (some (mkDialect [','] ['\''] [])) := by decide +kernel
example : (cellPairs [["a".toList, "b".toList]] [["a".toList, "c".toList]]).find? (fun p => p.1 ≠ p.2) =
    some ("b".toList, "c".toList) := by decide

/-! ## C84: three and four dialects -/

/-- C84, exactly: among three dialects that differ only in the quotechar, of which `N` has none, `N` is chosen if all
three parses are equal; otherwise the tie is left. -/
theorem C84_three_quotes (ord : SetOrder) (limit : Int) (data : Str) (N P Q : SimpleDialect) (X Y Z : List (List Str))
    (hs : N.strict = P.strict ∧ N.strict = Q.strict) (hd : N.delimiter = P.delimiter ∧ N.delimiter = Q.delimiter)
    (he : N.escapechar = P.escapechar ∧ N.escapechar = Q.escapechar) (hN : N.quotechar = some [])
    (hP : P.quotechar ≠ some []) (hQ : Q.quotechar ≠ some []) (hPQ : P.quotechar ≠ Q.quotechar)
    (h1 : parseAll limit data N = .ok X) (h2 : parseAll limit data P = .ok Y) (h3 : parseAll limit data Q = .ok Z)
    (A B C : SimpleDialect) (hABC : (A, B, C) ∈ [(N, P, Q), (P, N, Q), (P, Q, N)]) :
    tieBreaker ord limit data [A, B, C] = .ok (if X = Y ∧ X = Z then some N else none) := by
  have q1 : N.quotechar ≠ P.quotechar := fun h => hP (h ▸ hN)
  have q2 : N.quotechar ≠ Q.quotechar := fun h => hQ (h ▸ hN)
  simp only [List.mem_cons, Prod.mk.injEq, List.not_mem_nil, or_false] at hABC
  rcases hABC with ⟨rfl, rfl, rfl⟩ | ⟨rfl, rfl, rfl⟩ | ⟨rfl, rfl, rfl⟩
  · show breakTiesThree ord limit data A B C = _
    rw [breakTiesThree_quote h1 h2 h3 ⟨hd.1, hd.1.symm.trans hd.2⟩ ⟨he.1, he.1.symm.trans he.2⟩ q1 q2 hPQ]
    congr 1
    simp only [List.find?_cons, hN, decide_true]
    exact if_congr ⟨fun h => ⟨h.1, h.1.trans h.2⟩, fun h => ⟨h.1, h.1.symm.trans h.2⟩⟩ rfl rfl
  · show breakTiesThree ord limit data A B C = _
    rw [breakTiesThree_quote h2 h1 h3 ⟨hd.1.symm, hd.2⟩ ⟨he.1.symm, he.2⟩ q1.symm hPQ q2]
    congr 1
    simp only [List.find?_cons, hN, hP, decide_true, decide_false]
    exact if_congr ⟨fun h => ⟨h.1.symm, h.2⟩, fun h => ⟨h.1.symm, h.2⟩⟩ rfl rfl
  · show breakTiesThree ord limit data A B C = _
    rw [breakTiesThree_quote h2 h3 h1 ⟨hd.1.symm.trans hd.2, hd.2.symm⟩ ⟨he.1.symm.trans he.2, he.2.symm⟩ hPQ q1.symm
      q2.symm]
    congr 1
    simp only [List.find?_cons, hN, hP, hQ, decide_true, decide_false]
    exact if_congr ⟨fun h => ⟨(h.1.trans h.2).symm, h.2.symm⟩, fun h => ⟨h.1.symm.trans h.2, h.2.symm⟩⟩ rfl rfl

/-- C84 is false for three dialects: a quotechar that has no effect is not eliminated if the other quotechar has one.
According to the documentation the tie is broken by comparing the dialect without quotechar with one that gives the
same parsing result. -/
theorem C84_three_violated :
    let data := "'a',b".toList
    let N := mkDialect [','] [] []
    let P := mkDialect [','] ['"'] []
    let Q := mkDialect [','] ['\''] []
    tieBreaker .forward 131072 data [N, P, Q] = .ok none ∧
    parseAll 131072 data N = parseAll 131072 data P ∧ breakTiesTwo 131072 data N P = .ok (some N) := by
  refine ⟨?_, ?_, ?_⟩ <;> decide +kernel

/-- C84 as far as it holds for three dialects with equal delimiters and different escapechars: if exactly two have a
quotechar then they are compared, otherwise the tie is left.  Missing: the case of `C84_three_violated`. -/
theorem C84_three_escapes_partial (ord : SetOrder) (limit : Int) (data : Str) (A B C : SimpleDialect)
    (hd : A.delimiter = B.delimiter ∧ B.delimiter = C.delimiter)
    (he : ¬ (A.escapechar = B.escapechar ∧ B.escapechar = C.escapechar)) :
    (∀ P Q, [A, B, C].filter (fun d => d.quotechar ≠ some []) = [P, Q] →
      tieBreaker ord limit data [A, B, C] = breakTiesTwo limit data P Q) ∧
    (([A, B, C].filter (fun d => d.quotechar ≠ some [])).length ≠ 2 → tieBreaker ord limit data [A, B, C] = .ok none) := by
  have key : tieBreaker ord limit data [A, B, C] =
      match [A, B, C].filter (fun d => d.quotechar ≠ some []) with
      | [x, y] => breakTiesTwo limit data x y
      | _ => .ok none := by
    show breakTiesThree ord limit data A B C = _
    unfold breakTiesThree
    simp only [if_neg (fun h : (A.delimiter = B.delimiter ∧ B.delimiter = C.delimiter) ∧
      A.escapechar = B.escapechar ∧ B.escapechar = C.escapechar => he h.2), if_pos hd]
    rfl
  constructor
  · intro P Q h
    rw [key, h]
  · intro h
    rw [key]
    split
    · rename_i h'; rw [h'] at h; exact absurd rfl h
    · rfl

/-- C84: ties among three or four dialects are left if the delimiters differ. -/
theorem C84_delimiters (ord : SetOrder) (limit : Int) (data : Str) (ds : List SimpleDialect)
    (hl : ds.length = 3 ∨ ds.length = 4) (a b : SimpleDialect) (ha : a ∈ ds) (hb : b ∈ ds)
    (hd : a.delimiter ≠ b.delimiter) : tieBreaker ord limit data ds = .ok none := by
  match ds, hl with
  | [A, B, C], _ =>
    show breakTiesThree ord limit data A B C = _
    have : ¬ (A.delimiter = B.delimiter ∧ B.delimiter = C.delimiter) := by
      rintro ⟨h1, h2⟩
      simp only [List.mem_cons, List.not_mem_nil, or_false] at ha hb
      apply hd
      rcases ha with rfl | rfl | rfl <;> rcases hb with rfl | rfl | rfl <;> simp [h1, h2]
    unfold breakTiesThree
    simp only [if_neg (fun h : (A.delimiter = B.delimiter ∧ B.delimiter = C.delimiter) ∧ _ => this h.1), if_neg this]
  | [A, B, C, D], _ =>
    show breakTiesFour ord limit data [A, B, C, D] = _
    have : equalDelim [A, B, C, D] = false := by
      rw [Bool.eq_false_iff]
      intro h
      unfold equalDelim at h
      rw [decide_eq_true_eq] at h
      obtain ⟨x, hx⟩ := List.length_eq_one_iff.1 h
      have m : ∀ {d : SimpleDialect}, d ∈ [A, B, C, D] → d.delimiter = x := by
        intro d hd'
        have : d.delimiter ∈ ([A, B, C, D].map (·.delimiter)).dedup :=
          List.mem_dedup.2 (List.mem_map_of_mem hd')
        rw [hx] at this
        exact List.mem_singleton.1 this
      exact hd ((m ha).trans (m hb).symm)
    unfold breakTiesFour
    rw [this]; rfl

/-- C84: with any other number of dialects the tie is left. -/
theorem C84_other_numbers (ord : SetOrder) (limit : Int) (data : Str) (ds : List SimpleDialect)
    (h : ds.length < 2 ∨ 4 < ds.length) : tieBreaker ord limit data ds = .ok none := by
  match ds, h with
  | [], _ => rfl
  | [_], _ => rfl
  | [_, _], h => simp at h
  | [_, _, _], h => simp at h
  | [_, _, _, _], h => simp at h
  | _ :: _ :: _ :: _ :: _ :: _, _ => rfl

/-- C84: four dialects of which no neighbours have the same parse are not told apart. -/
theorem C84_four_different (ord : SetOrder) (limit : Int) (data : Str) (A B C D : SimpleDialect)
    (X Y Z W : List (List Str)) (h1 : parseAll limit data A = .ok X) (h2 : parseAll limit data B = .ok Y)
    (h3 : parseAll limit data C = .ok Z) (h4 : parseAll limit data D = .ok W) (hXY : X ≠ Y) (hYZ : Y ≠ Z)
    (hZW : Z ≠ W) (hn : [A, B, C, D].Nodup) : tieBreaker ord limit data [A, B, C, D] = .ok none := by
  show breakTiesFour ord limit data [A, B, C, D] = _
  unfold breakTiesFour
  split
  · rfl
  · rename_i hed
    have hp : equalPairs limit data (pairwise [A, B, C, D]) = .ok [] := by
      simp [pairwise, equalPairs, h1, h2, h3, h4, hXY, hYZ, hZW]
    rw [reducePairwise_same (by simpa using hed) hp (ans := []) rfl]
    have hl := (ord.dialects_perm ([] ++ [A, B, C, D].filter
      (fun d => !(([] : List (SimpleDialect × SimpleDialect)).flatMap (fun p => [p.1, p.2])).contains d))).length_eq
    have : ([] ++ [A, B, C, D].filter
      (fun d => !(([] : List (SimpleDialect × SimpleDialect)).flatMap (fun p => [p.1, p.2])).contains d)) =
      [A, B, C, D] := by simp
    rw [this, hn.dedup] at hl
    rw [this]
    match hm : ord.dialects [A, B, C, D] with
    | [] => rfl
    | [a] => rw [hm] at hl; simp at hl
    | [a, b] => rw [hm] at hl; simp at hl
    | [a, b, c] => rw [hm] at hl; simp at hl
    | a :: b :: c :: d :: l => rfl

example : tieBreaker .forward 100 "a,b".toList [mkDialect [','] [] [], mkDialect [','] ['"'] [], mkDialect [','] ['\''] []] =
    .ok (some (mkDialect [','] [] [])) := by decide +kernel

/-- C36, exactly when the order does not matter for two dialects `A` and `B` with different escapechars `a` and `b` and
nothing else different (in all other cases it never does, `C36_symmetric_partial` and `C36_differ_partial`): if the tables have
different shapes or are equal, or if for just one of the two dialects the first cell that differs speaks in favour of it,
namely that its escapechar precedes the quotechar a positive and even number of times in the cell of the other table.  The
cases without a quotechar and texts that one of the dialects cannot parse follow below. -/
theorem C36_iff_partial (limit : Int) (data : Str) (A B : SimpleDialect) (X Y : List (List Str)) (a b q : Char)
    (hd : A.delimiter = B.delimiter) (hqA : A.quotechar = some [q]) (hqB : B.quotechar = some [q])
    (ha : A.escapechar = some [a]) (hb : B.escapechar = some [b]) (hab : a ≠ b)
    (hX : parseAll limit data A = .ok X) (hY : parseAll limit data B = .ok Y) :
    breakTiesTwo limit data A B = breakTiesTwo limit data B A ↔
    (SameShape X Y → ∀ pre u v post, cellPairs X Y = pre ++ (u, v) :: post → (∀ p ∈ pre, p.1 = p.2) → u ≠ v →
      ((0 < escapedQuotes a q v ∧ escapedQuotes a q v % 2 = 0) ↔
        ¬ (0 < escapedQuotes b q u ∧ escapedQuotes b q u % 2 = 0))) := by
  have hne : A ≠ B := by
    intro h
    rw [h, hb] at ha
    simp at ha
    exact hab ha.symm
  have hAB : breakTiesTwo limit data A B = tieEscape limit data A B := by
    unfold breakTiesTwo onlyQuotechar onlyDelimiter onlyEscapechar
    rw [if_neg (by simp [ha, hb, hab]), if_neg (by simp [ha, hb, hab]), if_pos (by simp [hd, hqA, hqB])]
  have hBA : breakTiesTwo limit data B A = tieEscape limit data B A := by
    unfold breakTiesTwo onlyQuotechar onlyDelimiter onlyEscapechar
    rw [if_neg (by simp [ha, hb, Ne.symm hab]), if_neg (by simp [ha, hb, Ne.symm hab]), if_pos (by simp [hd, hqA, hqB])]
  have hA0 : ¬ A.escapechar = some [] := by rw [ha]; simp
  have hB0 : ¬ B.escapechar = some [] := by rw [hb]; simp
  have hsym : SameShape Y X ↔ SameShape X Y := ⟨Eq.symm, Eq.symm⟩
  rw [hAB, hBA]
  unfold tieEscape
  simp only [if_neg hA0, if_neg hB0, hX, hY]
  by_cases hsh : SameShape X Y
  · have s1 : sameShape X Y = true := (sameShape_iff X Y).mpr hsh
    have s2 : sameShape Y X = true := (sameShape_iff Y X).mpr hsh.symm
    simp only [s1, s2, Bool.not_true, Bool.false_eq_true, if_false, hsh, true_implies]
    rw [diffCells_eq hsh, diffCells_eq (hsym.mpr hsh)]
    have hswap : cellPairs Y X = (cellPairs X Y).map Prod.swap := by
      unfold cellPairs
      have : ∀ K M : List Str, M.zip K = (K.zip M).map Prod.swap := by
        intro K
        induction K with
        | nil => intro M; simp
        | cons k K ih =>
          intro M
          cases M with
          | nil => simp
          | cons m M => simp [ih M]
      exact this _ _
    have hfilt : ∀ L : List (Str × Str), (L.map Prod.swap).filter (fun p => decide (p.1 ≠ p.2)) =
        (L.filter fun p => decide (p.1 ≠ p.2)).map Prod.swap := by
      intro L
      rw [List.filter_map]
      congr 1
      apply List.filter_congr
      intro p _
      simp only [Function.comp_apply, Prod.fst_swap, Prod.snd_swap, decide_eq_decide]
      exact ⟨Ne.symm, Ne.symm⟩
    rw [hswap, hfilt]
    generalize cellPairs X Y = L
    have hfirst : ∀ L : List (Str × Str), (∀ p ∈ L, p.1 = p.2) ∨
        ∃ pre u v post, L = pre ++ (u, v) :: post ∧ (∀ p ∈ pre, p.1 = p.2) ∧ u ≠ v := by
      intro L
      induction L with
      | nil => exact .inl (by simp)
      | cons p L ih =>
        by_cases hp : p.1 = p.2
        · rcases ih with h | ⟨pre, u, v, post, h1, h2, h3⟩
          · refine .inl fun x hx => ?_
            rcases List.mem_cons.mp hx with rfl | hx
            · exact hp
            · exact h x hx
          · refine .inr ⟨p :: pre, u, v, post, by rw [h1]; rfl, fun x hx => ?_, h3⟩
            rcases List.mem_cons.mp hx with rfl | hx
            · exact hp
            · exact h2 x hx
        · exact .inr ⟨[], p.1, p.2, L, rfl, by simp, hp⟩
    rcases hfirst L with hall | ⟨pre, u, v, post, rfl, hpre, huv⟩
    · have : L.filter (fun p => decide (p.1 ≠ p.2)) = [] := by
        rw [List.filter_eq_nil_iff]
        intro p hp
        simpa using hall p hp
      rw [this]
      simp only [List.map_nil, true_iff]
      rintro pre u v post rfl - huv
      exact absurd (hall (u, v) (by simp)) huv
    · have hf : (pre ++ (u, v) :: post).filter (fun p => decide (p.1 ≠ p.2)) =
          (u, v) :: post.filter (fun p => decide (p.1 ≠ p.2)) := by
        rw [List.filter_append, List.filter_cons_of_pos (by simpa using huv)]
        have : pre.filter (fun p => decide (p.1 ≠ p.2)) = [] := by
          rw [List.filter_eq_nil_iff]
          intro p hp
          simpa using hpre p hp
        rw [this]; rfl
      rw [hf]
      simp only [List.map_cons, Prod.swap]
      rw [countEscaped_eq ha hqA, countEscaped_eq hb hqB]
      have huniq : ∀ pre' u' v' post', pre ++ (u, v) :: post = pre' ++ (u', v') :: post' → (∀ p ∈ pre', p.1 = p.2) →
          u' ≠ v' → u' = u ∧ v' = v := by
        intro pre' u' v' post' he hpre' huv'
        have hf' : (pre' ++ (u', v') :: post').filter (fun p => decide (p.1 ≠ p.2)) =
            (u', v') :: post'.filter (fun p => decide (p.1 ≠ p.2)) := by
          rw [List.filter_append, List.filter_cons_of_pos (by simpa using huv')]
          have : pre'.filter (fun p => decide (p.1 ≠ p.2)) = [] := by
            rw [List.filter_eq_nil_iff]
            intro p hp
            simpa using hpre' p hp
          rw [this]; rfl
        rw [← he, hf] at hf'
        simp only [List.cons.injEq, Prod.mk.injEq] at hf'
        exact ⟨hf'.1.1.symm, hf'.1.2.symm⟩
      have key : ((if 0 < escapedQuotes a q v ∧ escapedQuotes a q v % 2 = 0 then A else B) =
          if 0 < escapedQuotes b q u ∧ escapedQuotes b q u % 2 = 0 then B else A) ↔
          ((0 < escapedQuotes a q v ∧ escapedQuotes a q v % 2 = 0) ↔
            ¬ (0 < escapedQuotes b q u ∧ escapedQuotes b q u % 2 = 0)) := by
        by_cases c1 : 0 < escapedQuotes a q v ∧ escapedQuotes a q v % 2 = 0 <;>
          by_cases c2 : 0 < escapedQuotes b q u ∧ escapedQuotes b q u % 2 = 0 <;>
          simp only [c1, c2, if_true, if_false, and_self, not_true, not_false_eq_true, iff_true, iff_false, hne,
            Ne.symm hne]
      simp only [Except.ok.injEq, Option.some.injEq]
      rw [key]
      constructor
      · intro h pre' u' v' post' he hp' hu'
        obtain ⟨rfl, rfl⟩ := huniq pre' u' v' post' he hp' hu'
        exact h
      · intro h
        exact h pre u v post rfl hpre huv
  · have s1 : sameShape X Y = false := by
      rw [Bool.eq_false_iff]; exact fun h => hsh ((sameShape_iff X Y).mp h)
    have s2 : sameShape Y X = false := by
      rw [Bool.eq_false_iff]; exact fun h => hsh ((sameShape_iff Y X).mp h).symm
    simp [s1, s2, hsh]

/-- Tables of the same shape that differ, and of which only one speaks for the escapechar of the other. -/
example :
    let data := "x,a\\'b\\'c".toList
    let A := mkDialect [','] ['\''] ['\\']
    let B := mkDialect [','] ['\''] ['@']
    parseAll 100 data A = .ok [["x".toList, "a'b'c".toList]] ∧ parseAll 100 data B = .ok [["x".toList, "a\\'b\\'c".toList]] ∧
    escapedQuotes '\\' '\'' "a\\'b\\'c".toList = 2 ∧ escapedQuotes '@' '\'' "a'b'c".toList = 0 ∧
    breakTiesTwo 100 data A B = .ok (some A) ∧ breakTiesTwo 100 data B A = .ok (some A) := by
  refine ⟨?_, ?_, ?_, ?_, ?_, ?_⟩ <;> decide +kernel

theorem eq_of_shape : ∀ {X Y : List (List Str)}, SameShape X Y → (∀ p ∈ cellPairs X Y, p.1 = p.2) → X = Y
  | [], [], _, _ => rfl
  | [], y :: Y, h, _ => by simp [SameShape] at h
  | x :: X, [], h, _ => by simp [SameShape] at h
  | x :: X, y :: Y, h, hp => by
    simp only [SameShape, List.map_cons, List.cons.injEq] at h
    simp only [cellPairs, List.flatten_cons] at hp
    rw [List.zip_append h.1] at hp
    have h1 : X = Y := eq_of_shape h.2 fun p hm => hp p (List.mem_append_right _ hm)
    have h2 : ∀ (a b : List Str), a.length = b.length → (∀ p ∈ a.zip b, p.1 = p.2) → a = b := by
      intro a
      induction a with
      | nil => intro b hl _; cases b with | nil => rfl | cons => simp at hl
      | cons u a ih =>
        intro b hl hq
        cases b with
        | nil => simp at hl
        | cons v b =>
          simp only [List.zip_cons_cons, List.mem_cons, forall_eq_or_imp] at hq
          rw [show u = v from hq.1, ih b (by simpa using hl) hq.2]
    rw [h1, h2 x y h.1 fun p hm => hp p (List.mem_append_left _ hm)]

/-- C36 without a quotechar, again for two dialects that differ only in their escapechars: the order does not matter exactly if the
tables have different shapes or are equal (otherwise the second dialect is taken). -/
theorem C36_no_quotechar_partial (limit : Int) (data : Str) (A B : SimpleDialect) (X Y : List (List Str)) (a b : Char)
    (hd : A.delimiter = B.delimiter) (hqA : A.quotechar = some []) (hqB : B.quotechar = some [])
    (ha : A.escapechar = some [a]) (hb : B.escapechar = some [b]) (hab : a ≠ b)
    (hX : parseAll limit data A = .ok X) (hY : parseAll limit data B = .ok Y) :
    breakTiesTwo limit data A B = breakTiesTwo limit data B A ↔ (SameShape X Y → X = Y) := by
  have hne : A ≠ B := by
    intro h
    rw [h, hb] at ha
    simp at ha
    exact hab ha.symm
  have hAB : breakTiesTwo limit data A B = tieEscape limit data A B := by
    unfold breakTiesTwo onlyQuotechar onlyDelimiter onlyEscapechar
    rw [if_neg (by simp [ha, hb, hab]), if_neg (by simp [ha, hb, hab]), if_pos (by simp [hd, hqA, hqB])]
  have hBA : breakTiesTwo limit data B A = tieEscape limit data B A := by
    unfold breakTiesTwo onlyQuotechar onlyDelimiter onlyEscapechar
    rw [if_neg (by simp [ha, hb, Ne.symm hab]), if_neg (by simp [ha, hb, Ne.symm hab]), if_pos (by simp [hd, hqA, hqB])]
  have hA0 : ¬ A.escapechar = some [] := by rw [ha]; simp
  have hB0 : ¬ B.escapechar = some [] := by rw [hb]; simp
  have hcount : ∀ (d : SimpleDialect) (u : Str), d.quotechar = some [] → countEscaped d u = 0 := by
    intro d u hq
    unfold countEscaped
    rw [hq]
    simp
  rw [hAB, hBA]
  unfold tieEscape
  simp only [if_neg hA0, if_neg hB0, hX, hY, hcount A _ hqA, hcount B _ hqB]
  by_cases hsh : SameShape X Y
  · have s1 : sameShape X Y = true := (sameShape_iff X Y).mpr hsh
    have s2 : sameShape Y X = true := (sameShape_iff Y X).mpr hsh.symm
    simp only [s1, s2, Bool.not_true, Bool.false_eq_true, if_false, hsh, true_implies, Nat.lt_irrefl, false_and]
    constructor
    · intro h
      refine eq_of_shape hsh fun p hp => ?_
      by_contra hpn
      have m1 : p ∈ diffCells X Y := by rw [diffCells_eq hsh]; exact List.mem_filter.mpr ⟨hp, by simpa using hpn⟩
      cases h1 : diffCells X Y with
      | nil => rw [h1] at m1; simp at m1
      | cons u l =>
        cases h2 : diffCells Y X with
        | nil => rw [h1, h2] at h; simp at h
        | cons v l' =>
          rw [h1, h2] at h
          simp at h
          exact hne h.symm
    · rintro rfl
      have : diffCells X X = [] := by
        rw [diffCells_eq hsh, List.filter_eq_nil_iff]
        intro p hp
        obtain ⟨i, hi, e⟩ := List.mem_iff_getElem.mp hp
        simp only [cellPairs, List.getElem_zip] at e
        simp [← e]
      simp [this]
  · have s1 : sameShape X Y = false := by
      rw [Bool.eq_false_iff]; exact fun h => hsh ((sameShape_iff X Y).mp h)
    have s2 : sameShape Y X = false := by
      rw [Bool.eq_false_iff]; exact fun h => hsh ((sameShape_iff Y X).mp h).symm
    simp [s1, s2, hsh]

/-- C36 for texts that one of the dialects cannot parse: both orders raise an exception, and it is the same one unless both dialects
raise and these exceptions are different. -/
theorem C36_failing_partial (limit : Int) (data : Str) (A B : SimpleDialect) (a b : Char)
    (hd : A.delimiter = B.delimiter) (hq : A.quotechar = B.quotechar)
    (ha : A.escapechar = some [a]) (hb : B.escapechar = some [b]) (hab : a ≠ b) :
    (∀ e, parseAll limit data A = .error e → (∀ e', parseAll limit data B = .error e' → e = e') →
      breakTiesTwo limit data A B = .error e ∧ breakTiesTwo limit data B A = .error e) ∧
    (∀ e, parseAll limit data B = .error e → (∀ e', parseAll limit data A = .error e' → e = e') →
      breakTiesTwo limit data A B = .error e ∧ breakTiesTwo limit data B A = .error e) ∧
    (∀ e e', parseAll limit data A = .error e → parseAll limit data B = .error e' →
      breakTiesTwo limit data A B = .error e' ∧ breakTiesTwo limit data B A = .error e) := by
  have hAB : breakTiesTwo limit data A B = tieEscape limit data A B := by
    unfold breakTiesTwo onlyQuotechar onlyDelimiter onlyEscapechar
    rw [if_neg (by simp [ha, hb, hab]), if_neg (by simp [ha, hb, hab]), if_pos (by simp [hd, hq])]
  have hBA : breakTiesTwo limit data B A = tieEscape limit data B A := by
    unfold breakTiesTwo onlyQuotechar onlyDelimiter onlyEscapechar
    rw [if_neg (by simp [ha, hb, Ne.symm hab]), if_neg (by simp [ha, hb, Ne.symm hab]), if_pos (by simp [hd, hq])]
  have hA0 : ¬ A.escapechar = some [] := by rw [ha]; simp
  have hB0 : ¬ B.escapechar = some [] := by rw [hb]; simp
  rw [hAB, hBA]
  unfold tieEscape
  simp only [if_neg hA0, if_neg hB0]
  cases hX : parseAll limit data A with
  | error e1 =>
    cases hY : parseAll limit data B with
    | error e2 =>
      refine ⟨?_, ?_, ?_⟩
      · intro e h1 h2
        cases h1
        cases h2 e2 rfl
        exact ⟨rfl, rfl⟩
      · intro e h1 h2
        cases h1
        cases h2 e1 rfl
        exact ⟨rfl, rfl⟩
      · intro e e' h1 h2
        cases h1
        cases h2
        exact ⟨rfl, rfl⟩
    | ok Y => simp
  | ok X =>
    cases hY : parseAll limit data B with
    | error e2 => simp
    | ok Y => simp

/-- Without a quotechar the second dialect is taken. -/
example :
    let data := "x,a\\\\b".toList
    let A := mkDialect [','] [] ['\\']
    let B := mkDialect [','] [] ['@']
    breakTiesTwo 100 data A B = .ok (some B) ∧ breakTiesTwo 100 data B A = .ok (some A) := by
  constructor <;> decide +kernel

/-- A cell that is too long. -/
example :
    let data := "x,a\\b@c".toList
    let A := mkDialect [','] [] ['\\']
    let B := mkDialect [','] [] ['@']
    parseAll 3 data A = .error (.parse (.fieldLimit 3)) ∧ breakTiesTwo 3 data A B = .error (.parse (.fieldLimit 3)) := by
  constructor <;> decide +kernel

end Clever.Props
