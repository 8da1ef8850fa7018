import Verif.Proofs.Abstraction
import Verif.Proofs.SpecFacts

/-!
# Abstractions row by row
-/

namespace Clever

open Spec

/-! ## Data without quotes and escapes -/

/-- Abstraction of a line, without the filling of empty cells; `pc` tells whether the previous
letter is a `C`. -/
def lineBase (d : Char) : Bool → Str → Str
  | _, [] => []
  | pc, x :: rest =>
    if x = d then 'D' :: lineBase d false rest
    else (if pc then [] else ['C']) ++ lineBase d true rest

theorem lineBase_letters (d : Char) (b : Bool) (l : Str) (c : Char) (h : c ∈ lineBase d b l) :
    c = 'C' ∨ c = 'D' := by
  induction l generalizing b with
  | nil => simp [lineBase] at h
  | cons x rest ih =>
    rw [lineBase] at h
    split at h
    · rcases List.mem_cons.1 h with h | h
      · simp [h]
      · exact ih _ h
    · rcases List.mem_append.1 h with h | h
      · cases b <;> simp_all
      · exact ih _ h

theorem foldl_line (d : Char) (l : Str) (hnl : ∀ c ∈ l, isNL c = false) (hnul : NUL ∉ l)
    (st : List Char) :
    l.foldl (absStep d NUL NUL) (st, false) =
      ((lineBase d (st.head? == some 'C') l).reverse ++ st, false) := by
  induction l generalizing st with
  | nil => simp [lineBase]
  | cons x rest ih =>
    have hx : ¬ (x = '\r' ∨ x = '\n') := by
      have := hnl x (by simp); simpa [isNL] using this
    have hx0 : x ≠ NUL := by intro h; exact hnul (by simp [h])
    have hnl' : ∀ c ∈ rest, isNL c = false := fun c hc => hnl c (by simp [hc])
    have hnul' : NUL ∉ rest := fun h => hnul (by simp [h])
    rw [List.foldl_cons]
    by_cases hd : x = d
    · have : absStep d NUL NUL (st, false) x = ('D' :: st, false) := by
        simp [absStep, hd]; intro h; exact absurd (by simpa [hd] using h) hx
      rw [this, ih hnl' hnul', lineBase, if_pos hd]
      simp
    · have : absStep d NUL NUL (st, false) x = (pushNew 'C' st, false) := by
        simp [absStep, hx, hd, hx0]
      rw [this, ih hnl' hnul', lineBase, if_neg hd]
      by_cases hc : st.head? = some 'C'
      · simp [pushNew, hc]
      · simp [pushNew, hc]

/-- `D C` repeated. -/
def tailPat : Nat → Str
  | 0 => []
  | n + 1 => 'D' :: 'C' :: tailPat n

/-- The row pattern of a row with `n + 1` cells. -/
def pat (n : Nat) : Str := 'C' :: tailPat n

theorem length_splitOn_pos (d : Char) (l : Str) : 0 < (splitOn d l).length := by
  cases l with
  | nil => simp [splitOn]
  | cons x rest =>
    simp only [splitOn]
    split
    · simp
    · cases splitOn d rest <;> simp [consHead]

theorem length_splitOn_cons (d x : Char) (rest : Str) (h : x ≠ d) :
    (splitOn d (x :: rest)).length = (splitOn d rest).length := by
  have := length_splitOn_pos d rest
  simp only [splitOn, h, if_false]
  cases hs : splitOn d rest with
  | nil => rw [hs] at this; simp at this
  | cons a b => simp [consHead]

theorem fill_lineBase (d : Char) (l : Str) :
    fill 'D' (lineBase d false l) = pat ((splitOn d l).length - 1) ∧
      fill 'C' (lineBase d true l) = tailPat ((splitOn d l).length - 1) := by
  induction l with
  | nil => simp [lineBase, fill, splitOn, pat, tailPat]
  | cons x rest ih =>
    have hp := length_splitOn_pos d rest
    by_cases hx : x = d
    · have hl : (splitOn d (x :: rest)).length - 1 = ((splitOn d rest).length - 1) + 1 := by
        simp [splitOn, hx]; omega
      rw [hl]
      simp [lineBase, hx, fill, gap, ih.1, pat, tailPat]
    · rw [length_splitOn_cons d x rest hx]
      simp [lineBase, hx, fill, gap, ih.2, pat]

theorem fill_lineBase_R (d : Char) (l : Str) (h : l ≠ []) :
    fill 'R' (lineBase d false l) = pat ((splitOn d l).length - 1) := by
  rw [← (fill_lineBase d l).1]
  cases l with
  | nil => exact absurd rfl h
  | cons x rest => by_cases hx : x = d <;> simp [lineBase, hx, fill, gap]

/-- The nonblank lines. -/
def nonblank (t : Str) : List Str := (textLines t).filter (· ≠ [])

theorem nonblank_nl (c : Char) (hc : isNL c = true) (t : Str) : nonblank (c :: t) = nonblank t := by
  have hc' : c = '\r' ∨ c = '\n' := by simpa [isNL] using hc
  simp only [nonblank, textLines]
  split
  · rfl
  · have : c = '\n' ∨ c = '\r' := hc'.symm
    simp [this]

theorem textLines_line (l : Str) (hnl : ∀ c ∈ l, isNL c = false) (t : Str) (h : l ≠ [])  :
    (t = [] → textLines (l ++ t) = [l]) ∧
      (∀ c t', t = c :: t' → isNL c = true → ∃ L, textLines (l ++ t) = l :: L ∧
        L.filter (· ≠ []) = nonblank t') := by
  induction l with
  | nil => exact absurd rfl h
  | cons x rest ih =>
    have hx : x ≠ '\r' ∧ x ≠ '\n' := by
      have := hnl x (by simp); simpa [isNL] using this
    have hstep : ∀ s, textLines (x :: s) = consHead x (textLines s) := by
      intro s; simp [textLines, hx.1, hx.2]
    rw [List.cons_append, hstep]
    by_cases hr : rest = []
    · subst hr
      refine ⟨?_, ?_⟩
      · rintro rfl; simp [textLines, consHead]
      · rintro c t' rfl hc
        have hc' : c = '\r' ∨ c = '\n' := by simpa [isNL] using hc
        by_cases hcr : c = '\r' ∧ t'.head? = some '\n'
        · obtain ⟨rfl, ht⟩ := hcr
          cases t' with
          | nil => simp at ht
          | cons y t'' =>
            have hy : y = '\n' := by simpa using ht
            subst hy
            refine ⟨textLines t'', by simp [textLines, consHead], ?_⟩
            rw [nonblank_nl _ (by decide)]; rfl
        · refine ⟨textLines t', ?_, rfl⟩
          simp only [List.nil_append, textLines]
          rw [if_neg hcr, if_pos hc'.symm]; rfl
    · obtain ⟨i1, i2⟩ := ih (fun c hc => hnl c (by simp [hc])) hr
      refine ⟨?_, ?_⟩
      · intro ht; rw [i1 ht]; rfl
      · intro c t' ht hc
        obtain ⟨L, hL, hf⟩ := i2 c t' ht hc
        exact ⟨L, by rw [hL]; rfl, hf⟩

/-- The first line, and what follows it. -/
theorem exists_line (t : Str) :
    ∃ l t', t = l ++ t' ∧ (∀ c ∈ l, isNL c = false) ∧ (t' = [] ∨ ∃ c t'', t' = c :: t'' ∧ isNL c = true) := by
  induction t with
  | nil => exact ⟨[], [], rfl, by simp, Or.inl rfl⟩
  | cons x rest ih =>
    cases hx : isNL x with
    | true => exact ⟨[], x :: rest, rfl, by simp, Or.inr ⟨x, rest, rfl, hx⟩⟩
    | false =>
      obtain ⟨l, t', rfl, h1, h2⟩ := ih
      exact ⟨x :: l, t', rfl, by simpa [hx] using h1, h2⟩

/-- A run of newlines, and what follows it. -/
theorem exists_run (t : Str) :
    ∃ n t', t = n ++ t' ∧ (∀ c ∈ n, isNL c = true) ∧ (∀ c, t'.head? = some c → isNL c = false) := by
  induction t with
  | nil => exact ⟨[], [], rfl, by simp, by simp⟩
  | cons x rest ih =>
    cases hx : isNL x with
    | false => exact ⟨[], x :: rest, rfl, by simp, by simpa using hx⟩
    | true =>
      obtain ⟨l, t', rfl, h1, h2⟩ := ih
      exact ⟨x :: l, t', rfl, by simpa [hx] using h1, h2⟩

theorem absStep_nl (d q e : Char) (st : AbsState) (c : Char) (hc : isNL c = true) :
    absStep d q e st c = (pushNew 'R' st.1, st.2) := by
  have : c = '\r' ∨ c = '\n' := by simpa [isNL] using hc
  simp [absStep, this]

theorem foldl_run (d q e : Char) (n : Str) (hn : ∀ c ∈ n, isNL c = true) (st : AbsState) :
    n.foldl (absStep d q e) st = if n = [] then st else (pushNew 'R' st.1, st.2) := by
  induction n generalizing st with
  | nil => rfl
  | cons x rest ih =>
    rw [List.foldl_cons, absStep_nl d q e st x (hn x (by simp)), ih (fun c hc => hn c (by simp [hc]))]
    simp only [List.cons_ne_nil, if_false]
    split
    · rfl
    · have : pushNew 'R' (pushNew 'R' st.1) = pushNew 'R' st.1 := by
        by_cases h : st.1.head? = some 'R' <;> simp [pushNew, h]
      rw [this]

theorem nonblank_run (n t : Str) (hn : ∀ c ∈ n, isNL c = true) : nonblank (n ++ t) = nonblank t := by
  induction n with
  | nil => rfl
  | cons x rest ih =>
    rw [List.cons_append, nonblank_nl x (hn x (by simp)), ih (fun c hc => hn c (by simp [hc]))]

theorem joinWith_cons (d : Char) (x : Str) (xs : List Str) (h : xs ≠ []) :
    joinWith d (x :: xs) = x ++ d :: joinWith d xs := by
  cases xs with
  | nil => exact absurd rfl h
  | cons y ys => rfl

theorem tailPat_notR (n : Nat) : 'R' ∉ tailPat n := by
  induction n with
  | zero => simp [tailPat]
  | succ n ih => simp [tailPat, ih]

theorem pat_notR (n : Nat) : 'R' ∉ pat n := by simp [pat, tailPat_notR]

theorem stripTrailing_append (a b : Str) (h : stripTrailing b ≠ []) :
    stripTrailing (a ++ b) = a ++ stripTrailing b := by
  obtain ⟨⟨k, hk⟩, h2⟩ := stripTrailing_spec b
  have hrep : ∀ (k : Nat) (s : Str), stripTrailing (s ++ List.replicate k 'R') = stripTrailing s := by
    intro k
    induction k with
    | zero => intro s; simp
    | succ k ih =>
      intro s
      have : s ++ List.replicate (k + 1) 'R' = (s ++ ['R']) ++ List.replicate k 'R' := by
        simp [List.replicate_succ]
      rw [this, ih, stripTrailing_append_R]
  have : a ++ b = (a ++ stripTrailing b) ++ List.replicate k 'R' := by
    rw [List.append_assoc, ← hk]
  rw [this, hrep, stripTrailing_of]
  rw [List.getLast?_append]
  cases hg : (stripTrailing b).getLast? with
  | none => simp at hg; exact absurd hg h
  | some x => simpa [hg] using h2

/-- The abstraction of data without quotes and escapes, from a stack that does not end in `C`. -/
theorem base_plain (d : Char) :
    ∀ (n : Nat) (t : Str), t.length ≤ n → NUL ∉ t → t ≠ [] →
      (∀ c, t.head? = some c → isNL c = false) → ∀ st : List Char, st.head? ≠ some 'C' →
      ∃ Y, (t.foldl (absStep d NUL NUL) (st, false)).1 = Y.reverse ++ st ∧ 'Q' ∉ Y ∧
        nonblank t ≠ [] ∧
        stripTrailing (fill 'R' Y) =
          joinWith 'R' ((nonblank t).map fun l => pat ((splitOn d l).length - 1)) := by
  intro n
  induction n with
  | zero => intro t ht _ hne; exact absurd (by simpa using ht) hne
  | succ n ih =>
    intro t ht hnul hne hhd st hst
    obtain ⟨l, t1, rfl, hl, ht1⟩ := exists_line t
    have hlne : l ≠ [] := by
      rintro rfl
      rcases ht1 with rfl | ⟨c, t'', rfl, hc⟩
      · exact hne rfl
      · have := hhd c (by simp); rw [hc] at this; simp at this
    have hlnul : NUL ∉ l := fun h => hnul (by simp [h])
    have hbeq : (st.head? == some 'C') = false := by simpa using hst
    have hQ : ∀ b l, 'Q' ∉ lineBase d b l := fun b l h => by
      have := lineBase_letters d b l _ h; simp at this
    have hlast : (fill 'R' (lineBase d false l)) = pat ((splitOn d l).length - 1) :=
      fill_lineBase_R d l hlne
    have hpl : ∀ n, (pat n).getLast? ≠ some 'R' := by
      intro n h
      exact pat_notR n (List.mem_of_getLast? h)
    rw [List.foldl_append, foldl_line d l hl hlnul, hbeq]
    obtain ⟨tl1, tl2⟩ := textLines_line l hl t1 hlne
    rcases ht1 with rfl | ⟨c, t2, rfl, hc⟩
    · refine ⟨lineBase d false l, rfl, hQ _ _, ?_, ?_⟩
      · rw [nonblank, tl1 rfl]; simp [hlne]
      · rw [nonblank, tl1 rfl, hlast, stripTrailing_of _ (hpl _)]
        simp [hlne, joinWith]
    · obtain ⟨L, hL, hLf⟩ := tl2 c t2 rfl hc
      obtain ⟨r, t3, rfl, hr, ht3⟩ := exists_run t2
      have hnb : nonblank (l ++ c :: (r ++ t3)) = l :: nonblank t3 := by
        rw [nonblank, hL]
        simp only [List.filter_cons, ne_eq, hlne, not_false_eq_true, decide_true, if_true]
        congr 1
        exact hLf.trans (nonblank_run r t3 hr)
      have hrun : ((c :: r) ++ t3).foldl (absStep d NUL NUL)
          ((lineBase d false l).reverse ++ st, false) =
          t3.foldl (absStep d NUL NUL) ('R' :: ((lineBase d false l).reverse ++ st), false) := by
        rw [List.foldl_append, foldl_run d NUL NUL (c :: r) (by
          intro x hx
          rcases List.mem_cons.1 hx with rfl | hx
          · exact hc
          · exact hr x hx)]
        have : ((lineBase d false l).reverse ++ st).head? ≠ some 'R' := by
          have hne' : lineBase d false l ≠ [] := by
            cases l with
            | nil => exact absurd rfl hlne
            | cons x rest => by_cases hx : x = d <;> simp [lineBase, hx]
          have hR : ∀ b l, 'R' ∉ lineBase d b l := fun b l h => by
            have := lineBase_letters d b l _ h; simp at this
          cases hb : (lineBase d false l).reverse with
          | nil => simp at hb; exact absurd hb hne'
          | cons y ys =>
            have : y ∈ lineBase d false l := by
              have : y ∈ (lineBase d false l).reverse := by rw [hb]; simp
              simpa using this
            simp only [List.cons_append, List.head?_cons, ne_eq, Option.some.injEq]
            rintro rfl
            exact hR _ _ this
        simp only [List.cons_ne_nil, if_false, pushNew, this]
      rw [List.cons_append] at hrun
      rw [hrun, hnb]
      by_cases h3 : t3 = []
      · subst h3
        refine ⟨lineBase d false l ++ ['R'], by simp, by simp [hQ], by simp, ?_⟩
        rw [fill_row, hlast]
        simp only [fill]
        rw [if_neg (by decide), stripTrailing_append_R, stripTrailing_of _ (hpl _)]
        simp [nonblank, textLines, joinWith]
      · obtain ⟨Y, hY, hYQ, hnn, hstrip⟩ := ih t3 (by simp at ht; omega)
          (fun h => hnul (by simp [h])) h3 ht3
          ('R' :: ((lineBase d false l).reverse ++ st)) (by simp)
        refine ⟨lineBase d false l ++ 'R' :: Y, ?_, by simp [hQ, hYQ], by simp, ?_⟩
        · rw [hY]; simp
        · rw [fill_row, hlast, List.map_cons, joinWith_cons _ _ _ (by simpa using hnn), ← hstrip]
          have hsn : stripTrailing (fill 'R' Y) ≠ [] := by
            rw [hstrip]
            cases hnb : nonblank t3 with
            | nil => exact absurd hnb hnn
            | cons a b =>
              cases b with
              | nil => simp [joinWith, pat]
              | cons b bs => simp [joinWith, pat]
          have : pat ((splitOn d l).length - 1) ++ 'R' :: fill 'R' Y =
              (pat ((splitOn d l).length - 1) ++ ['R']) ++ fill 'R' Y := by simp
          rw [this, stripTrailing_append _ _ hsn]
          simp

theorem splitChar_eq (x : Char) (s : Str) : splitChar x s = splitOn x s := by
  induction s with
  | nil => rfl
  | cons c rest ih =>
    simp only [splitChar, splitOn, ih]
    split
    · rfl
    · cases splitOn x rest <;> rfl

theorem splitOn_notMem (d : Char) (s : Str) (h : d ∉ s) : splitOn d s = [s] := by
  induction s with
  | nil => rfl
  | cons x rest ih =>
    simp only [List.mem_cons, not_or] at h
    simp [splitOn, Ne.symm h.1, ih h.2, consHead]

theorem splitOn_append (d : Char) (s t : Str) (h : d ∉ s) :
    splitOn d (s ++ d :: t) = s :: splitOn d t := by
  induction s with
  | nil => simp [splitOn]
  | cons x rest ih =>
    simp only [List.mem_cons, not_or] at h
    simp [splitOn, Ne.symm h.1, ih h.2, consHead]

theorem splitOn_joinWith (d : Char) (xs : List Str) (hne : xs ≠ []) (h : ∀ x ∈ xs, d ∉ x) :
    splitOn d (joinWith d xs) = xs := by
  induction xs with
  | nil => exact absurd rfl hne
  | cons x xs ih =>
    cases xs with
    | nil => simp [joinWith, splitOn_notMem d x (h x (by simp))]
    | cons y ys =>
      rw [joinWith_cons _ _ _ (by simp), splitOn_append d x _ (h x (by simp)),
        ih (by simp) (fun z hz => h z (by simp [hz]))]

theorem rows_plain (d : Char) (t : Str) (hnul : NUL ∉ t) (hne : t ≠ [])
    (hhd : ∀ c, t.head? = some c → isNL c = false) :
    splitChar 'R' (abstraction d NUL NUL t) =
      (nonblank t).map fun l => pat ((splitOn d l).length - 1) := by
  obtain ⟨Y, h1, hQ, hnn, h2⟩ := base_plain d t.length t (Nat.le_refl _) hnul hne hhd [] (by simp)
  rw [abstraction_eq, baseAbstraction, h1]
  simp only [List.append_nil, List.reverse_reverse]
  rw [mergeLoop_noQ _ hQ, h2, splitChar_eq, splitOn_joinWith _ _ (by simpa using hnn)]
  intro x hx
  simp only [List.mem_map] at hx
  obtain ⟨l, _, rfl⟩ := hx
  exact pat_notR _

/-! ## Newlines -/

/-- Trailing newlines make no difference. -/
theorem abstraction_trailing (d q e : Char) (t n : Str) (hn : ∀ c ∈ n, isNL c = true) :
    abstraction d q e (t ++ n) = abstraction d q e t := by
  rw [abstraction_eq, abstraction_eq, baseAbstraction, baseAbstraction, List.foldl_append,
    foldl_run d q e n hn]
  split
  · rfl
  · generalize (t.foldl (absStep d q e) ([], false)).1 = st
    by_cases h : st.head? = some 'R'
    · simp [pushNew, h]
    · simp only [pushNew, h, if_false, List.reverse_cons, mergeLoop_append_R]
      rw [fill_row]
      simp only [fill]
      rw [if_neg (by decide), stripTrailing_append_R]

/-- One newline run is as good as another. -/
theorem foldl_run_eq (d q e : Char) (n n' : Str) (hn : ∀ c ∈ n, isNL c = true) (hne : n ≠ [])
    (hn' : ∀ c ∈ n', isNL c = true) (hne' : n' ≠ []) (st : AbsState) :
    n.foldl (absStep d q e) st = n'.foldl (absStep d q e) st := by
  rw [foldl_run d q e n hn, foldl_run d q e n' hn', if_neg hne, if_neg hne']

end Clever
