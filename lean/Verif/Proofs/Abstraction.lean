import Verif.Model.Abstraction
import Verif.Spec.Parse

/-!
# The abstraction pipeline in one pass
-/

namespace Clever

/-! ## Replacing in a loop -/

/-- Insert a `C` between every two adjacent characters `a`, `b`. -/
def ins (a b : Char) : Str → Str
  | [] => []
  | x :: rest => x :: (if x = a ∧ rest.head? = some b then 'C' :: ins a b rest else ins a b rest)

/-- Number of adjacent pairs `a`, `b`. -/
def cnt2 (a b : Char) : Str → Nat
  | [] => 0
  | x :: rest => (if x = a ∧ rest.head? = some b then 1 else 0) + cnt2 a b rest

theorem head_ins (a b : Char) (s : Str) : (ins a b s).head? = s.head? := by
  cases s <;> simp [ins]

theorem has2_iff (a b : Char) (s : Str) : has2 a b s = true ↔ 0 < cnt2 a b s := by
  induction s with
  | nil => simp [has2, cnt2]
  | cons x rest ih =>
    simp only [has2, cnt2, Bool.or_eq_true, ih]
    by_cases h : x = a ∧ rest.head? = some b
    · simp only [h, and_self, decide_true, Bool.and_true, true_or, if_true, true_iff]; omega
    · rw [if_neg h]
      simp only [Bool.and_eq_true, decide_eq_true_eq]
      constructor
      · rintro (h' | h')
        · exact absurd h' h
        · omega
      · intro h'; right; omega

theorem cnt2_le (a b : Char) (s : Str) : cnt2 a b s ≤ s.length := by
  induction s with
  | nil => simp [cnt2]
  | cons x rest ih => simp only [cnt2, List.length_cons]; split <;> omega

theorem ins_of_not (a b : Char) (s : Str) (h : has2 a b s = false) : ins a b s = s := by
  induction s with
  | nil => rfl
  | cons x rest ih =>
    simp only [has2, Bool.or_eq_false_iff, Bool.and_eq_false_iff] at h
    have hn : ¬ (x = a ∧ rest.head? = some b) := by
      intro hc; rcases h.1 with h1 | h1 <;> simp [hc] at h1
    rw [ins, if_neg hn, ih h.2]

theorem head_replace2 (a b : Char) (rep : Str) (s : Str) (hr : rep.head? = some a) :
    (replace2 a b rep s).head? = s.head? := by
  cases s with
  | nil => rfl
  | cons x rest =>
    simp only [replace2, replace2Aux]
    split
    · rename_i h
      cases rep with
      | nil => simp at hr
      | cons r rs => simp at hr; simp [hr, h.1]
    · rfl

theorem replace2_cases (a b : Char) (rep : Str) (x : Char) (rest : Str) :
    (∃ rest', x = a ∧ rest = b :: rest' ∧
        replace2 a b rep (x :: rest) = rep ++ replace2 a b rep rest') ∨
      (¬ (x = a ∧ rest.head? = some b) ∧
        replace2 a b rep (x :: rest) = x :: replace2 a b rep rest) := by
  by_cases h : x = a ∧ rest.head? = some b
  · left
    cases rest with
    | nil => simp at h
    | cons y rest' =>
      obtain ⟨rfl, h2⟩ := h
      simp at h2
      subst h2
      exact ⟨rest', rfl, rfl, by simp [replace2, replace2Aux]⟩
  · right
    exact ⟨h, by simp [replace2, replace2Aux, h]⟩

theorem ins_replace2 (a b : Char) (ha : a ≠ 'C') (hb : b ≠ 'C') :
    ∀ (n : Nat) (s : Str), s.length ≤ n →
      ins a b (replace2 a b [a, 'C', b] s) = ins a b s ∧
      cnt2 a b (replace2 a b [a, 'C', b] s) ≤ cnt2 a b s ∧
      (has2 a b s = true → cnt2 a b (replace2 a b [a, 'C', b] s) < cnt2 a b s) := by
  intro n
  induction n with
  | zero =>
    intro s hs
    have : s = [] := by simpa using hs
    subst this; simp [replace2, replace2Aux, ins, cnt2, has2]
  | succ n ih =>
    intro s hs
    cases s with
    | nil => simp [replace2, replace2Aux, ins, cnt2, has2]
    | cons x rest =>
      have hhd : ∀ s, (replace2 a b [a, 'C', b] s).head? = s.head? :=
        fun s => head_replace2 a b _ s rfl
      rcases replace2_cases a b [a, 'C', b] x rest with ⟨rest', rfl, rfl, h⟩ | ⟨hn, h⟩
      · have hl : rest'.length ≤ n := by simp at hs; omega
        obtain ⟨i1, i2, i3⟩ := ih rest' hl
        rw [h]
        have hca : ('C' = x) = False := by simp [Ne.symm ha]
        have hbc : ('C' = b) = False := by simp [Ne.symm hb]
        simp only [List.cons_append, List.nil_append, ins, cnt2, List.head?_cons, Option.some.injEq,
          hca, hbc, false_and, and_false, if_false, if_true, and_self, hhd, i1, true_and]
        refine ⟨?_, ?_⟩
        · omega
        · intro _; omega
      · have hl : rest.length ≤ n := by simp at hs; omega
        obtain ⟨i1, i2, i3⟩ := ih rest hl
        rw [h]
        simp only [ins, cnt2, hhd, i1, true_and, has2]
        refine ⟨by omega, ?_⟩
        intro hh
        have : has2 a b rest = true := by
          simp only [Bool.or_eq_true, Bool.and_eq_true, decide_eq_true_eq] at hh
          rcases hh with hh | hh
          · exact absurd hh hn
          · exact hh
        have := i3 this
        omega

theorem whileReplace_eq (a b : Char) (ha : a ≠ 'C') (hb : b ≠ 'C') (n : Nat) (s : Str)
    (h : cnt2 a b s ≤ n) : whileReplace a b [a, 'C', b] n s = ins a b s := by
  induction n generalizing s with
  | zero =>
    rw [whileReplace, ins_of_not]
    cases hh : has2 a b s with
    | false => rfl
    | true => have := (has2_iff a b s).1 hh; omega
  | succ n ih =>
    rw [whileReplace]
    obtain ⟨i1, i2, i3⟩ := ins_replace2 a b ha hb s.length s (Nat.le_refl _)
    split
    · rename_i hh
      rw [ih _ (by have := i3 hh; omega), i1]
    · rename_i hh
      rw [ins_of_not a b s (by simpa using hh)]

theorem has2_ins (a b : Char) (ha : a ≠ 'C') (hb : b ≠ 'C') (s : Str) :
    has2 a b (ins a b s) = false := by
  induction s with
  | nil => rfl
  | cons x rest ih =>
    rw [ins]
    split
    · simp [has2, ih, Ne.symm ha, Ne.symm hb]
    · rename_i h
      simp only [has2, ih, head_ins, Bool.or_false]
      simpa using h

/-- The loop of `fill_empties` ends because the pattern does not occur any more, not because the
fuel runs out. -/
theorem has2_whileReplace (a b : Char) (ha : a ≠ 'C') (hb : b ≠ 'C') (s : Str) :
    has2 a b (whileReplace a b [a, 'C', b] (s.length + 1) s) = false := by
  rw [whileReplace_eq a b ha hb _ s (by have := cnt2_le a b s; omega)]
  exact has2_ins a b ha hb s

/-! ## `fill_empties` in one pass -/

/-- Does a cell between `x` and `y` have to be filled? -/
def gap (x y : Char) : Bool :=
  (x = 'D' && (y = 'D' || y = 'R')) || (x = 'R' && y = 'D')

/-- `fill_empties` as a single pass over the string; `prev` is the previous character (`R` at the
beginning). -/
def fill : Char → Str → Str
  | prev, [] => if prev = 'D' then ['C'] else []
  | prev, x :: rest =>
    (if gap prev x then ['C'] else []) ++
      ((if prev = 'C' ∧ x = 'C' then [] else [x]) ++ fill x rest)

/-- Insertion of all missing `C`s in one pass. -/
def ins3 : Str → Str
  | [] => []
  | x :: rest => x :: ((if gap x (rest.headD 'C') then ['C'] else []) ++ ins3 rest)

theorem ins_ins_ins (s : Str) : ins 'R' 'D' (ins 'D' 'R' (ins 'D' 'D' s)) = ins3 s := by
  induction s with
  | nil => rfl
  | cons x rest ih =>
    rw [ins3, ← ih]
    cases rest with
    | nil =>
      by_cases h1 : x = 'D' <;> by_cases h2 : x = 'R' <;> simp [ins, gap, h1, h2]
    | cons y rest' =>
      by_cases h1 : x = 'D'
      · subst h1
        by_cases h2 : y = 'D'
        · subst h2; simp [ins, gap]
        · by_cases h3 : y = 'R'
          · subst h3; simp [ins, gap]
          · simp [ins, gap, h2, h3]
      · by_cases h2 : x = 'R'
        · subst h2
          by_cases h3 : y = 'D'
          · subst h3; simp [ins, gap]
          · simp [ins, gap, h3]
        · simp [ins, gap, h1, h2]

/-- `ins3` and the collapsing of `C`s, from the left, without the ends. -/
theorem subMultiC_ins3 (s : Str) (prev : Char) (b : Bool) (hb : b = true ↔ prev = 'C') :
    (if gap prev (s.headD 'C') then ['C'] else []) ++
        (subMultiC b (ins3 s) ++ if (prev :: s).getLast? = some 'D' then ['C'] else []) =
      fill prev s := by
  induction s generalizing prev b with
  | nil => by_cases h : prev = 'D' <;> simp [ins3, subMultiC, fill, gap, h]
  | cons x rest ih =>
    rw [fill, ins3]
    simp only [List.headD_cons]
    congr 1
    have hlast : (prev :: x :: rest).getLast? = (x :: rest).getLast? := by
      simp [List.getLast?_cons_cons]
    rw [hlast]
    by_cases hx : x = 'C'
    · subst hx
      have hg : gap 'C' (rest.headD 'C') = false := by simp [gap]
      rw [hg]
      have := ih 'C' true (by simp)
      rw [hg] at this
      simp only [Bool.false_eq_true, if_false, List.nil_append] at this ⊢
      rw [← this]
      cases b with
      | true =>
        have := hb.1 rfl
        subst this
        simp [subMultiC]
      | false =>
        have : prev ≠ 'C' := by intro h; simp [h] at hb
        simp [subMultiC, this]
    · have := ih x false (by simp [hx])
      rw [← this]
      simp only [subMultiC, hx, if_false, and_false, List.cons_append, List.nil_append,
        List.cons.injEq, true_and]
      split
      · simp [subMultiC]
        cases hr : rest with
        | nil => simp [ins3, subMultiC]
        | cons y ys =>
          rename_i hg
          have hy : y ≠ 'C' := by
            intro hc; simp [hr, hc, gap] at hg
          simp [ins3, subMultiC, hy]
      · simp

theorem getLast_subMultiC_ins3 (s : Str) (p : Char) (b : Bool) (hb : b = true → p = 'C') :
    (p :: subMultiC b (ins3 s)).getLast? = (p :: s).getLast? := by
  induction s generalizing p b with
  | nil => rfl
  | cons x rest ih =>
    rw [ins3]
    have key : ∀ b', (b' = true ↔ x = 'C') →
        (x :: subMultiC b' ((if gap x (rest.headD 'C') then ['C'] else []) ++ ins3 rest)).getLast? =
          (x :: rest).getLast? := by
      intro b' hb'
      split
      · rename_i hg
        have hx : x ≠ 'C' := by intro h; simp [h, gap] at hg
        have : b' = false := by
          cases b' with
          | false => rfl
          | true => exact absurd (hb'.1 rfl) hx
        subst this
        cases hr : rest with
        | nil => simp [hr, gap] at hg
        | cons y ys =>
          have := ih 'C' true (by simp)
          rw [hr] at this
          simp only [List.cons_append, List.nil_append, subMultiC, if_true, Bool.false_eq_true,
            if_false]
          rw [List.getLast?_cons_cons, this, List.getLast?_cons_cons, List.getLast?_cons_cons]
      · exact ih x b' (fun h => hb'.1 h)
    rw [List.getLast?_cons_cons, ← key (x == 'C') (by simp)]
    by_cases hx : x = 'C'
    · subst hx
      cases b with
      | true =>
        have := hb rfl
        subst this
        simp [subMultiC]
      | false => simp [subMultiC, List.getLast?_cons_cons]
    · have : (x == 'C') = false := by simp [hx]
      rw [this]
      simp [subMultiC, hx, List.getLast?_cons_cons]

theorem head_subMultiC_ins3 (s : Str) : (subMultiC false (ins3 s)).head? = s.head? := by
  cases s with
  | nil => rfl
  | cons x rest => by_cases hx : x = 'C' <;> simp [ins3, subMultiC, hx]

/-- `fill_empties` in one pass. -/
theorem fillEmpties_eq (s : Str) : fillEmpties s = fill 'R' s := by
  have hw : ∀ (a b : Char) (s : Str), a ≠ 'C' → b ≠ 'C' →
      whileReplace a b [a, 'C', b] (s.length + 1) s = ins a b s := fun a b s ha hb =>
    whileReplace_eq a b ha hb _ s (by have := cnt2_le a b s; omega)
  simp only [fillEmpties, hw 'D' 'D' _ (by decide) (by decide), hw 'D' 'R' _ (by decide) (by decide),
    hw 'R' 'D' _ (by decide) (by decide), ins_ins_ins]
  rw [← subMultiC_ins3 s 'R' false (by simp)]
  have hl : (subMultiC false (ins3 s)).getLast? = some 'D' ↔ ('R' :: s).getLast? = some 'D' := by
    rw [← getLast_subMultiC_ins3 s 'R' false (by simp)]
    cases h : subMultiC false (ins3 s) with
    | nil => simp
    | cons x xs => rw [List.getLast?_cons_cons]
  have hh : (subMultiC false (ins3 s)).head? = some 'D' ↔ gap 'R' (s.headD 'C') = true := by
    rw [head_subMultiC_ins3]
    cases s with
    | nil => simp [gap]
    | cons x rest => simp [gap]
  by_cases h1 : (subMultiC false (ins3 s)).head? = some 'D'
  · rw [if_pos h1, if_pos (hh.1 h1)]
    have : ('C' :: subMultiC false (ins3 s)).getLast? = (subMultiC false (ins3 s)).getLast? := by
      cases h : subMultiC false (ins3 s) with
      | nil => rw [h] at h1; simp at h1
      | cons x xs => rw [List.getLast?_cons_cons]
    rw [this]
    by_cases h2 : (subMultiC false (ins3 s)).getLast? = some 'D'
    · rw [if_pos h2, if_pos (hl.1 h2)]; rfl
    · rw [if_neg h2, if_neg (fun h => h2 (hl.2 h))]; simp
  · rw [if_neg h1, if_neg (fun h => h1 (hh.2 h))]
    by_cases h2 : (subMultiC false (ins3 s)).getLast? = some 'D'
    · rw [if_pos h2, if_pos (hl.1 h2)]; rfl
    · rw [if_neg h2, if_neg (fun h => h2 (hl.2 h))]; simp

/-! ## Rows and cells of `fill` -/

/-- A row separator ends a row: the rows are filled on their own. -/
theorem fill_row (prev : Char) (r s : Str) :
    fill prev (r ++ 'R' :: s) = fill prev r ++ 'R' :: fill 'R' s := by
  induction r generalizing prev with
  | nil =>
    by_cases h : prev = 'D'
    · subst h; simp [fill, gap]
    · simp [fill, gap, h]
  | cons x rest ih => simp only [List.cons_append, fill, ih]; simp [List.append_assoc]

/-- A delimiter ends a cell. -/
theorem fill_cell (prev : Char) (hp : prev = 'D' ∨ prev = 'R') (c s : Str) (hc : 'D' ∉ c)
    (hr : 'R' ∉ c) :
    fill prev (c ++ 'D' :: s) = fill 'D' c ++ 'D' :: fill 'D' s := by
  have aux : ∀ (p : Char), p ≠ 'D' → p ≠ 'R' → ∀ c : Str, 'D' ∉ c → 'R' ∉ c →
      fill p (c ++ 'D' :: s) = fill p c ++ 'D' :: fill 'D' s := by
    intro p h1 h2 c hc hr
    induction c generalizing p with
    | nil => simp [fill, gap, h1, h2]
    | cons x rest ih =>
      simp only [List.mem_cons, not_or] at hc hr
      simp only [List.cons_append, fill, ih x (Ne.symm hc.1) (Ne.symm hr.1) hc.2 hr.2]
      simp [List.append_assoc]
  cases c with
  | nil => rcases hp with rfl | rfl <;> simp [fill, gap]
  | cons x rest =>
    simp only [List.mem_cons, not_or] at hc hr
    simp only [List.cons_append, fill, aux x (Ne.symm hc.1) (Ne.symm hr.1) rest hc.2 hr.2]
    rcases hp with rfl | rfl <;> simp [gap, Ne.symm hc.1, Ne.symm hr.1]

/-! ## Well-formedness of `fill` -/

/-- Two adjacent characters of a filled abstraction. -/
def OkPair (x y : Char) : Prop :=
  ¬ (x = 'C' ∧ y = 'C') ∧ (x = 'D' → y ≠ 'D' ∧ y ≠ 'R') ∧ (x = 'R' → y ≠ 'D')

/-- All pairs of adjacent characters are fine. -/
def OkPairs : Str → Prop
  | [] => True
  | [_] => True
  | x :: y :: rest => OkPair x y ∧ OkPairs (y :: rest)

theorem okPairs_fill (prev : Char) (s : Str) : OkPairs (prev :: fill prev s) := by
  induction s generalizing prev with
  | nil =>
    by_cases h : prev = 'D'
    · subst h; simp [fill, OkPairs, OkPair]
    · simp [fill, h, OkPairs]
  | cons x rest ih =>
    have h := ih x
    rw [fill]
    by_cases hg : gap prev x = true
    · have : ¬ (prev = 'C' ∧ x = 'C') := by rintro ⟨h1, h2⟩; simp [h1, h2, gap] at hg
      simp only [hg, if_true, this, if_false, List.cons_append, List.nil_append, OkPairs, h, and_true]
      simp only [gap] at hg
      refine ⟨⟨?_, ?_, ?_⟩, ⟨?_, ?_, ?_⟩⟩ <;> grind
    · by_cases hc : prev = 'C' ∧ x = 'C'
      · simp only [hc, and_self, if_true, List.nil_append]
        obtain ⟨rfl, rfl⟩ := hc
        simpa [gap] using h
      · simp only [hg, hc, if_false, Bool.false_eq_true, List.nil_append, List.cons_append]
        refine ⟨?_, h⟩
        simp only [gap] at hg
        refine ⟨?_, ?_, ?_⟩ <;> grind

theorem OkPairs.tail {x : Char} {s : Str} (h : OkPairs (x :: s)) : OkPairs s := by
  cases s with
  | nil => trivial
  | cons y rest => exact h.2

theorem OkPairs.left {s t : Str} (h : OkPairs (s ++ t)) : OkPairs s := by
  induction s with
  | nil => trivial
  | cons x rest ih =>
    cases rest with
    | nil => trivial
    | cons y rest' => exact ⟨h.1, ih h.2⟩

theorem getLast_fill (prev : Char) (s : Str) : (prev :: fill prev s).getLast? ≠ some 'D' := by
  induction s generalizing prev with
  | nil => by_cases h : prev = 'D' <;> simp [fill, h]
  | cons x rest ih =>
    have := ih x
    rw [fill]
    by_cases hc : prev = 'C' ∧ x = 'C'
    · obtain ⟨rfl, rfl⟩ := hc
      simpa [gap] using this
    · simp only [hc, if_false, List.cons_append, List.nil_append]
      split
      · simp only [List.cons_append, List.nil_append, List.getLast?_cons_cons]; exact this
      · simp only [List.nil_append, List.getLast?_cons_cons]; exact this

theorem head_fill (s : Str) : (fill 'R' s).head? ≠ some 'D' := by
  have h := okPairs_fill 'R' s
  cases hf : fill 'R' s with
  | nil => simp
  | cons y rest =>
    rw [hf] at h
    have := h.1.2.2 rfl
    simpa using this

theorem mem_fill (prev c : Char) (s : Str) (h : c ∈ fill prev s) : c = 'C' ∨ c ∈ s := by
  induction s generalizing prev with
  | nil => by_cases hp : prev = 'D' <;> simp_all [fill]
  | cons x rest ih =>
    rw [fill] at h
    simp only [List.mem_append] at h
    rcases h with h | h | h
    · split at h <;> simp_all
    · split at h <;> simp_all
    · rcases ih x h with h | h <;> simp [h]

/-! ## `strip_trailing` -/

theorem stripTrailing_spec (s : Str) :
    (∃ k, s = stripTrailing s ++ List.replicate k 'R') ∧ (stripTrailing s).getLast? ≠ some 'R' := by
  have key : ∀ t : Str, (∃ k, t = List.replicate k 'R' ++ t.dropWhile (· = 'R')) ∧
      (t.dropWhile (· = 'R')).head? ≠ some 'R' := by
    intro t
    induction t with
    | nil => exact ⟨⟨0, rfl⟩, by simp⟩
    | cons x rest ih =>
      by_cases hx : x = 'R'
      · subst hx
        obtain ⟨⟨k, hk⟩, h2⟩ := ih
        simp only [List.dropWhile_cons, decide_true, if_true]
        exact ⟨⟨k + 1, by rw [List.replicate_succ, List.cons_append, ← hk]⟩, h2⟩
      · simp only [List.dropWhile_cons, hx, decide_false, Bool.false_eq_true, if_false]
        exact ⟨⟨0, rfl⟩, by simpa using hx⟩
  obtain ⟨⟨k, hk⟩, h2⟩ := key s.reverse
  refine ⟨⟨k, ?_⟩, ?_⟩
  · have := congrArg List.reverse hk
    simp only [List.reverse_reverse, List.reverse_append, List.reverse_replicate] at this
    exact this
  · simpa [stripTrailing] using h2

theorem stripTrailing_append_R (s : Str) : stripTrailing (s ++ ['R']) = stripTrailing s := by
  simp [stripTrailing]

theorem stripTrailing_of (s : Str) (h : s.getLast? ≠ some 'R') : stripTrailing s = s := by
  obtain ⟨⟨k, hk⟩, _⟩ := stripTrailing_spec s
  cases k with
  | zero => simpa using hk.symm
  | succ k =>
    exfalso; apply h
    rw [hk, List.getLast?_append, List.getLast?_replicate]; simp

/-! ## Merging quoted blocks -/

theorem mem_mergeLoop (s : Str) (blk : Option Str) (c : Char) (h : c ∈ mergeLoop s blk) :
    c = 'C' ∨ c ∈ s ∨ c ∈ blk.getD [] ∨ (c = NUL ∧ 'Q' ∈ s) := by
  fun_induction mergeLoop s blk with
  | case1 => simp at h
  | case2 blk => simp at h; simp [h]
  | case3 s rest hs ih =>
    simp only [List.mem_cons] at h
    rcases h with h | h
    · simp [h]
    · rcases ih h with h | h | h | h <;> simp_all
  | case4 s rest hs ih =>
    have hs' : s = 'Q' := by simpa using hs
    subst hs'
    rcases ih h with h | h | h | h <;> simp_all
  | case5 s rest blk hs ih => 
    rcases ih h with h | h | h | h
    · simp [h]
    · simp [h]
    · simp only [Option.getD_some, List.mem_cons] at h ⊢
      rcases h with h | h <;> simp [h]
    · simp [h]
  | case6 s blk hs =>
    simp only [List.mem_replicate] at h; simp [h]
  | case7 s blk hs rest' ih =>
    have hs' : s = 'Q' := by simpa using hs
    subst hs'
    rcases ih h with h | h | h | h
    · simp [h]
    · simp [h]
    · simp only [Option.getD_some, List.mem_cons] at h ⊢
      rcases h with h | h | h <;> simp [h]
    · simp [h]
  | case8 s blk hs t rest' ht ih =>
    simp only [List.mem_append, List.mem_replicate] at h
    rcases h with h | h
    · simp [h]
    · rcases ih h with h | h | h | h <;> simp_all

theorem mergeLoop_some_ne (s : Char) (rest blk : Str) (hs : s ≠ 'Q') :
    mergeLoop (s :: rest) (some blk) = mergeLoop rest (some (s :: blk)) := by
  cases rest <;> simp [mergeLoop, hs]

theorem mergeLoop_append_R (s : Str) (blk : Option Str) :
    mergeLoop (s ++ ['R']) blk = mergeLoop s blk ++ ['R'] := by
  fun_induction mergeLoop s blk with
  | case1 => rfl
  | case2 blk => simp [mergeLoop]
  | case3 s rest hs ih => simp [mergeLoop, hs, ih]
  | case4 s rest hs ih =>
    have hs' : s = 'Q' := by simpa using hs
    subst hs'; simp [mergeLoop, ih]
  | case5 s rest blk hs ih => rw [List.cons_append, mergeLoop_some_ne _ _ _ hs, ih]
  | case6 s blk hs =>
    have hs' : s = 'Q' := by simpa using hs
    subst hs'; simp [mergeLoop]
  | case7 s blk hs rest' ih =>
    have hs' : s = 'Q' := by simpa using hs
    subst hs'; simp [mergeLoop, ih]
  | case8 s blk hs t rest' ht ih =>
    have hs' : s = 'Q' := by simpa using hs
    subst hs'
    simp only [List.cons_append, mergeLoop, ne_eq, ht, not_false_eq_true, if_true,
      List.cons.injEq, true_and] at ih
    simp [mergeLoop, ht, ih]

theorem mergeLoop_noQ (s : Str) (h : 'Q' ∉ s) : mergeLoop s none = s := by
  induction s with
  | nil => rfl
  | cons x rest ih =>
    simp only [List.mem_cons, not_or] at h
    simp [mergeLoop, Ne.symm h.1, ih h.2]

/-! ## `base_abstraction` -/

/-- The loop, one character appended. -/
theorem base_append (d q e : Char) (s t : Str) (st : AbsState) :
    (s ++ t).foldl (absStep d q e) st = t.foldl (absStep d q e) (s.foldl (absStep d q e) st) := by
  rw [List.foldl_append]

theorem absStep_letters (d q e : Char) (st : AbsState) (s : Char) :
    (absStep d q e st s).1 = st.1 ∨
      ∃ x, (absStep d q e st s).1 = x :: st.1 ∧
        (x = 'C' ∨ x = 'D' ∨ x = 'R' ∨ (x = 'Q' ∧ s = q)) := by
  obtain ⟨st, b⟩ := st
  simp only [absStep, pushNew]
  cases b <;> (repeat' split) <;> simp_all

theorem mem_base_aux (d q e : Char) (data : Str) (st : AbsState) (c : Char)
    (h : c ∈ (data.foldl (absStep d q e) st).1) :
    c ∈ st.1 ∨ c = 'C' ∨ c = 'D' ∨ c = 'R' ∨ (c = 'Q' ∧ q ∈ data) := by
  induction data generalizing st with
  | nil => exact Or.inl h
  | cons s rest ih =>
    rcases ih (absStep d q e st s) h with h | h | h | h | h
    · rcases absStep_letters d q e st s with hs | ⟨x, hs, hx⟩
      · rw [hs] at h; exact Or.inl h
      · rw [hs] at h
        simp only [List.mem_cons] at h
        rcases h with rfl | h
        · rcases hx with h | h | h | h
          · simp [h]
          · simp [h]
          · simp [h]
          · simp [h]
        · exact Or.inl h
    · simp [h]
    · simp [h]
    · simp [h]
    · simp [h]

theorem mem_base (d q e : Char) (data : Str) (c : Char) (h : c ∈ baseAbstraction d q e data) :
    c = 'C' ∨ c = 'D' ∨ c = 'R' ∨ (c = 'Q' ∧ q ∈ data) := by
  have := mem_base_aux d q e data ([], false) c (by simpa [baseAbstraction] using h)
  simpa using this

/-- `make_abstraction` through the one-pass `fill`. -/
theorem abstraction_eq (d q e : Char) (data : Str) :
    abstraction d q e data =
      stripTrailing (fill 'R' (mergeLoop (baseAbstraction d q e data) none)) := by
  rw [abstraction, fillEmpties_eq, mergeWithQuotechar]

theorem makeAbstraction_ok (data : Str) (dl : SimpleDialect) (A : Str)
    (h : makeAbstraction data dl = .ok A) :
    ∃ d q e, setChar "delimiter" dl.delimiter = .ok d ∧ setChar "quotechar" dl.quotechar = .ok q ∧
      setChar "escapechar" dl.escapechar = .ok e ∧ A = abstraction d q e data := by
  simp only [makeAbstraction, baseAbstractionPy, bind, Except.bind, pure, Except.pure] at h
  cases hd : setChar "delimiter" dl.delimiter with
  | error x => simp [hd] at h
  | ok d =>
    cases hq : setChar "quotechar" dl.quotechar with
    | error x => simp [hd, hq] at h
    | ok q =>
      cases he : setChar "escapechar" dl.escapechar with
      | error x => simp [hd, hq, he] at h
      | ok e =>
        simp only [hd, hq, he, Except.ok.injEq] at h
        exact ⟨d, q, e, rfl, rfl, rfl, h.symm⟩

theorem makeAbstraction_of (data : Str) (dl : SimpleDialect) (d q e : Char)
    (hd : setChar "delimiter" dl.delimiter = .ok d) (hq : setChar "quotechar" dl.quotechar = .ok q)
    (he : setChar "escapechar" dl.escapechar = .ok e) :
    makeAbstraction data dl = .ok (abstraction d q e data) := by
  simp [makeAbstraction, baseAbstractionPy, bind, Except.bind, pure, Except.pure, hd, hq, he,
    abstraction]

/-- If every quoted block is closed, neither quotes nor NULs remain. -/
theorem mergeLoop_even (s : Str) (blk : Option Str)
    (heven : (s.count 'Q' + (if blk = none then 0 else 1)) % 2 = 0) (c : Char)
    (h : c ∈ mergeLoop s blk) : c = 'C' ∨ (c ∈ s ∧ c ≠ 'Q') := by
  fun_induction mergeLoop s blk with
  | case1 => simp at h
  | case2 blk => simp at heven
  | case3 s rest hs ih =>
    simp only [List.mem_cons] at h
    rcases h with h | h
    · subst h; simp [hs]
    · have := ih (by simpa [List.count_cons, hs] using heven) h
      rcases this with h | h
      · simp [h]
      · simp [h]
  | case4 s rest hs ih =>
    have hs' : s = 'Q' := by simpa using hs
    subst hs'
    have := ih (by simp at heven ⊢; omega) h
    rcases this with h | h
    · simp [h]
    · simp [h]
  | case5 s rest blk hs ih =>
    have := ih (by simpa [List.count_cons, hs] using heven) h
    rcases this with h | h
    · simp [h]
    · simp [h]
  | case6 s blk hs =>
    simp only [List.mem_replicate] at h; simp [h]
  | case7 s blk hs rest' ih =>
    have hs' : s = 'Q' := by simpa using hs
    subst hs'
    have := ih (by simp at heven ⊢; omega) h
    rcases this with h | h
    · simp [h]
    · simp [h]
  | case8 s blk hs t rest' ht ih =>
    have hs' : s = 'Q' := by simpa using hs
    subst hs'
    simp only [List.mem_append, List.mem_replicate] at h
    rcases h with h | h
    · simp [h]
    · have := ih (by simp at heven ⊢; omega) h
      rcases this with h | h
      · simp [h]
      · rw [List.mem_cons]; exact Or.inr ⟨Or.inr h.1, h.2⟩

theorem mem_stripTrailing (s : Str) (c : Char) (h : c ∈ stripTrailing s) : c ∈ s := by
  obtain ⟨⟨k, hk⟩, _⟩ := stripTrailing_spec s
  rw [hk]; simp [h]

end Clever
