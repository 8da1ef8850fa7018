import Verif.Proofs.RowOrder
import Verif.Proofs.AbstractionSize
import Verif.Spec.Consistent

/-!
# The scores of consistent and inconsistent delimiters
-/

namespace Clever

open Spec Props

/-! ### The number of row patterns -/

theorem countR_line (d q e : Char) (l : Str) (hnl : ∀ c ∈ l, isNL c = false) (st : AbsState) :
    (l.foldl (absStep d q e) st).1.count 'R' = st.1.count 'R' := by
  induction l generalizing st with
  | nil => rfl
  | cons x l ih =>
    rw [List.foldl_cons, ih (fun c hc => hnl c (by simp [hc]))]
    have hx : ¬ (x = '\r' ∨ x = '\n') := by
      have := hnl x (by simp)
      simpa [isNL] using this
    unfold absStep
    rw [if_neg hx]
    split
    · split <;> simp
    · split
      · split <;> simp
      · split
        · split
          · unfold pushNew; split <;> simp
          · rfl
        · unfold pushNew; split <;> simp

theorem countR_base (d q e : Char) : ∀ (n : Nat) (t : Str), t.length ≤ n → t ≠ [] →
    (∀ c, t.head? = some c → isNL c = false) → (∀ c, t.getLast? = some c → isNL c = false) → ∀ st : AbsState,
    (t.foldl (absStep d q e) st).1.count 'R' + 1 ≤ st.1.count 'R' + (nonblank t).length := by
  intro n
  induction n with
  | zero => intro t h h0; exact absurd (by simpa using h) h0
  | succ n ih =>
    intro t hlen hne hhd hlast st
    obtain ⟨l, t', rfl, hl, ht'⟩ := exists_line t
    have hl0 : l ≠ [] := by
      rintro rfl
      rcases ht' with rfl | ⟨c, t'', rfl, hc⟩
      · exact hne rfl
      · have := hhd c (by simp)
        rw [hc] at this; cases this
    have hlp : 0 < l.length := List.length_pos_iff.2 hl0
    rcases ht' with rfl | ⟨c, t'', rfl, hc⟩
    · have := (textLines_line l hl [] hl0).1 rfl
      rw [List.append_nil] at this ⊢
      rw [countR_line d q e l hl]
      simp [nonblank, this, hl0]
    · obtain ⟨L, h1, h2⟩ := (textLines_line l hl (c :: t'') hl0).2 c t'' rfl hc
      have hnb : (nonblank (l ++ c :: t'')).length = (nonblank t'').length + 1 := by
        simp only [nonblank, h1]
        rw [List.filter_cons_of_pos (by simpa using hl0), h2]
        rfl
      obtain ⟨r, u, hru, hr, hu⟩ := exists_run (c :: t'')
      have hr0 : r ≠ [] := by
        rintro rfl
        rw [List.nil_append] at hru
        have := hu c (by rw [← hru]; rfl)
        rw [hc] at this; cases this
      have hu0 : u ≠ [] := by
        rintro rfl
        rw [List.append_nil] at hru
        have : (l ++ c :: t'').getLast? = (c :: t'').getLast? := by simp [List.getLast?_append, List.getLast?_cons]
        rw [this] at hlast
        have h3 := hlast _ (List.getLast?_eq_some_getLast (l := c :: t'') (by simp))
        rw [hr _ (by rw [← hru]; exact List.getLast_mem _)] at h3
        cases h3
      have hnbu : nonblank t'' = nonblank u := by
        rw [← nonblank_nl c hc, hru, nonblank_run r u hr]
      rw [hnb, hnbu, hru, List.foldl_append, List.foldl_append, foldl_run d q e r hr, if_neg hr0]
      have hlast' : ∀ c, u.getLast? = some c → isNL c = false := by
        intro x hx
        apply hlast
        rw [hru]
        simp [List.getLast?_append, hx]
      have hul : u.length ≤ n := by
        have h5 : (c :: t'').length = r.length + u.length := by rw [hru]; simp
        have h6 : 0 < r.length := List.length_pos_iff.2 hr0
        simp only [List.length_append] at hlen
        omega
      have := ih u hul hu0 hu hlast' (pushNew 'R' (l.foldl (absStep d q e) st).1, (l.foldl (absStep d q e) st).2)
      have hp : (pushNew 'R' (l.foldl (absStep d q e) st).1).count 'R' ≤ st.1.count 'R' + 1 := by
        have h5 := countR_line d q e l hl st
        unfold pushNew
        split
        · omega
        · simp only [List.count_cons_self]; omega
      simp only at this
      omega

theorem count_mergeLoop {c : Char} (hc : c ≠ 'C' ∧ c ≠ 'Q' ∧ c ≠ NUL) (s : Str) (blk : Option Str) :
    (mergeLoop s blk).count c ≤ s.count c + (blk.getD []).count c := by
  fun_induction mergeLoop s blk with
  | case1 => simp
  | case2 blk => simp
  | case3 s rest hs ih =>
    have : s :: mergeLoop rest none = [s] ++ mergeLoop rest none := rfl
    simp only [Option.getD_none, List.count_nil, Nat.add_zero] at ih ⊢
    simp only [List.count_cons]
    omega
  | case4 s rest hs ih =>
    have hs' : s = 'Q' := by simpa using hs
    subst hs'
    simp only [Option.getD_some, Option.getD_none, List.count_nil, Nat.add_zero, List.count_cons] at ih ⊢
    have : ('Q' == c) = false := by simpa using hc.2.1.symm
    simp [this] at ih ⊢
    exact ih
  | case5 s rest blk hs ih =>
    simp only [Option.getD_some, List.count_cons] at ih ⊢
    omega
  | case6 s blk hs =>
    simp [List.count_replicate, hc.1.symm]
  | case7 s blk hs rest' ih =>
    simp only [Option.getD_some, List.count_cons] at ih ⊢
    have : (NUL == c) = false := by simpa using hc.2.2.symm
    simp [this] at ih ⊢
    omega
  | case8 s blk hs t rest' ht ih =>
    simp only [Option.getD_none, List.count_nil, Nat.add_zero] at ih
    rw [List.count_append]
    simp only [List.count_replicate, Option.getD_some]
    have : ('C' == c) = false := by simpa using hc.1.symm
    simp only [this, Bool.false_eq_true, if_false, Nat.zero_add]
    rw [List.count_cons (a := c) (b := s)]
    omega

theorem stripTrailing_sublist (s : Str) : (stripTrailing s).Sublist s := by
  have := (List.dropWhile_sublist (l := s.reverse) (fun x => decide (x = 'R'))).reverse
  rwa [List.reverse_reverse] at this

theorem count_abstraction {c : Char} (hc : c ≠ 'C' ∧ c ≠ 'Q' ∧ c ≠ NUL) (d q e : Char) (t : Str) :
    (abstraction d q e t).count c ≤ (baseAbstraction d q e t).count c := by
  rw [abstraction, fillEmpties_eq]
  refine le_trans ((stripTrailing_sublist _).count_le c) ?_
  rw [count_fill hc.1]
  simpa [mergeWithQuotechar] using count_mergeLoop hc (baseAbstraction d q e t) none

/-- Without the line breaks at the end. -/
theorem exists_body (t : Str) : ∃ b n, t = b ++ n ∧ (∀ c ∈ n, isNL c = true) ∧
    (∀ c, b.getLast? = some c → isNL c = false) := by
  refine ⟨(t.reverse.dropWhile isNL).reverse, (t.reverse.takeWhile isNL).reverse, ?_, ?_, ?_⟩
  · rw [← List.reverse_append, List.takeWhile_append_dropWhile, List.reverse_reverse]
  · intro c hc
    rw [List.mem_reverse] at hc
    exact List.all_eq_true.1 List.all_takeWhile c hc
  · intro c hc
    rw [List.getLast?_reverse] at hc
    have := List.head?_dropWhile_not isNL t.reverse
    rw [hc] at this
    simpa using this

/-- There are not more row patterns than nonempty lines. -/
theorem rows_le (d q e : Char) (t : Str) (hnul : NUL ∉ t) (hne : t ≠ [])
    (hhd : ∀ c, t.head? = some c → isNL c = false) :
    (splitOn 'R' (abstraction d q e t)).length ≤ (nonblank t).length := by
  obtain ⟨b, n, rfl, hn, hb⟩ := exists_body t
  have hb0 : b ≠ [] := by
    rintro rfl
    rw [List.nil_append] at hne hhd
    cases n with
    | nil => exact hne rfl
    | cons x n =>
      have := hhd x rfl
      rw [hn x (by simp)] at this; cases this
  have hhb : ∀ c, b.head? = some c → isNL c = false := by
    intro c hc
    apply hhd
    rw [List.head?_append, hc]; rfl
  have hbn : NUL ∉ b := fun h => hnul (by simp [h])
  have hsame : (nonblank (b ++ n)).length = (nonblank b).length := by
    have h1 := rows_plain 'x' (b ++ n) hnul hne hhd
    have h2 := rows_plain 'x' b hbn hb0 hhb
    rw [abstraction_trailing _ _ _ _ _ hn] at h1
    have := congrArg List.length (h1.symm.trans h2)
    simpa using this
  rw [hsame, abstraction_trailing _ _ _ _ _ hn, length_splitOn]
  have h1 := count_abstraction (c := 'R') (by decide) d q e b
  have h2 := countR_base d q e b.length b le_rfl hb0 hhb hb ([], false)
  simp only [List.count_nil, Nat.zero_add] at h2
  unfold baseAbstraction at h1
  rw [List.count_reverse] at h1
  omega

/-- A row pattern has at most one cell more than the text has characters. -/
theorem cells_le (d q e : Char) (t p : Str) (hp : p ∈ splitOn 'R' (abstraction d q e t)) :
    (splitOn 'D' p).length ≤ t.length + 1 := by
  rw [length_splitOn]
  have h1 := (splitOn_sublist hp).count_le 'D'
  have h2 := count_abstraction (c := 'D') (by decide) d q e t
  have h3 := length_base d q e t
  have h4 := List.count_le_length (a := 'D') (l := baseAbstraction d q e t)
  omega

/-! ### Scores -/

theorem firsts_replicate {α : Type} [DecidableEq α] (m : Nat) (p : α) : firsts (List.replicate (m + 1) p) = [p] := by
  induction m with
  | zero => rfl
  | succ m ih => rw [List.replicate_succ, firsts, ih]; simp

/-- The pattern score if all rows have the same pattern. -/
theorem score_const {eps : ℚ} {A p : Str} {m : Nat} (hm : 0 < m) (h : splitOn 'R' A = List.replicate m p) :
    scoreOfAbstraction eps A = fl ((m : ℚ) * fl (rowWeight eps (splitOn 'D' p).length)) := by
  obtain ⟨k, rfl⟩ : ∃ k, m = k + 1 := ⟨m - 1, by omega⟩
  have hc : counter (splitOn 'R' A) = [(p, k + 1)] := by
    rw [h, counter_eq, firsts_replicate]
    simp
  unfold scoreOfAbstraction
  simp only [splitChar_eq, hc, List.foldl_cons, List.foldl_nil, List.length_singleton, patCells, rowWeight, zero_add,
    fl_idem, Nat.cast_one, div_one]

theorem replicate_of_all {α : Type} {p : α} : ∀ {L : List α}, (∀ x ∈ L, x = p) → L = List.replicate L.length p := by
  intro L h
  exact List.eq_replicate_of_mem h

/-- A lower bound of the score of a consistent table. -/
theorem wins_lower (m n : Nat) (hn : 2 ≤ n) :
    (m : ℚ) * (((n : ℚ) - 1) / n) * (1 - 1 / 2 ^ 53) ^ 2 ≤ fl ((m : ℚ) * fl (((n : ℚ) - 1) / n)) := by
  have h2 : (2 : ℚ) ≤ n := by exact_mod_cast hn
  have hw : 0 ≤ ((n : ℚ) - 1) / n := div_nonneg (by linarith) (by linarith)
  have hm : (0 : ℚ) ≤ m := Nat.cast_nonneg m
  have e1 := (fl_error hw).1
  have e2 := (fl_error (mul_nonneg hm (fl_nonneg (((n : ℚ) - 1) / n)))).1
  refine le_trans ?_ e2
  have e3 := mul_le_mul_of_nonneg_left e1 hm
  have e4 := mul_le_mul_of_nonneg_right e3 (by norm_num : (0 : ℚ) ≤ 1 - 1 / 2 ^ 53)
  refine le_trans (le_of_eq ?_) e4
  ring

theorem half_le (n : Nat) (hn : 2 ≤ n) : (1 : ℚ) / 2 ≤ ((n : ℚ) - 1) / n := by
  have h2 : (2 : ℚ) ≤ n := by exact_mod_cast hn
  rw [div_le_div_iff₀ (by norm_num) (by linarith)]
  linarith

/-- With three or more row patterns the score is lower. -/
theorem lower_three {m m' K n : Nat} {P : ℚ} (hm : 0 < m) (hm' : m' ≤ m) (hK : 3 ≤ K) (hn : 2 ≤ n)
    (hP : P ≤ fl ((m' : ℚ) / (K : ℚ))) : P < fl ((m : ℚ) * fl (((n : ℚ) - 1) / n)) := by
  have hmq : (0 : ℚ) < m := by exact_mod_cast hm
  have hmq' : (m' : ℚ) ≤ m := by exact_mod_cast hm'
  have hKq : (3 : ℚ) ≤ K := by exact_mod_cast hK
  have h1 : (m' : ℚ) / K ≤ m / 3 := div_le_div₀ hmq.le hmq' (by norm_num) hKq
  have h2 := (fl_error (q := (m : ℚ) / 3) (by positivity)).2
  have h3 := wins_lower m n hn
  have h4 := mul_le_mul_of_nonneg_left (half_le n hn) hmq.le
  have h5 := mul_le_mul_of_nonneg_right h4 (by norm_num : (0 : ℚ) ≤ (1 - 1 / 2 ^ 53) ^ 2)
  refine lt_of_le_of_lt (le_trans hP (le_trans (fl_mono h1) h2)) (lt_of_lt_of_le ?_ (le_trans h5 h3))
  have : (1 : ℚ) / 3 * (1 + 1 / 2 ^ 53) < 1 / 2 * (1 - 1 / 2 ^ 53) ^ 2 := by norm_num
  have := mul_lt_mul_of_pos_left this hmq
  linarith

/-- The weight of a row with at most `L` cells. -/
theorem weight_le {eps : ℚ} (he : eps ≤ 1 / 2) {l L : Nat} (h0 : 0 < l) (hl : l ≤ L) (hL : 2 ≤ L) :
    rowWeight eps l ≤ 1 - 1 / (L : ℚ) := by
  have hq0 : (0 : ℚ) < l := by exact_mod_cast h0
  have hqL : (2 : ℚ) ≤ L := by exact_mod_cast hL
  have hql : (l : ℚ) ≤ L := by exact_mod_cast hl
  unfold rowWeight
  rcases max_choice eps ((l : ℚ) - 1) with h | h <;> rw [h]
  · have h1 : eps / l ≤ 1 / 2 := by
      rw [div_le_iff₀ hq0]
      have : (1 : ℚ) ≤ l := by exact_mod_cast h0
      linarith
    have h2 : 1 / (L : ℚ) ≤ 1 / 2 := one_div_le_one_div_of_le (by norm_num) hqL
    linarith
  · have h1 : ((l : ℚ) - 1) / l = 1 - 1 / l := by field_simp
    have h2 : 1 / (L : ℚ) ≤ 1 / l := one_div_le_one_div_of_le hq0 hql
    linarith

/-- With two row patterns the score is lower. -/
theorem lower_two {m n : Nat} {P S : ℚ} (hm : 0 < m) (hn : 2 ≤ n) (hP : Near 5 P (S / 2))
    (hS : S ≤ m * (1 - 1 / ((2 ^ 50 : Nat) : ℚ))) : P < fl ((m : ℚ) * fl (((n : ℚ) - 1) / n)) := by
  have hmq : (0 : ℚ) < m := by exact_mod_cast hm
  have h3 := wins_lower m n hn
  have h4 := mul_le_mul_of_nonneg_left (half_le n hn) hmq.le
  have h5 := mul_le_mul_of_nonneg_right h4 (by norm_num : (0 : ℚ) ≤ (1 - 1 / 2 ^ 53) ^ 2)
  have h6 : S / 2 * (1 + 1 / 2 ^ 53) ^ 5 ≤ (m * (1 - 1 / ((2 ^ 50 : Nat) : ℚ))) / 2 * (1 + 1 / 2 ^ 53) ^ 5 := by
    apply mul_le_mul_of_nonneg_right _ (by norm_num)
    linarith
  refine lt_of_le_of_lt (le_trans hP.2 h6) (lt_of_lt_of_le ?_ (le_trans h5 h3))
  have : (1 - 1 / ((2 ^ 50 : Nat) : ℚ)) / 2 * (1 + 1 / 2 ^ 53) ^ 5 < 1 / 2 * (1 - 1 / 2 ^ 53) ^ 2 := by
    push_cast
    norm_num
  have := mul_lt_mul_of_pos_left this hmq
  linarith

/-- With fewer cells in the rows the score is lower. -/
theorem lower_narrow {m m' n l : Nat} {eps : ℚ} (h0 : 0 ≤ eps) (he : eps ≤ 1 / 4) (hm : 0 < m) (hm' : m' ≤ m) (hn : 2 ≤ n)
    (hN : n ≤ 2 ^ 25) (hl0 : 0 < l) (hl : l < n) :
    fl ((m' : ℚ) * fl (rowWeight eps l)) < fl ((m : ℚ) * fl (((n : ℚ) - 1) / n)) := by
  have hmq : (0 : ℚ) < m := by exact_mod_cast hm
  have hmq' : (m' : ℚ) ≤ m := by exact_mod_cast hm'
  have h3 := wins_lower m n hn
  have hw := rowWeight_nonneg h0 l
  have u1 := (fl_error hw).2
  have u2 : fl ((m' : ℚ) * fl (rowWeight eps l)) ≤ fl ((m : ℚ) * fl (rowWeight eps l)) :=
    fl_mono (mul_le_mul_of_nonneg_right hmq' (fl_nonneg _))
  have u3 := (fl_error (mul_nonneg hmq.le (fl_nonneg (rowWeight eps l)))).2
  have u4 : (m : ℚ) * fl (rowWeight eps l) * (1 + 1 / 2 ^ 53) ≤ m * (rowWeight eps l * (1 + 1 / 2 ^ 53)) * (1 + 1 / 2 ^ 53) := by
    apply mul_le_mul_of_nonneg_right _ (by norm_num)
    exact mul_le_mul_of_nonneg_left u1 hmq.le
  refine lt_of_le_of_lt (le_trans u2 (le_trans u3 u4)) (lt_of_lt_of_le ?_ h3)
  have key : rowWeight eps l * (1 + 1 / 2 ^ 53) ^ 2 < ((n : ℚ) - 1) / n * (1 - 1 / 2 ^ 53) ^ 2 := by
    by_cases h1 : l = 1
    · subst h1
      have hw1 : rowWeight eps 1 ≤ 1 / 4 := by
        unfold rowWeight
        simp [h0]
        linarith
      have := half_le n hn
      nlinarith
    · have hl2 : 2 ≤ l := by omega
      have hn3 : 3 ≤ n := by omega
      obtain ⟨k, rfl⟩ : ∃ k, n = k + 2 := ⟨n - 2, by omega⟩
      have hk : (1 : ℚ) ≤ k := by exact_mod_cast (show 1 ≤ k by omega)
      have hkN : (k : ℚ) + 2 ≤ 2 ^ 25 := by exact_mod_cast hN
      have hwl : rowWeight eps l ≤ (k : ℚ) / (k + 1) := by
        have h5 : (l : ℚ) ≤ k + 1 := by exact_mod_cast (show l ≤ k + 1 by omega)
        have h6 : (2 : ℚ) ≤ l := by exact_mod_cast hl2
        unfold rowWeight
        rw [max_eq_right (by linarith), div_le_div_iff₀ (by linarith) (by linarith)]
        nlinarith
      have h7 : ((k : ℚ) + 2 - 1) / (k + 2) = (k + 1) / (k + 2) := by ring
      push_cast
      rw [h7]
      refine lt_of_le_of_lt (mul_le_mul_of_nonneg_right hwl (by norm_num)) ?_
      rw [div_mul_eq_mul_div, div_mul_eq_mul_div, div_lt_div_iff₀ (by linarith) (by linarith)]
      -- k (k + 2) = (k + 1) ^ 2 - 1
      have h8 : ((k : ℚ) + 1) ^ 2 ≤ 2 ^ 50 := by
        have : (0 : ℚ) ≤ k := by linarith
        nlinarith
      have e1 : (k : ℚ) * (1 + 1 / 2 ^ 53) ^ 2 * (k + 2) = (((k : ℚ) + 1) ^ 2 - 1) * (1 + 1 / 2 ^ 53) ^ 2 := by ring
      have e2 : ((k : ℚ) + 1) * (1 - 1 / 2 ^ 53) ^ 2 * (k + 1) = ((k : ℚ) + 1) ^ 2 * (1 - 1 / 2 ^ 53) ^ 2 := by ring
      rw [e1, e2]
      generalize ((k : ℚ) + 1) ^ 2 = x at h8
      have : x * ((1 + 1 / 2 ^ 53) ^ 2 - (1 - 1 / 2 ^ 53) ^ 2) ≤ 2 ^ 50 * ((1 + 1 / 2 ^ 53) ^ 2 - (1 - 1 / 2 ^ 53) ^ 2) :=
        mul_le_mul_of_nonneg_right h8 (by norm_num)
      have : (2 : ℚ) ^ 50 * ((1 + 1 / 2 ^ 53) ^ 2 - (1 - 1 / 2 ^ 53) ^ 2) < (1 + 1 / 2 ^ 53) ^ 2 := by norm_num
      linarith
  have := mul_lt_mul_of_pos_left key hmq
  linarith

/-! ### The best dialects -/

theorem eps_small : defaultEpsPat ≤ 1 / 4 := by decide +kernel

theorem eps_nonneg : 0 ≤ defaultEpsPat := by decide +kernel

theorem epsType_le : defaultEpsType ≤ 1 := by decide +kernel

theorem typeRatio_all {eps : ℚ} (he : eps ≤ 1) {k : Nat} (hk : 0 < k) : typeRatio eps k k = 1 := by
  unfold typeRatio
  rw [if_neg (by omega), div_self (by exact_mod_cast (show k ≠ 0 by omega)), fl_one]
  exact max_eq_right he

theorem countKnown_all {known : Str × Bool → Except PyExc Bool} {cs : List (Str × Bool)}
    (h : ∀ c ∈ cs, known c = .ok true) : countKnown known cs = .ok cs.length := by
  induction cs with
  | nil => rfl
  | cons c cs ih =>
    simp only [countKnown, h c (by simp), ih fun x hx => h x (by simp [hx]), if_true, List.length_cons]
    rw [Nat.add_comm]

/-- The type score is 1 if all cells have a known type. -/
theorem typeScoreWith_all {known : Str × Bool → Except PyExc Bool} {limit : Int} {data : Str} {x : SimpleDialect}
    {eps : ℚ} (he : eps ≤ 1) (rows : List (List (Str × Bool))) (hp : parseStringQuoted limit x data = (rows, none))
    (hk : ∀ c ∈ rows.flatten, known c = .ok true) (hne : rows.flatten ≠ []) :
    typeScoreWith known limit data x eps = .ok 1 := by
  unfold typeScoreWith
  simp only [hp, countKnown_all hk]
  rw [typeRatio_all he (List.length_pos_iff.2 hne)]

section

variable {env : PyEnv} {d : Char} {n : Nat} {t : Str}

theorem _root_.Clever.Spec.ConsistentText.head {good : Str → Prop} (h : ConsistentText d n good t) :
    t ≠ [] ∧ ∀ c, t.head? = some c → isNL c = false := by
  obtain ⟨c, r, rfl, h1, h2⟩ := h.start
  refine ⟨by simp, fun x hx => ?_⟩
  simp only [List.head?_cons, Option.some.injEq] at hx
  subst hx
  simp [isNL, h1, h2]

theorem nonblank_pos (ht : t ≠ []) (hnul : NUL ∉ t) (hh : ∀ c, t.head? = some c → isNL c = false) :
    0 < (nonblank t).length := by
  have h1 := rows_plain 'x' t hnul ht hh
  have h2 := length_splitOn_pos 'R' (abstraction 'x' NUL NUL t)
  rw [splitChar_eq] at h1
  rw [h1] at h2
  simpa using h2

/-- The pattern score of the consistent delimiter. -/
theorem consistent_pattern {good : Str → Prop} (h : ConsistentText d n good t) (hn : 2 ≤ n) :
    patternScore t (mkDialect [d] [] []) = .ok (fl (((nonblank t).length : ℚ) * fl (((n : ℚ) - 1) / n))) := by
  have hA : makeAbstraction t (mkDialect [d] [] []) = .ok (abstraction d NUL NUL t) := by
    apply makeAbstraction_of <;> rfl
  obtain ⟨h1, h2⟩ := h.head
  have hr := rows_plain d t h.noNul h1 h2
  rw [splitChar_eq] at hr
  have hall : ∀ p ∈ splitOn 'R' (abstraction d NUL NUL t), p = pat (n - 1) := by
    rw [hr]
    intro p hp
    obtain ⟨l, hl, rfl⟩ := List.mem_map.1 hp
    obtain ⟨hl1, hl2⟩ := List.mem_filter.1 hl
    rw [h.width l hl1 (by simpa using hl2)]
  have hlen : (splitOn 'R' (abstraction d NUL NUL t)).length = (nonblank t).length := by rw [hr]; simp
  have hrep := replicate_of_all hall
  rw [hlen] at hrep
  unfold patternScore
  rw [hA]
  simp only
  rw [score_const (nonblank_pos h1 h.noNul h2) hrep]
  have hc : (splitOn 'D' (pat (n - 1))).length = n := by
    have := C22_cell_counts n (by omega)
    rw [patCells, splitChar_eq] at this
    rw [pat_eq, show n - 1 + 1 = n by omega]
    exact this
  rw [hc, rowWeight, max_eq_right]
  have : (2 : ℚ) ≤ n := by exact_mod_cast hn
  have := eps_small
  linarith

/-- The type score of the consistent delimiter. -/
theorem consistent_type (h : ConsistentText d n (fun s => isKnownType env s false = .ok true) t)
    (hl : InLong (t.length + 1)) : typeScore env (t.length + 1) t (mkDialect [d] [] []) = .ok 1 := by
  obtain ⟨h1, h2⟩ := h.head
  have hp : parseStringQuoted (t.length + 1) (mkDialect [d] [] []) t =
      ((textLines t).map (fun l => if l = [] then [] else (splitOn d l).map (·, false)), none) := by
    have hdd : mkDialect [d] [] [] = dialectOf (some d) none none := rfl
    have := plain_quoted _ hl (some d) t h.noNul fun l hl' p hp => (by
      have := line_length hl'
      have := piece_length hp
      omega)
    rw [hdd, this]
    rfl
  refine typeScoreWith_all epsType_le _ hp (fun c hc => ?_) fun h0 => ?_
  · obtain ⟨row, hrow, hcr⟩ := List.mem_flatten.1 hc
    obtain ⟨l, hl', rfl⟩ := List.mem_map.1 hrow
    split at hcr
    · cases hcr
    · rename_i hne
      obtain ⟨s, hs, rfl⟩ := List.mem_map.1 hcr
      exact h.cells l hl' hne s hs
  · obtain ⟨l, hl'⟩ := List.exists_mem_of_length_pos (nonblank_pos h1 h.noNul h2)
    obtain ⟨hl1, hl2⟩ := List.mem_filter.1 hl'
    have hl3 : l ≠ [] := by simpa using hl2
    obtain ⟨s, hs⟩ := List.exists_mem_of_length_pos (length_splitOn_pos d l)
    have hmem : (s, false) ∈ ((textLines t).map
        (fun l => if l = [] then [] else (splitOn d l).map (·, false))).flatten := by
      refine List.mem_flatten.2 ⟨_, List.mem_map.2 ⟨l, hl1, rfl⟩, ?_⟩
      rw [if_neg hl3]
      exact List.mem_map.2 ⟨s, hs, rfl⟩
    rw [h0] at hmem
    cases hmem

/-- If some candidate has type score 1 and gives as many rows as the text has nonempty lines, all of `n` cells, then a
dialect that is among the best ones gives all rows the same pattern, with at least `n` cells. -/
theorem best_wins {ord : SetOrder} {allowed : Option (List Str)} {x y : SimpleDialect} (hnul : NUL ∉ t) (h1 : t ≠ [])
    (h2 : ∀ c, t.head? = some c → isNL c = false) (hn : 2 ≤ n) (hN : n ≤ 2 ^ 25)
    (hlen : t.length < 2 ^ 50) (hy : y ∈ getDialects env ord t allowed)
    (hyP : patternScore t y = .ok (fl (((nonblank t).length : ℚ) * fl (((n : ℚ) - 1) / n))))
    (hyT : typeScore env (t.length + 1) t y = .ok 1) (hx : IsBest env ord t allowed x) :
    ∃ A p, makeAbstraction t x = .ok A ∧ (∀ r ∈ splitOn 'R' A, r = p) ∧ n ≤ (splitOn 'D' p).length := by
  have hlong : InLong (t.length + 1) := by simp only [InLong]; omega
  obtain ⟨-, Q, ⟨P, T, hP, hT, rfl⟩, hmax⟩ := hx
  have hQ := hmax _ hy _ ⟨_, _, hyP, hyT, rfl⟩
  rw [mul_one, fl_idem] at hQ
  replace hQ := le_trans hQ (score_le hP hT)
  cases hA : makeAbstraction t x with
  | error e => rw [patternScore, hA] at hP; cases hP
  | ok A =>
    obtain ⟨cd, cq, ce, -, -, -, rfl⟩ := makeAbstraction_ok t x A hA
    have hm := nonblank_pos h1 hnul h2
    have hrows := rows_le cd cq ce t hnul h1 h2
    obtain ⟨p', hp', -, hb, hK⟩ := C24_range_partial t x defaultEpsPat (by decide +kernel) (by decide +kernel) _ hA
    obtain ⟨p'', hp'', hnear⟩ := C24_score_formula t x defaultEpsPat eps_nonneg _ hA
    have e1 : P = p' := by
      have := hP.symm.trans hp'
      simpa using this
    have e2 : P = p'' := by
      have := hP.symm.trans hp''
      simpa using this
    subst e1
    subst e2
    have hcells := fun p hp => cells_le cd cq ce t p hp
    have hlen' : (splitOn 'R' (abstraction cd cq ce t)).length ≤ t.length + 1 := by
      have i1 := length_splitOn 'R' (abstraction cd cq ce t)
      have i2 := count_abstraction (c := 'R') (by decide) cd cq ce t
      have i3 := length_base cd cq ce t
      have i4 := List.count_le_length (a := 'R') (l := baseAbstraction cd cq ce t)
      omega
    have hpos : 0 < (splitOn 'R' (abstraction cd cq ce t)).length := length_splitOn_pos ..
    generalize hR : splitOn 'R' (abstraction cd cq ce t) = R at *
    rcases Nat.lt_or_ge R.dedup.length 2 with hK1 | hK2
    · -- one pattern
      have hK1 : R.dedup.length = 1 := by omega
      obtain ⟨p, hp⟩ := List.length_eq_one_iff.1 hK1
      have hall : ∀ r ∈ R, r = p := by
        intro r hr
        have := List.mem_dedup.2 hr
        rw [hp] at this
        simpa using this
      refine ⟨_, p, rfl, by rw [hR]; exact hall, ?_⟩
      by_contra hlt
      have hrep := replicate_of_all hall
      have hsc : patternScore t x = .ok (fl ((R.length : ℚ) * fl (rowWeight defaultEpsPat (splitOn 'D' p).length))) := by
        unfold patternScore
        rw [hA]
        simp only
        rw [score_const hpos (hR.trans hrep)]
      rw [hP] at hsc
      simp only [Except.ok.injEq] at hsc
      rw [hsc] at hQ
      exact absurd hQ (not_le.2 (lower_narrow eps_nonneg eps_small hm hrows hn hN (length_splitOn_pos ..) (by omega)))
    · exfalso
      rcases Nat.lt_or_ge R.dedup.length 3 with hK3 | hK3
      · have hK2 : R.dedup.length = 2 := by omega
        rw [hK2] at hnear
        unfold exactScore at hnear
        rw [hK2] at hnear
        refine absurd hQ (not_le.2 (lower_two hm hn (by simpa using hnear) ?_))
        have hw : ∀ p ∈ R, max defaultEpsPat (((splitOn 'D' p).length : ℚ) - 1) / ((splitOn 'D' p).length : ℚ) ≤
            1 - 1 / ((2 ^ 50 : Nat) : ℚ) := by
          intro p hp
          refine weight_le (le_trans eps_small (by norm_num)) (length_splitOn_pos ..) ?_ (by norm_num)
          have := hcells p hp
          omega
        have hsum : ∀ R : List Str, (∀ p ∈ R, max defaultEpsPat (((splitOn 'D' p).length : ℚ) - 1) /
            ((splitOn 'D' p).length : ℚ) ≤ 1 - 1 / ((2 ^ 50 : Nat) : ℚ)) →
            (R.map fun p => max defaultEpsPat (((splitOn 'D' p).length : ℚ) - 1) / ((splitOn 'D' p).length : ℚ)).sum ≤
              (R.length : ℚ) * (1 - 1 / ((2 ^ 50 : Nat) : ℚ)) := by
          intro R hR
          generalize 1 - 1 / ((2 ^ 50 : Nat) : ℚ) = b at hR
          induction R with
          | nil => simp
          | cons p R ih =>
            have i1 := hR p (by simp)
            have i2 := ih fun p hp => hR p (by simp [hp])
            rw [List.map_cons, List.sum_cons, List.length_cons]
            push_cast
            linarith
        refine le_trans (hsum R hw) (mul_le_mul_of_nonneg_right (by exact_mod_cast hrows) ?_)
        push_cast
        norm_num
      · exact absurd hQ (not_le.2 (lower_three hm hrows hK3 hn (hb (by omega))))

/-- A dialect that is among the best ones gives all rows the same pattern, with at least `n` cells. -/
theorem best_consistent {ord : SetOrder} {allowed : Option (List Str)} {x : SimpleDialect}
    (h : ConsistentText d n (fun s => isKnownType env s false = .ok true) t) (hn : 2 ≤ n) (hN : n ≤ 2 ^ 25)
    (hlen : t.length < 2 ^ 50) (hd : mkDialect [d] [] [] ∈ getDialects env ord t allowed)
    (hx : IsBest env ord t allowed x) :
    ∃ A p, makeAbstraction t x = .ok A ∧ (∀ r ∈ splitOn 'R' A, r = p) ∧ n ≤ (splitOn 'D' p).length :=
  best_wins h.noNul h.head.1 h.head.2 hn hN hlen hd (consistent_pattern h hn)
    (consistent_type h (by simp only [InLong]; omega)) hx

end

end Clever
