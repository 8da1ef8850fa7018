import Verif.Proofs.DoubleRange
import Verif.Proofs.Counter
import Verif.Proofs.AbstractionSize

/-!
# The scores are computed in the normal range of doubles
-/

namespace Clever

open Spec (IsDouble Rounds SumRuns ScoreRuns firsts)

theorem pow2_natle {n : Nat} (h : n ≤ 2 ^ 53) : (n : ℚ) ≤ pow2 53 := by
  rw [pow2_eq]
  have : (n : ℚ) ≤ ((2 ^ 53 : Nat) : ℚ) := by exact_mod_cast h
  refine le_trans this (le_of_eq ?_)
  norm_num

theorem fl_pow2_le {q : ℚ} {z : Int} (h : pow2 z ≤ q) : pow2 z ≤ fl q := by
  have h1 := fl_mono h
  have h2 := fl_exact (m := 1) (by norm_num) z
  rw [Nat.cast_one, one_mul] at h2
  rwa [h2] at h1

theorem le_big {q : ℚ} (h : q ≤ pow2 53) : q ≤ pow2 900 := le_trans h (pow2_mono (by norm_num))

theorem ge_small {q : ℚ} {z : Int} (hz : -1022 ≤ z) (h : pow2 z ≤ q) : pow2 (-1022) ≤ q :=
  le_trans (pow2_mono hz) h

theorem div_pow2 {p : ℚ} {z : Int} {n : Nat} (hp : pow2 z ≤ p) (h0 : 0 < n) (hn : n ≤ 2 ^ 53) :
    pow2 (z - 53) ≤ p / (n : ℚ) := by
  have hn' : (0 : ℚ) < (n : ℚ) := by exact_mod_cast h0
  rw [le_div_iff₀ hn']
  calc pow2 (z - 53) * (n : ℚ) ≤ pow2 (z - 53) * pow2 53 :=
        mul_le_mul_of_nonneg_left (pow2_natle hn) (pow2_pos _).le
    _ = pow2 z := by rw [← pow2_add, sub_add_cancel]
    _ ≤ p := hp

theorem one_le_pow2 : (1 : ℚ) ≤ pow2 53 := by rw [pow2_eq]; norm_num

theorem sumRuns_fold {eps : ℚ} (he : pow2 (-500) ≤ eps) (h1 : eps ≤ 1) : ∀ (m : List (Str × Nat)) (P : ℚ) (N : Nat),
    0 ≤ P → P ≤ N → N + (m.map Prod.snd).sum ≤ 2 ^ 53 →
    (∀ kv ∈ m, 0 < kv.2 ∧ 0 < patCells kv.1 ∧ patCells kv.1 ≤ 2 ^ 53) →
    SumRuns eps (m.map fun kv => (kv.2, patCells kv.1)) P (m.foldl (fun P kv => fl (P + rowTerm eps kv)) P) ∧
      ((m ≠ [] ∨ pow2 (-553) ≤ P) → pow2 (-553) ≤ m.foldl (fun P kv => fl (P + rowTerm eps kv)) P)
  | [], P, N, h0, hP, hN, hc => by simp [SumRuns]
  | kv :: m, P, N, h0, hP, hN, hc => by
    obtain ⟨k0, l0, l1⟩ := hc kv (by simp)
    simp only [List.map_cons, List.sum_cons] at hN
    have hk : kv.2 ≤ 2 ^ 53 := by omega
    have hepos : 0 < eps := lt_of_lt_of_le (pow2_pos _) he
    -- the weight of the pattern
    have w1 : pow2 (-553) ≤ rowWeight eps (patCells kv.1) := by
      have := div_pow2 (le_trans he (le_max_left eps ((patCells kv.1 : ℚ) - 1))) l0 l1
      exact le_trans (le_of_eq (by norm_num)) this
    have w2 : rowWeight eps (patCells kv.1) ≤ 1 := rowWeight_le eps h1 _ l0
    have ra : Rounds (rowWeight eps (patCells kv.1)) (fl (rowWeight eps (patCells kv.1))) :=
      fl_rounds (ge_small (by norm_num) w1) (le_big (le_trans w2 one_le_pow2))
    have a1 : pow2 (-553) ≤ fl (rowWeight eps (patCells kv.1)) := fl_pow2_le w1
    have a2 : fl (rowWeight eps (patCells kv.1)) ≤ 1 := by
      have := fl_mono w2
      rwa [fl_one] at this
    -- times the number of its rows
    have hk1 : (1 : ℚ) ≤ (kv.2 : ℚ) := by exact_mod_cast k0
    have apos : 0 < fl (rowWeight eps (patCells kv.1)) := lt_of_lt_of_le (pow2_pos _) a1
    have b1 : pow2 (-553) ≤ (kv.2 : ℚ) * fl (rowWeight eps (patCells kv.1)) :=
      le_trans a1 (le_mul_of_one_le_left apos.le hk1)
    have b2 : (kv.2 : ℚ) * fl (rowWeight eps (patCells kv.1)) ≤ (kv.2 : ℚ) :=
      mul_le_of_le_one_right (by linarith) a2
    have rb : Rounds ((kv.2 : ℚ) * fl (rowWeight eps (patCells kv.1))) (rowTerm eps kv) :=
      fl_rounds (ge_small (by norm_num) b1) (le_big (le_trans b2 (pow2_natle hk)))
    have t1 : pow2 (-553) ≤ rowTerm eps kv := fl_pow2_le b1
    have t2 : rowTerm eps kv ≤ (kv.2 : ℚ) := by
      have := fl_mono b2
      rwa [fl_nat hk] at this
    -- the sum
    have s1 : pow2 (-553) ≤ P + rowTerm eps kv := by linarith
    have s2 : P + rowTerm eps kv ≤ ((N + kv.2 : Nat) : ℚ) := by push_cast; linarith
    have rc : Rounds (P + rowTerm eps kv) (fl (P + rowTerm eps kv)) :=
      fl_rounds (ge_small (by norm_num) s1) (le_big (le_trans s2 (pow2_natle (by omega))))
    have c1 : pow2 (-553) ≤ fl (P + rowTerm eps kv) := fl_pow2_le s1
    have c2 : fl (P + rowTerm eps kv) ≤ ((N + kv.2 : Nat) : ℚ) := by
      have := fl_mono s2
      rwa [fl_nat (by omega)] at this
    obtain ⟨i1, i2⟩ := sumRuns_fold he h1 m (fl (P + rowTerm eps kv)) (N + kv.2)
      (le_trans (pow2_pos _).le c1) c2 (by omega) (fun x hx => hc x (by simp [hx]))
    refine ⟨⟨isDouble_nat hk, isDouble_nat l1, _, _, _, ra, rb, rc, ?_⟩, fun _ => ?_⟩
    · exact i1
    · exact i2 (Or.inr c1)

theorem _root_.Clever.Spec.SumRuns.unique {eps : ℚ} : ∀ {m : List (Nat × Nat)} {P R R' : ℚ},
    SumRuns eps m P R → SumRuns eps m P R' → R = R'
  | [], P, R, R', h, h' => by simp only [SumRuns] at h h'; rw [h, h']
  | (n, l) :: m, P, R, R', h, h' => by
    obtain ⟨-, -, a, b, c, ha, hb, hc, hr⟩ := h
    obtain ⟨-, -, a', b', c', ha', hb', hc', hr'⟩ := h'
    obtain rfl := ha.unique ha'
    obtain rfl := hb.unique hb'
    obtain rfl := hc.unique hc'
    exact hr.unique hr'

theorem _root_.Clever.Spec.ScoreRuns.unique {eps : ℚ} {rows : List Str} {S S' : ℚ} (h : ScoreRuns eps rows S)
    (h' : ScoreRuns eps rows S') : S = S' := by
  obtain ⟨-, P, h1, h2⟩ := h
  obtain ⟨-, P', h1', h2'⟩ := h'
  obtain rfl := h1.unique h1'
  exact h2.unique h2'

theorem length_firsts_le {α : Type} [DecidableEq α] (xs : List α) : (firsts xs).length ≤ xs.length := by
  induction xs with
  | nil => simp [firsts]
  | cons x xs ih =>
    rw [firsts, List.length_cons, List.length_cons]
    have := List.length_filter_le (fun y => decide (y ≠ x)) (firsts xs)
    omega

theorem counter_filter {α : Type} [DecidableEq α] (xs : List α) :
    counter xs = (firsts xs).map (fun x => (x, (xs.filter fun y => decide (y = x)).length)) := by
  rw [counter_eq]
  apply List.map_congr_left
  intro x _
  rw [List.count, List.countP_eq_length_filter]
  rfl

/-- The score of an abstraction, with its range. -/
theorem scoreRuns_abstraction {eps : ℚ} (he : pow2 (-500) ≤ eps) (h1 : eps ≤ 1) {A : Str}
    (hR : A.count 'R' < 2 ^ 53) (hD : A.count 'D' < 2 ^ 53) :
    ScoreRuns eps (Spec.splitOn 'R' A) (scoreOfAbstraction eps A) ∧
      pow2 (-606) ≤ scoreOfAbstraction eps A ∧ scoreOfAbstraction eps A ≤ pow2 53 := by
  have hlen : (Spec.splitOn 'R' A).length ≤ 2 ^ 53 := by rw [length_splitOn]; omega
  have hpos : 0 < (Spec.splitOn 'R' A).length := by rw [length_splitOn]; omega
  have hne : Spec.splitOn 'R' A ≠ [] := by intro h; rw [h] at hpos; simp at hpos
  have hf0 : 0 < (firsts (Spec.splitOn 'R' A)).length := by
    cases hs : Spec.splitOn 'R' A with
    | nil => exact absurd hs hne
    | cons x xs => simp [firsts]
  have hf1 : (firsts (Spec.splitOn 'R' A)).length ≤ 2 ^ 53 := le_trans (length_firsts_le _) hlen
  have hkeys : (counter (Spec.splitOn 'R' A)).length = (firsts (Spec.splitOn 'R' A)).length := by
    rw [← counter_keys, List.length_map]
  have hcne : counter (Spec.splitOn 'R' A) ≠ [] := by
    intro h; rw [h] at hkeys; simp at hkeys; omega
  obtain ⟨r1, r2⟩ := sumRuns_fold he h1 (counter (Spec.splitOn 'R' A)) 0 0 (le_refl _) (by simp)
    (by rw [counter_total]; omega) (by
      intro kv hkv
      rw [counter_filter, List.mem_map] at hkv
      obtain ⟨p, hp, rfl⟩ := hkv
      rw [mem_firsts] at hp
      refine ⟨List.length_pos_of_mem (List.mem_filter.2 ⟨hp, by simp⟩), ?_, ?_⟩
      · rw [patCells, splitChar_eq, length_splitOn]; omega
      · rw [patCells, splitChar_eq, length_splitOn]
        have := (splitOn_sublist hp).count_le 'D'
        simp only at this ⊢
        omega)
  have r3 := r2 (Or.inl hcne)
  have r4 := loop_le h1 (counter (Spec.splitOn 'R' A)) 0 0 (by simp) (by rw [counter_total]; omega)
    (fun kv _ => by rw [patCells, splitChar_eq, length_splitOn]; omega)
  rw [counter_total, Nat.zero_add] at r4
  have hS : scoreOfAbstraction eps A =
      fl ((counter (Spec.splitOn 'R' A)).foldl (fun P kv => fl (P + rowTerm eps kv)) 0 /
        ((firsts (Spec.splitOn 'R' A)).length : ℚ)) := by
    rw [← hkeys]
    simp only [scoreOfAbstraction, splitChar_eq]
    rfl
  generalize (counter (Spec.splitOn 'R' A)).foldl (fun P kv => fl (P + rowTerm eps kv)) 0 = P at r1 r3 r4 hS
  have hPpos : 0 < P := lt_of_lt_of_le (pow2_pos _) r3
  have d1 : pow2 (-606) ≤ P / ((firsts (Spec.splitOn 'R' A)).length : ℚ) :=
    le_trans (le_of_eq (by norm_num)) (div_pow2 r3 hf0 hf1)
  have d2 : P / ((firsts (Spec.splitOn 'R' A)).length : ℚ) ≤ ((Spec.splitOn 'R' A).length : ℚ) := by
    refine le_trans (div_le_self hPpos.le ?_) r4
    exact_mod_cast hf0
  rw [hS]
  refine ⟨⟨isDouble_nat hf1, P, ?_, fl_rounds (ge_small (by norm_num) d1) (le_big (le_trans d2 (pow2_natle hlen)))⟩,
    fl_pow2_le d1, ?_⟩
  · rw [counter_filter, List.map_map] at r1
    convert r1 using 2
    funext p
    simp [patCells, splitChar_eq]
  · refine le_trans (fl_mono d2) ?_
    rw [fl_nat hlen]
    exact pow2_natle hlen

end Clever
