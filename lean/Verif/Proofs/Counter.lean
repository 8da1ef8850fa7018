import Verif.Model.PatternScore
import Verif.Proofs.Double
import Verif.Spec.Score
import Mathlib.Data.List.Dedup
import Mathlib.Algebra.BigOperators.Group.List.Basic
import Mathlib.Tactic.Linarith
import Mathlib.Tactic.Ring
import Mathlib.Tactic.Positivity

/-!
# `collections.Counter` and the sum of the pattern score
-/

namespace Clever

open Spec (firsts Near)

variable {α : Type} [DecidableEq α]

theorem counterAdd_keys (m : List (α × Nat)) (k : α) :
    (counterAdd m k).map Prod.fst =
      if k ∈ m.map Prod.fst then m.map Prod.fst else m.map Prod.fst ++ [k] := by
  induction m with
  | nil => simp [counterAdd]
  | cons p rest ih =>
    obtain ⟨k', n⟩ := p
    rw [counterAdd]
    by_cases h : k' = k
    · simp [h]
    · rw [if_neg h]
      simp only [List.map_cons, ih]
      by_cases hk : k ∈ rest.map Prod.fst
      · rw [if_pos hk, if_pos (by simp [hk])]
      · rw [if_neg hk, if_neg (by simp only [List.mem_cons, not_or]; exact ⟨Ne.symm h, hk⟩)]
        simp

theorem counter_aux (xs : List α) (m : List (α × Nat)) (hm : (m.map Prod.fst).Nodup) :
    ((xs.foldl counterAdd m).map Prod.fst).Nodup ∧
      ∀ x, x ∈ (xs.foldl counterAdd m).map Prod.fst ↔ x ∈ m.map Prod.fst ∨ x ∈ xs := by
  induction xs generalizing m with
  | nil => simp [hm]
  | cons y ys ih =>
    have hk := counterAdd_keys m y
    have hm' : ((counterAdd m y).map Prod.fst).Nodup := by
      rw [hk]
      split
      · exact hm
      · rename_i h
        rw [List.nodup_append]
        refine ⟨hm, by simp, ?_⟩
        intro a ha b hb
        simp only [List.mem_singleton] at hb
        subst hb
        intro hab; subst hab; exact h ha
    obtain ⟨h1, h2⟩ := ih (counterAdd m y) hm'
    refine ⟨h1, fun x => ?_⟩
    rw [List.foldl_cons, h2, hk]
    split
    · rename_i h
      simp only [List.mem_cons]
      constructor
      · rintro (h' | h') <;> simp [h']
      · rintro (h' | rfl | h')
        · simp [h']
        · exact Or.inl h
        · simp [h']
    · simp only [List.mem_append, List.mem_cons, List.not_mem_nil, or_false]
      exact or_assoc

theorem length_counter (xs : List α) : (counter xs).length = xs.dedup.length := by
  obtain ⟨h1, h2⟩ := counter_aux xs [] (by simp)
  have : ((counter xs).map Prod.fst).Perm xs.dedup := by
    unfold counter
    rw [List.perm_ext_iff_of_nodup h1 (List.nodup_dedup xs)]
    intro x
    rw [h2 x]; simp
  simpa using this.length_eq

theorem sum_counterAdd (f : α → ℚ) (m : List (α × Nat)) (k : α) :
    ((counterAdd m k).map fun kv => (kv.2 : ℚ) * f kv.1).sum =
      (m.map fun kv => (kv.2 : ℚ) * f kv.1).sum + f k := by
  induction m with
  | nil => simp [counterAdd]
  | cons p rest ih =>
    obtain ⟨k', n⟩ := p
    rw [counterAdd]
    by_cases h : k' = k
    · subst h
      simp only [if_true, List.map_cons, List.sum_cons, Nat.cast_add, Nat.cast_one]; ring
    · rw [if_neg h]
      simp only [List.map_cons, List.sum_cons, ih]; ring

theorem sum_counter (f : α → ℚ) (xs : List α) :
    ((counter xs).map fun kv => (kv.2 : ℚ) * f kv.1).sum = (xs.map f).sum := by
  have : ∀ (m : List (α × Nat)),
      ((xs.foldl counterAdd m).map fun kv => (kv.2 : ℚ) * f kv.1).sum =
        (m.map fun kv => (kv.2 : ℚ) * f kv.1).sum + (xs.map f).sum := by
    induction xs with
    | nil => simp
    | cons y ys ih =>
      intro m
      simp only [List.foldl_cons, ih, sum_counterAdd, List.map_cons, List.sum_cons]; ring
  simpa [counter] using this []

/-- Weight of a row with `n` cells. -/
def rowWeight (eps : ℚ) (n : Nat) : ℚ := max eps ((n : ℚ) - 1) / (n : ℚ)

/-- The score without rounding, with the functions of the model. -/
def exactSum (eps : ℚ) (A : Str) : ℚ :=
  ((splitChar 'R' A).map fun p => rowWeight eps (patCells p)).sum / ((splitChar 'R' A).dedup.length : ℚ)

/-- One summand of the loop. -/
def rowTerm (eps : ℚ) (kv : Str × Nat) : ℚ := fl ((kv.2 : ℚ) * fl (rowWeight eps (patCells kv.1)))

theorem scoreOfAbstraction_eq (eps : ℚ) (A : Str) :
    scoreOfAbstraction eps A =
      fl ((counter (splitChar 'R' A)).foldl (fun P kv => fl (P + rowTerm eps kv)) 0 /
        ((splitChar 'R' A).dedup.length : ℚ)) := by
  simp only [scoreOfAbstraction, length_counter]
  rfl

theorem rowWeight_pos (eps : ℚ) (h : 0 < eps) (n : Nat) (hn : 0 < n) : 0 < rowWeight eps n := by
  unfold rowWeight
  apply div_pos
  · exact lt_of_lt_of_le h (le_max_left _ _)
  · exact_mod_cast hn

theorem rowWeight_le (eps : ℚ) (h : eps ≤ 1) (n : Nat) (hn : 0 < n) : rowWeight eps n ≤ 1 := by
  unfold rowWeight
  have hn' : (1 : ℚ) ≤ n := by exact_mod_cast hn
  rw [div_le_one (by linarith)]
  apply max_le <;> linarith

theorem sum_pos_le {β : Type} (f : β → ℚ) (xs : List β) (hne : xs ≠ []) (h0 : ∀ x ∈ xs, 0 < f x)
    (h1 : ∀ x ∈ xs, f x ≤ 1) : 0 < (xs.map f).sum ∧ (xs.map f).sum ≤ xs.length := by
  induction xs with
  | nil => exact absurd rfl hne
  | cons x rest ih =>
    have hx0 := h0 x (by simp)
    have hx1 := h1 x (by simp)
    simp only [List.map_cons, List.sum_cons, List.length_cons, Nat.cast_add, Nat.cast_one]
    by_cases hr : rest = []
    · subst hr; simp; exact ⟨hx0, hx1⟩
    · obtain ⟨i1, i2⟩ := ih hr (fun y hy => h0 y (by simp [hy])) (fun y hy => h1 y (by simp [hy]))
      constructor <;> linarith

/-! ## Rounding in the loop -/

/-- The relative error of one rounding. -/
def ulp : ℚ := 1 / 2 ^ 53

theorem ulp_lt : ulp < 1 := by norm_num [ulp]
theorem ulp_pos : 0 < ulp := by norm_num [ulp]

theorem near_zero (y : ℚ) : Near 0 y y := by simp [Near]

theorem _root_.Clever.Spec.Near.nonneg {n : Nat} {x y : ℚ} (h : Near n x y) (hy : 0 ≤ y) : 0 ≤ x := by
  refine le_trans (mul_nonneg hy (pow_nonneg ?_ n)) h.1
  linarith [ulp_lt]

theorem _root_.Clever.Spec.Near.fl {n : Nat} {x y : ℚ} (h : Near n x y) (hy : 0 ≤ y) : Near (n + 1) (Clever.fl x) y := by
  have hx := h.nonneg hy
  obtain ⟨e1, e2⟩ := fl_error hx
  have u1 := ulp_lt
  have u0 := ulp_pos
  constructor
  · calc y * (1 - ulp) ^ (n + 1) = (y * (1 - ulp) ^ n) * (1 - ulp) := by ring
      _ ≤ x * (1 - ulp) := mul_le_mul_of_nonneg_right h.1 (by linarith)
      _ ≤ Clever.fl x := e1
  · calc Clever.fl x ≤ x * (1 + ulp) := e2
      _ ≤ (y * (1 + ulp) ^ n) * (1 + ulp) := mul_le_mul_of_nonneg_right h.2 (by linarith)
      _ = y * (1 + ulp) ^ (n + 1) := by ring

theorem _root_.Clever.Spec.Near.mono {n m : Nat} {x y : ℚ} (h : Near n x y) (hy : 0 ≤ y) (hnm : n ≤ m) : Near m x y := by
  have u1 := ulp_lt
  have u0 := ulp_pos
  constructor
  · refine le_trans (mul_le_mul_of_nonneg_left ?_ hy) h.1
    exact pow_le_pow_of_le_one (by linarith) (by linarith) hnm
  · refine le_trans h.2 (mul_le_mul_of_nonneg_left ?_ hy)
    exact pow_le_pow_right₀ (by linarith) hnm

theorem _root_.Clever.Spec.Near.add {n : Nat} {x y x' y' : ℚ} (h : Near n x y) (h' : Near n x' y') : Near n (x + x') (y + y') := by
  constructor
  · rw [add_mul]; exact add_le_add h.1 h'.1
  · rw [add_mul]; exact add_le_add h.2 h'.2

theorem _root_.Clever.Spec.Near.mul {n : Nat} {x y : ℚ} (h : Near n x y) {c : ℚ} (hc : 0 ≤ c) : Near n (c * x) (c * y) := by
  constructor
  · rw [mul_assoc]; exact mul_le_mul_of_nonneg_left h.1 hc
  · rw [mul_assoc]; exact mul_le_mul_of_nonneg_left h.2 hc

theorem _root_.Clever.Spec.Near.div {n : Nat} {x y : ℚ} (h : Near n x y) {c : ℚ} (hc : 0 ≤ c) : Near n (x / c) (y / c) := by
  have := h.mul (c := c⁻¹) (inv_nonneg.2 hc)
  rwa [mul_comm, mul_comm c⁻¹ y, ← div_eq_mul_inv, ← div_eq_mul_inv] at this

theorem rowWeight_nonneg {eps : ℚ} (h : 0 ≤ eps) (n : Nat) : 0 ≤ rowWeight eps n := by
  unfold rowWeight
  exact div_nonneg (le_trans h (le_max_left _ _)) (Nat.cast_nonneg n)

theorem rowTerm_near {eps : ℚ} (h : 0 ≤ eps) (kv : Str × Nat) :
    Near 2 (rowTerm eps kv) ((kv.2 : ℚ) * rowWeight eps (patCells kv.1)) := by
  have hw := rowWeight_nonneg h (patCells kv.1)
  exact (((near_zero _).fl hw).mul (Nat.cast_nonneg kv.2)).fl (mul_nonneg (Nat.cast_nonneg kv.2) hw)

theorem loop_near {eps : ℚ} (h : 0 ≤ eps) : ∀ (m : List (Str × Nat)) (k : Nat) (P S : ℚ), 0 ≤ S → Near (k + 2) P S →
    Near (k + m.length + 2) (m.foldl (fun P kv => fl (P + rowTerm eps kv)) P)
      (S + (m.map fun kv => (kv.2 : ℚ) * rowWeight eps (patCells kv.1)).sum)
  | [], k, P, S, _, hP => by simpa using hP
  | kv :: m, k, P, S, hS, hP => by
    have hw : (0 : ℚ) ≤ (kv.2 : ℚ) * rowWeight eps (patCells kv.1) :=
      mul_nonneg (Nat.cast_nonneg _) (rowWeight_nonneg h _)
    have h1 : Near (k + 1 + 2) (fl (P + rowTerm eps kv)) (S + (kv.2 : ℚ) * rowWeight eps (patCells kv.1)) :=
      (hP.add ((rowTerm_near h kv).mono hw (by omega))).fl (add_nonneg hS hw)
    have h2 := loop_near h m (k + 1) _ _ (add_nonneg hS hw) h1
    rw [List.foldl_cons, List.map_cons, List.sum_cons, ← add_assoc]
    have e : k + (kv :: m).length + 2 = k + 1 + m.length + 2 := by simp; omega
    rw [e]
    exact h2

theorem exactSum_nonneg {eps : ℚ} (h : 0 ≤ eps) (A : Str) : 0 ≤ exactSum eps A := by
  unfold exactSum
  apply div_nonneg _ (Nat.cast_nonneg _)
  apply List.sum_nonneg
  intro x hx
  obtain ⟨p, -, rfl⟩ := List.mem_map.1 hx
  exact rowWeight_nonneg h _

/-- The score is the exact one up to a rounding for each distinct pattern and three more. -/
theorem score_near {eps : ℚ} (h : 0 ≤ eps) (A : Str) :
    Near ((splitChar 'R' A).dedup.length + 3) (scoreOfAbstraction eps A) (exactSum eps A) := by
  rw [scoreOfAbstraction_eq]
  have h1 := loop_near h (counter (splitChar 'R' A)) 0 0 0 (le_refl _) (by simp [Near])
  rw [sum_counter (fun p => rowWeight eps (patCells p)), length_counter, zero_add, zero_add] at h1
  exact (h1.div (Nat.cast_nonneg _)).fl (exactSum_nonneg h A)

theorem scoreOfAbstraction_fl (eps : ℚ) (A : Str) : fl (scoreOfAbstraction eps A) = scoreOfAbstraction eps A := by
  rw [scoreOfAbstraction_eq, fl_idem]

theorem loop_le {eps : ℚ} (h1 : eps ≤ 1) : ∀ (m : List (Str × Nat)) (P : ℚ) (n : Nat), P ≤ n →
    n + (m.map Prod.snd).sum ≤ 2 ^ 53 → (∀ kv ∈ m, 0 < patCells kv.1) →
    m.foldl (fun P kv => fl (P + rowTerm eps kv)) P ≤ ((n + (m.map Prod.snd).sum : Nat) : ℚ)
  | [], P, n, hP, _, _ => by simpa using hP
  | kv :: m, P, n, hP, hn, hc => by
    have ht : rowTerm eps kv ≤ kv.2 := by
      have hk : kv.2 ≤ 2 ^ 53 := by
        simp only [List.map_cons, List.sum_cons] at hn
        omega
      have w1 : fl (rowWeight eps (patCells kv.1)) ≤ 1 := by
        have := fl_mono (rowWeight_le eps h1 _ (hc kv (by simp)))
        rwa [show fl 1 = 1 by simpa using fl_nat (n := 1) (by norm_num)] at this
      unfold rowTerm
      rw [← fl_nat hk]
      apply fl_mono
      rw [fl_nat hk]
      calc (kv.2 : ℚ) * fl (rowWeight eps (patCells kv.1)) ≤ (kv.2 : ℚ) * 1 :=
            mul_le_mul_of_nonneg_left w1 (Nat.cast_nonneg _)
        _ = kv.2 := mul_one _
    simp only [List.map_cons, List.sum_cons] at hn ⊢
    have hp : fl (P + rowTerm eps kv) ≤ ((n + kv.2 : Nat) : ℚ) := by
      rw [← fl_nat (n := n + kv.2) (by omega)]
      apply fl_mono
      push_cast
      exact add_le_add hP ht
    have := loop_le h1 m _ (n + kv.2) hp (by omega) (fun x hx => hc x (by simp [hx]))
    rw [List.foldl_cons, ← Nat.add_assoc]
    exact this

theorem counter_total (xs : List α) : ((counter xs).map Prod.snd).sum = xs.length := by
  have h := sum_counter (fun _ => (1 : ℚ)) xs
  have e1 : ((counter xs).map fun kv => (kv.2 : ℚ) * 1).sum = ((((counter xs).map Prod.snd).sum : Nat) : ℚ) := by
    generalize counter xs = m
    induction m with
    | nil => simp
    | cons p m ih => simp only [List.map_cons, List.sum_cons, ih]; push_cast; ring
  have e2 : (xs.map fun _ => (1 : ℚ)).sum = (xs.length : ℚ) := by
    induction xs with
    | nil => simp
    | cons x xs ih => simp [add_comm]
  rw [e1, e2] at h
  exact_mod_cast h

/-! ## The order of the patterns -/

theorem firsts_filter (p : α → Bool) (xs : List α) : firsts (xs.filter p) = (firsts xs).filter p := by
  induction xs with
  | nil => rfl
  | cons x xs ih =>
    by_cases hx : p x = true
    · rw [List.filter_cons_of_pos hx, firsts, firsts, List.filter_cons_of_pos hx, ih, List.filter_filter,
        List.filter_filter]
      congr 2
      funext y
      rw [Bool.and_comm]
    · rw [List.filter_cons_of_neg hx, firsts, List.filter_cons_of_neg hx, ih, List.filter_filter]
      congr 1
      funext y
      by_cases hy : y = x
      · subst hy; simp [hx]
      · simp [hy]

theorem mem_firsts {x : α} {xs : List α} : x ∈ firsts xs ↔ x ∈ xs := by
  induction xs with
  | nil => simp [firsts]
  | cons y ys ih =>
    simp only [firsts, List.mem_cons, List.mem_filter, ih, decide_eq_true_eq]
    by_cases h : x = y <;> simp [h]

theorem counter_keys (xs : List α) : (counter xs).map Prod.fst = firsts xs := by
  have key : ∀ (xs : List α) (m : List (α × Nat)), (xs.foldl counterAdd m).map Prod.fst =
      m.map Prod.fst ++ firsts (xs.filter (fun x => decide (x ∉ m.map Prod.fst))) := by
    intro xs
    induction xs with
    | nil => intro m; simp [firsts]
    | cons y ys ih =>
      intro m
      rw [List.foldl_cons, ih, counterAdd_keys]
      by_cases hy : y ∈ m.map Prod.fst
      · rw [if_pos hy, List.filter_cons_of_neg (by simpa using hy)]
      · rw [if_neg hy, List.filter_cons_of_pos (by simpa using hy), firsts, List.append_assoc]
        congr 1
        rw [List.singleton_append, ← firsts_filter, List.filter_filter]
        congr 3
        funext x
        simp only [List.mem_append, List.mem_singleton, not_or]
        by_cases h1 : x = y <;> by_cases h2 : x ∈ m.map Prod.fst <;> simp [h1, h2]
  have := key xs []
  simpa [counter] using this

theorem nodup_counter_keys (xs : List α) : ((counter xs).map Prod.fst).Nodup := (counter_aux xs [] (by simp)).1

theorem mem_counter {xs : List α} {k : α} {n : Nat} (h : (k, n) ∈ counter xs) : n = xs.count k := by
  have hs := sum_counter (fun x => if x = k then (1 : ℚ) else 0) xs
  have e2 : (xs.map fun x => if x = k then (1 : ℚ) else 0).sum = (xs.count k : ℚ) := by
    clear hs h
    induction xs with
    | nil => simp
    | cons x xs ih =>
      simp only [List.map_cons, List.sum_cons, ih, List.count_cons]
      by_cases hx : x = k
      · simp [hx, add_comm]
      · simp [hx]
  have e1 : ∀ m : List (α × Nat), (m.map Prod.fst).Nodup → (k, n) ∈ m →
      (m.map fun kv => (kv.2 : ℚ) * (if kv.1 = k then (1 : ℚ) else 0)).sum = n := by
    intro m
    induction m with
    | nil => intro _ h; cases h
    | cons p m ih =>
      intro hn hm
      simp only [List.map_cons, List.nodup_cons] at hn
      have hz : ∀ m : List (α × Nat), k ∉ m.map Prod.fst →
          (m.map fun kv => (kv.2 : ℚ) * (if kv.1 = k then (1 : ℚ) else 0)).sum = 0 := by
        intro m
        induction m with
        | nil => simp
        | cons q m ih =>
          intro hk
          simp only [List.map_cons, List.mem_cons, not_or] at hk
          simp only [List.map_cons, List.sum_cons, ih hk.2, if_neg (Ne.symm hk.1)]
          simp
      rcases List.mem_cons.1 hm with rfl | hm
      · simp only [List.map_cons, List.sum_cons, hz m hn.1]
        simp
      · have hne : p.1 ≠ k := by
          rintro rfl
          exact hn.1 (List.mem_map.2 ⟨_, hm, rfl⟩)
        simp only [List.map_cons, List.sum_cons, ih hn.2 hm, if_neg hne]
        simp
  rw [e1 _ (nodup_counter_keys xs) h, e2] at hs
  exact_mod_cast hs

theorem counter_eq (xs : List α) : counter xs = (firsts xs).map (fun x => (x, xs.count x)) := by
  rw [← counter_keys, List.map_map]
  conv => lhs; rw [← List.map_id (counter xs)]
  apply List.map_congr_left
  rintro ⟨k, n⟩ h
  simp [mem_counter h]

theorem counter_congr {xs ys : List α} (h : xs.Perm ys) (hf : firsts xs = firsts ys) : counter xs = counter ys := by
  rw [counter_eq, counter_eq, hf]
  apply List.map_congr_left
  intro x _
  rw [h.count_eq]

theorem score_first {eps : ℚ} {A A' : Str} (h : (splitChar 'R' A).Perm (splitChar 'R' A'))
    (hf : firsts (splitChar 'R' A) = firsts (splitChar 'R' A')) :
    scoreOfAbstraction eps A = scoreOfAbstraction eps A' := by
  have e := counter_congr h hf
  rw [scoreOfAbstraction_eq, scoreOfAbstraction_eq, e, h.dedup.length_eq]

theorem counter_perm {xs ys : List α} (h : xs.Perm ys) : (counter xs).Perm (counter ys) := by
  rw [counter_eq, counter_eq]
  have e : (fun x => (x, xs.count x)) = (fun x => (x, ys.count x)) := by
    funext x
    rw [h.count_eq]
  rw [e]
  apply List.Perm.map
  have n1 := nodup_counter_keys xs
  have n2 := nodup_counter_keys ys
  rw [counter_keys] at n1 n2
  rw [List.perm_ext_iff_of_nodup n1 n2]
  intro x
  rw [mem_firsts, mem_firsts, h.mem_iff]

/-- With at most two distinct patterns their order does not matter. -/
theorem score_two {eps : ℚ} {A A' : Str} (h : (splitChar 'R' A).Perm (splitChar 'R' A'))
    (h2 : (splitChar 'R' A).dedup.length ≤ 2) : scoreOfAbstraction eps A = scoreOfAbstraction eps A' := by
  rw [scoreOfAbstraction_eq, scoreOfAbstraction_eq, h.dedup.length_eq]
  congr 2
  have hp := counter_perm h
  rw [← length_counter] at h2
  revert h2 hp
  generalize counter (splitChar 'R' A) = m
  generalize counter (splitChar 'R' A') = m'
  intro h2 hp
  match m, h2, hp with
  | [], _, hp => rw [List.nil_perm.1 hp]
  | [a], _, hp => rw [List.singleton_perm.1 hp]
  | [a, b], _, hp =>
    have hl := hp.length_eq
    match m', hl, hp with
    | [x, y], _, hp =>
      have hx : x = a ∨ x = b := by
        have := hp.mem_iff.2 (show x ∈ [x, y] by simp)
        simpa using this
      have hfl : ∀ kv, fl (0 + rowTerm eps kv) = rowTerm eps kv := by
        intro kv
        rw [zero_add]
        exact fl_idem _
      rcases hx with rfl | rfl
      · have := List.singleton_perm.1 ((List.perm_cons x).1 hp)
        simp only [List.cons.injEq, and_true] at this
        rw [this]
      · have h3 : [x, a].Perm [x, y] := (List.Perm.swap a x []).trans hp
        have := List.singleton_perm.1 ((List.perm_cons x).1 h3)
        simp only [List.cons.injEq, and_true] at this
        subst this
        simp only [List.foldl_cons, List.foldl_nil, hfl]
        rw [add_comm]
  | _ :: _ :: _ :: _, h2, _ => simp at h2

end Clever
