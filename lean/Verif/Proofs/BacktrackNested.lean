import Verif.Proofs.BacktrackBounds
import Verif.Proofs.TypeChars

/-!
# Lemmas for C120: a repetition inside a repetition
-/

namespace Clever

/-- The position before `m` times `a` and a `b`. -/
def aState (pre : Str) (m : Nat) : MState := ⟨pre, List.replicate m 'a' ++ ['b'], []⟩

/-- The sum of `B 0, …, B m`. -/
def sumTo (B : Nat → Nat) : Nat → Nat
  | 0 => B 0
  | m + 1 => sumTo B m + B (m + 1)

theorem sumTo_pow (m : Nat) : sumTo (fun j => 2 ^ j) m + 1 = 2 ^ (m + 1) := by
  induction m with
  | zero => rfl
  | succ m ih => rw [sumTo, Nat.add_right_comm, ih, Nat.pow_succ 2 (m + 1), Nat.mul_two]

theorem aState_rest (pre : Str) (m : Nat) : (aState pre m).rest.length = m + 1 := by simp [aState]

theorem cls_a_step (pre : Str) (m : Nat) (k : MState → Found) :
    (Re.chr 'a').go (aState pre (m + 1)) k = (k (aState ('a' :: pre) m)).tick := by
  simp [Re.chr, Re.go, aState, List.replicate_succ]

theorem cls_a_stop (pre : Str) (k : MState → Found) : (Re.chr 'a').go (aState pre 0) k = (1, none) := by
  simp [Re.chr, Re.go, aState]

theorem orElse_none {f : Found} (h : f.2 = none) (g : Unit → Found) : f.orElse g = (f.1 + (g ()).1, (g ()).2) := by
  obtain ⟨n, r⟩ := f
  cases h
  rfl

theorem tick_none {f : Found} (h : f.2 = none) : f.tick.2 = none := h

theorem inner_fails (B : Nat → Nat) (k : MState → Found) (m : Nat) :
    ∀ (n : Nat) (pre : Str), m < n → (∀ pre j, j ≤ m → (k (aState pre j)).2 = none ∧ B j ≤ (k (aState pre j)).1) →
      (starGo (Re.chr 'a').go n (aState pre m) k).2 = none ∧
      sumTo B m ≤ (starGo (Re.chr 'a').go n (aState pre m) k).1 := by
  induction m with
  | zero =>
    intro n pre hn hk
    obtain ⟨n, rfl⟩ : ∃ n', n = n' + 1 := ⟨n - 1, by omega⟩
    have h0 := hk pre 0 (Nat.le_refl 0)
    rw [starGo, cls_a_stop, orElse_none rfl]
    refine ⟨h0.1, ?_⟩
    simp only [Found.tick, sumTo]
    omega
  | succ m ih =>
    intro n pre hn hk
    obtain ⟨n, rfl⟩ : ∃ n', n = n' + 1 := ⟨n - 1, by omega⟩
    have h0 := hk pre (m + 1) (Nat.le_refl _)
    have h1 := ih n ('a' :: pre) (by omega) (fun pre j hj => hk pre j (by omega))
    rw [starGo, cls_a_step, if_pos (by rw [aState_rest, aState_rest]; omega), orElse_none (tick_none h1.1)]
    refine ⟨h0.1, ?_⟩
    simp only [Found.tick, sumTo]
    omega

theorem outer_fails (k : MState → Found) (hk : ∀ pre j, (k (aState pre j)).2 = none ∧ 1 ≤ (k (aState pre j)).1) (m : Nat) :
    ∀ (n : Nat) (pre : Str), m < n → (starGo (Re.plus (Re.chr 'a')).go n (aState pre m) k).2 = none ∧
      2 ^ m ≤ (starGo (Re.plus (Re.chr 'a')).go n (aState pre m) k).1 := by
  induction m using Nat.strongRecOn with
  | _ m ih =>
    intro n pre hn
    obtain ⟨n, rfl⟩ : ∃ n', n = n' + 1 := ⟨n - 1, by omega⟩
    have h0 := hk pre m
    cases m with
    | zero =>
      rw [starGo, Re.plus, Re.go, cls_a_stop, orElse_none rfl]
      refine ⟨h0.1, ?_⟩
      simp only [Found.tick]
      omega
    | succ m =>
      have h1 := inner_fails (fun j => 2 ^ j) (fun t => if t.rest.length < (aState pre (m + 1)).rest.length then
          starGo (Re.plus (Re.chr 'a')).go n t k else (1, none)) m (aState ('a' :: pre) m).rest.length ('a' :: pre)
        (by rw [aState_rest]; omega)
        (fun pre' j hj => by
          show (if _ then _ else _ : Found).2 = none ∧ 2 ^ j ≤ (if _ then _ else _ : Found).1
          rw [if_pos (by rw [aState_rest, aState_rest]; omega)]
          exact ih j (by omega) n pre' (by omega))
      have h2 := sumTo_pow m
      have h3 : ((Re.plus (Re.chr 'a')).go (aState pre (m + 1)) (fun t => if t.rest.length < (aState pre (m + 1)).rest.length then
          starGo (Re.plus (Re.chr 'a')).go n t k else (1, none))) =
          ((starGo (Re.chr 'a').go (aState ('a' :: pre) m).rest.length (aState ('a' :: pre) m) (fun t => if t.rest.length < (aState pre (m + 1)).rest.length then
          starGo (Re.plus (Re.chr 'a')).go n t k else (1, none))).tick).tick := by
        rw [Re.plus, Re.go, cls_a_step, Re.go]
      rw [starGo, h3, orElse_none (tick_none (tick_none h1.1))]
      refine ⟨h0.1, ?_⟩
      simp only [Found.tick]
      omega

/-- The repetition of a repetition takes more than `2 ^ n` steps. -/
theorem nested_steps (n : Nat) :
    2 ^ n ≤ ((Re.star (Re.plus (Re.chr 'a'))).search (List.replicate n 'a' ++ ['b'])).1 := by
  have := (outer_fails (fun t => if t.rest = [] then (1, some t) else (1, none))
    (fun pre j => by
      rw [if_neg (by simp [aState])]
      exact ⟨rfl, Nat.le_refl 1⟩) n (aState [] n).rest.length [] (by rw [aState_rest]; omega)).2
  exact this

/-! ## The replacement -/

theorem subRun_eq (r : Re) (rep : Str) (s : Str) : ∀ (i : Nat) (pre : Str),
    r.subRun rep i pre s = (r.subSteps i pre s, r.subAux rep i pre s) := by
  induction s with
  | nil => intro i pre; rw [Re.subRun, Re.subSteps, Re.subAux]
  | cons x s ih =>
    intro i pre
    cases i with
    | succ i => rw [Re.subRun, Re.subSteps, Re.subAux, ih]
    | zero =>
      rw [Re.subRun, Re.subSteps, Re.subAux, ← searchAt_head]
      obtain ⟨n, o⟩ := r.searchAt pre (x :: s)
      cases o with
      | none => simp only [ih, Nat.add_comm]
      | some t =>
        simp only
        split <;> simp only [ih, Nat.add_comm]

/-! ## All patterns -/

theorem Poly.within {r : Re} {c k w l C K : Nat} (h : Poly r c k w l) (hc : w + c ≤ C) (hk : max l k ≤ K) (s : Str) :
    (r.search s).1 ≤ C * (s.length + 1) ^ K :=
  le_trans (h.search s) (Nat.mul_le_mul hc (Nat.pow_le_pow_right (by omega) hk))

/-! ## A long word among the URLs -/

theorem tick_ge {f : Found} {n : Nat} (h : n ≤ f.1) : n ≤ f.tick.1 := Nat.le_succ_of_le h

theorem orElse_ge {f : Found} {g : Unit → Found} {n : Nat} (h : n ≤ f.1) : n ≤ (f.orElse g).1 := by
  obtain ⟨k, r⟩ := f
  cases r with
  | none => exact Nat.le_trans h (Nat.le_add_right _ _)
  | some => exact h

theorem orElse_ge_right {f : Found} {g : Unit → Found} {n : Nat} (h0 : f.2 = none) (h : n ≤ (g ()).1) : n ≤ (f.orElse g).1 := by
  rw [orElse_none h0]
  exact Nat.le_trans h (Nat.le_add_left _ _)

/-- A repetition of a class visits every character of the class. -/
theorem starCls_visits (p : Char → Bool) (hp : p 'a' = true) (k : MState → Found) (m : Nat) : ∀ (n : Nat) (pre : Str),
    m ≤ n → m + 1 ≤ (starGo (Re.cls p).go n ⟨pre, List.replicate m 'a', []⟩ k).1 := by
  induction m with
  | zero =>
    intro n pre _
    cases n <;> simp [starGo, Found.tick]
  | succ m ih =>
    intro n pre hn
    obtain ⟨n, rfl⟩ : ∃ n', n = n' + 1 := ⟨n - 1, by omega⟩
    rw [starGo]
    have h1 := ih n ('a' :: pre) (by omega)
    refine Nat.succ_le_succ (orElse_ge ?_)
    simp only [Re.go, List.replicate_succ, hp, if_true]
    rw [if_pos (by simp)]
    exact tick_ge h1

theorem url_searchAt_none (env : PyEnv) (pre : Str) (m : Nat) :
    ((reUrl env).searchAt pre (List.replicate m 'a')).2 = none := by
  rw [searchAt_head]
  cases hr : (reUrl env).run ⟨pre, List.replicate m 'a', []⟩ with
  | nil => rfl
  | cons t l =>
    obtain ⟨w, hw, c, hc, hp⟩ := (url_needs env).run _ t (by rw [hr]; exact List.mem_cons_self)
    have h1 : c ∈ List.replicate m 'a' := by
      rw [show List.replicate m 'a' = w ++ t.rest from hw]
      exact List.mem_append_left _ hc
    rw [List.eq_of_mem_replicate h1] at hp
    exact absurd hp (by decide)

theorem url_visits (env : PyEnv) (h : env.letter 'a' = true) (pre : Str) (m : Nat) :
    m ≤ ((reUrl env).searchAt pre (List.replicate m 'a')).1 := by
  cases m with
  | zero => exact Nat.zero_le _
  | succ m =>
    rw [Re.searchAt, reUrl]
    simp only [Re.cat, Re.any]
    rw [Re.go]
    refine tick_ge ?_
    rw [Re.opt, Re.go]
    refine tick_ge (orElse_ge_right ?_ ?_)
    · simp [Re.go, Re.lit, Re.chr, Found.tick, Found.orElse, List.replicate_succ]
    · rw [Re.go]
      refine tick_ge ?_
      rw [Re.go]
      refine tick_ge ?_
      rw [Re.go]
      refine tick_ge (orElse_ge ?_)
      rw [Re.go]
      refine tick_ge ?_
      rw [Re.plus, Re.go]
      refine tick_ge ?_
      rw [Re.go]
      refine tick_ge ?_
      rw [Re.plus, Re.go]
      refine tick_ge ?_
      rw [Re.go]
      simp only [List.replicate_succ, h, Bool.true_or, if_true]
      refine tick_ge ?_
      rw [Re.go]
      exact starCls_visits _ (by simp [h]) _ m _ _ (by simp)

theorem url_sub_visits (env : PyEnv) (h : env.letter 'a' = true) (m : Nat) : ∀ pre,
    m * (m + 1) ≤ 2 * (reUrl env).subSteps 0 pre (List.replicate m 'a') := by
  induction m with
  | zero => intro pre; simp
  | succ m ih =>
    intro pre
    have h1 := url_visits env h pre (m + 1)
    have h2 := url_searchAt_none env pre (m + 1)
    rw [List.replicate_succ] at h1 h2 ⊢
    rw [Re.subSteps, h2]
    have h3 := ih ('a' :: pre)
    simp only
    rw [show (m + 1) * (m + 1 + 1) = m * (m + 1) + 2 * (m + 1) by ring]
    omega

end Clever
