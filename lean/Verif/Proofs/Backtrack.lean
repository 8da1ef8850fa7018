import Verif.Model.Backtrack
import Verif.Proofs.Regex
import Mathlib.Tactic.Ring
import Mathlib.Tactic.Linarith

/-!
# Lemmas for C120: the steps of the backtracking search
-/

namespace Clever

/-! ## The search finds the first match -/

theorem orElse_snd (f : Found) (g : Unit → Found) : (f.orElse g).2 = f.2.or (g ()).2 := by
  obtain ⟨n, r⟩ := f
  cases r <;> rfl

theorem orElse_fst (f : Found) (g : Unit → Found) : (f.orElse g).1 ≤ f.1 + (g ()).1 := by
  obtain ⟨n, r⟩ := f
  cases r <;> simp [Found.orElse]

theorem findSome_filter_flatMap {α β γ : Type} (l : List α) (p : α → Bool) (f : α → List β) (g : β → Option γ) :
    ((l.filter p).flatMap f).findSome? g = l.findSome? (fun t => if p t then (f t).findSome? g else none) := by
  induction l with
  | nil => rfl
  | cons x l ih =>
    cases hp : p x with
    | true =>
      rw [List.filter_cons_of_pos hp, List.flatMap_cons, List.findSome?_append, ih, List.findSome?_cons, hp]
      simp only [if_true]
      cases (f x).findSome? g <;> rfl
    | false =>
      rw [List.filter_cons_of_neg (by simp [hp]), ih, List.findSome?_cons, hp]
      rfl

theorem starGo_result {f : MState → (MState → Found) → Found} {g : MState → List MState}
    (h : ∀ s k, (f s k).2 = (g s).findSome? (fun t => (k t).2)) (n : Nat) (s : MState) (k : MState → Found) :
    (starGo f n s k).2 = (starRun g n s).findSome? (fun t => (k t).2) := by
  induction n generalizing s with
  | zero => simp [starGo, starRun, Found.tick]
  | succ n ih =>
    rw [starGo, starRun, List.findSome?_append, findSome_filter_flatMap]
    simp only [Found.tick, orElse_snd, h, decide_eq_true_eq]
    congr 1
    · congr 1
      funext t
      split
      · exact ih t
      · rfl
    · simp

theorem isEmpty_findSome (l : List MState) : l.findSome? some = l.head? := by
  cases l <;> simp

theorem go_result : ∀ (r : Re) (s : MState) (k : MState → Found),
    (r.go s k).2 = (r.run s).findSome? (fun t => (k t).2)
  | .eps, s, k => by simp [Re.go, Re.run, Found.tick]
  | .cls p, s, k => by
    rw [Re.go, Re.run]
    cases s.rest with
    | nil => rfl
    | cons c rest =>
      simp only
      split <;> simp [Found.tick]
  | .seq a b, s, k => by
    rw [Re.go, Re.run, Found.tick, go_result a]
    simp only [go_result b]
    induction a.run s with
    | nil => rfl
    | cons x l ih =>
      rw [List.findSome?_cons, List.flatMap_cons, List.findSome?_append, ← ih]
      cases (b.run x).findSome? fun t => (k t).2 <;> rfl
  | .alt a b, s, k => by
    rw [Re.go, Re.run, Found.tick, orElse_snd, go_result a, go_result b, List.findSome?_append]
  | .star a, s, k => by
    rw [Re.go, Re.run]
    exact starGo_result (fun s k => go_result a s k) _ _ _
  | .grp i a, s, k => by
    rw [Re.go, Re.run, Found.tick, go_result a, List.findSome?_map]
    rfl
  | .bref i, s, k => by
    rw [Re.go, Re.run]
    cases s.group i with
    | none => rfl
    | some w =>
      simp only
      cases MState.eat w s <;> simp
  | .ahead a, s, k => by
    rw [Re.go, Re.run]
    have h := go_result a s (fun t => (0, some t))
    rw [show (fun t : MState => ((0, some t) : Found).2) = some from rfl, isEmpty_findSome] at h
    generalize a.go s (fun t => (0, some t)) = x at h
    obtain ⟨n, r⟩ := x
    simp only at h
    subst h
    cases a.run s <;> simp
  | .nahead a, s, k => by
    rw [Re.go, Re.run]
    have h := go_result a s (fun t => (0, some t))
    rw [show (fun t : MState => ((0, some t) : Found).2) = some from rfl, isEmpty_findSome] at h
    generalize a.go s (fun t => (0, some t)) = x at h
    obtain ⟨n, r⟩ := x
    simp only at h
    subst h
    cases a.run s <;> simp
  | .behind p, s, k => by
    rw [Re.go, Re.run]
    cases s.pre with
    | nil => rfl
    | cons c _ =>
      simp only
      split <;> simp [Found.tick]
  | .cond i a b, s, k => by
    rw [Re.go, Re.run, Found.tick]
    split
    · exact go_result a s k
    · exact go_result b s k
  | .bol, s, k => by
    rw [Re.go, Re.run]
    split <;> simp [Found.tick]
  | .eol, s, k => by
    rw [Re.go, Re.run]
    split <;> simp [Found.tick]

theorem search_fullmatch (r : Re) (s : Str) : (r.search s).2 = r.fullmatch s := by
  rw [Re.search, go_result, Re.fullmatch]
  induction r.run ⟨[], s, []⟩ with
  | nil => rfl
  | cons t l ih =>
    rw [List.findSome?_cons, List.find?_cons]
    by_cases h : t.rest = []
    · simp [h]
    · simp only [h, if_false, decide_false]
      exact ih

theorem searchAt_head (r : Re) (pre s : Str) : (r.searchAt pre s).2 = (r.run ⟨pre, s, []⟩).head? := by
  rw [Re.searchAt, go_result, show (fun t : MState => ((1, some t) : Found).2) = some from rfl, isEmpty_findSome]

/-! ## The steps when everything is tried -/

/-- The steps of a repetition with everything tried. -/
def starWork (f : MState → List MState) (w : MState → Nat) : Nat → MState → Nat
  | 0, _ => 1
  | n + 1, s => 1 + w s + ((f s).map fun t => if t.rest.length < s.rest.length then starWork f w n t else 1).sum

/-- The steps of an expression alone, when everything is tried. -/
def Re.work : Re → MState → Nat
  | .eps, _ => 1
  | .cls _, _ => 1
  | .seq a b, s => 1 + a.work s + ((a.run s).map b.work).sum
  | .alt a b, s => 1 + a.work s + b.work s
  | .star a, s => starWork a.run a.work s.rest.length s
  | .grp _ a, s => 1 + a.work s
  | .bref i, s =>
    match s.group i with
    | none => 1
    | some w => MState.eatSteps w s
  | .ahead a, s => 1 + a.work s
  | .nahead a, s => 1 + a.work s
  | .behind _, _ => 1
  | .cond _ a b, s => 1 + a.work s + b.work s
  | .bol, _ => 1
  | .eol, _ => 1

theorem sum_filter_flatMap {α β : Type} (l : List α) (p : α → Bool) (f : α → List β) (g : β → Nat) :
    (((l.filter p).flatMap f).map g).sum = (l.map fun t => if p t then ((f t).map g).sum else 0).sum := by
  induction l with
  | nil => rfl
  | cons x l ih =>
    cases hp : p x <;> simp [hp, ih]

theorem sum_map_le {α : Type} (l : List α) (f g : α → Nat) (h : ∀ t ∈ l, f t ≤ g t) : (l.map f).sum ≤ (l.map g).sum := by
  induction l with
  | nil => simp
  | cons x l ih =>
    have h1 := h x (by simp)
    have h2 := ih fun t ht => h t (by simp [ht])
    simp only [List.map_cons, List.sum_cons]
    omega

theorem sum_map_add {α : Type} (l : List α) (f g : α → Nat) :
    (l.map fun t => f t + g t).sum = (l.map f).sum + (l.map g).sum := by
  induction l with
  | nil => rfl
  | cons x l ih =>
    simp only [List.map_cons, List.sum_cons, ih]
    omega

theorem sum_map_zero {α : Type} (l : List α) : (l.map fun _ => 0).sum = 0 := by
  induction l with
  | nil => rfl
  | cons x l ih => rw [List.map_cons, List.sum_cons, ih]

theorem sum_map_one {α : Type} (l : List α) : (l.map fun _ => 1).sum = l.length := by
  induction l with
  | nil => rfl
  | cons x l ih => rw [List.map_cons, List.sum_cons, ih, List.length_cons, Nat.add_comm]

theorem starGo_steps {f : MState → (MState → Found) → Found} {g : MState → List MState} {w : MState → Nat}
    (h : ∀ s k, (f s k).1 ≤ w s + ((g s).map fun t => (k t).1).sum) (n : Nat) (s : MState) (k : MState → Found) :
    (starGo f n s k).1 ≤ starWork g w n s + ((starRun g n s).map fun t => (k t).1).sum := by
  induction n generalizing s with
  | zero =>
    simp only [starGo, Found.tick, starWork, starRun, List.map_cons, List.map_nil, List.sum_cons, List.sum_nil]
    omega
  | succ n ih =>
    rw [starGo, starRun, starWork, List.map_append, List.sum_append, sum_filter_flatMap]
    have h1 := orElse_fst (f s fun t => if t.rest.length < s.rest.length then starGo f n t k else (1, none)) fun _ => k s
    have h2 := h s fun t => if t.rest.length < s.rest.length then starGo f n t k else (1, none)
    have h3 : ((g s).map fun t => (if t.rest.length < s.rest.length then starGo f n t k else (1, none) : Found).1).sum ≤
        ((g s).map fun t => if t.rest.length < s.rest.length then starWork g w n t else 1).sum +
        ((g s).map fun t => if (decide (t.rest.length < s.rest.length)) = true then
          ((starRun g n t).map fun t => (k t).1).sum else 0).sum := by
      rw [← sum_map_add]
      refine sum_map_le _ _ _ fun t _ => ?_
      by_cases ht : t.rest.length < s.rest.length
      · simp only [ht, if_true, decide_true]
        exact ih t
      · simp [ht]
    simp only [Found.tick, List.map_cons, List.map_nil, List.sum_cons, List.sum_nil]
    omega

theorem go_steps : ∀ (r : Re) (s : MState) (k : MState → Found),
    (r.go s k).1 ≤ r.work s + ((r.run s).map fun t => (k t).1).sum
  | .eps, s, k => by simp [Re.go, Re.run, Re.work, Found.tick]; omega
  | .cls p, s, k => by
    rw [Re.go, Re.run, Re.work]
    cases s.rest with
    | nil => simp
    | cons c rest =>
      simp only
      split <;> simp [Found.tick]
      omega
  | .seq a b, s, k => by
    rw [Re.go, Re.run, Re.work, Found.tick]
    have h1 := go_steps a s fun t => b.go t k
    have h2 : ((a.run s).map fun t => (b.go t k).1).sum ≤
        ((a.run s).map b.work).sum + ((a.run s).map fun t => ((b.run t).map fun t => (k t).1).sum).sum := by
      rw [← sum_map_add]
      exact sum_map_le _ _ _ fun t _ => go_steps b t k
    have h3 : (((a.run s).flatMap b.run).map fun t => (k t).1).sum =
        ((a.run s).map fun t => ((b.run t).map fun t => (k t).1).sum).sum := by
      induction a.run s with
      | nil => rfl
      | cons x l ih => simp [ih]
    rw [h3]
    simp only
    omega
  | .alt a b, s, k => by
    rw [Re.go, Re.run, Re.work, Found.tick, List.map_append, List.sum_append]
    have h1 := orElse_fst (a.go s k) fun _ => b.go s k
    have h2 := go_steps a s k
    have h3 := go_steps b s k
    simp only at h1 ⊢
    omega
  | .star a, s, k => by
    rw [Re.go, Re.run, Re.work]
    exact starGo_steps (fun s k => go_steps a s k) _ _ _
  | .grp i a, s, k => by
    rw [Re.go, Re.run, Re.work, Found.tick, List.map_map]
    have := go_steps a s fun t => k { t with caps := (i, s.between t) :: t.caps }
    simp only [Function.comp_def]
    omega
  | .bref i, s, k => by
    rw [Re.go, Re.run, Re.work]
    cases s.group i with
    | none => simp
    | some w =>
      simp only
      cases MState.eat w s with
      | none => simp
      | some t => simp; omega
  | .ahead a, s, k => by
    rw [Re.go, Re.run, Re.work]
    have h := go_result a s (fun t => (0, some t))
    have h' := go_steps a s (fun t => (0, some t))
    rw [show (fun t : MState => ((0, some t) : Found).2) = some from rfl, isEmpty_findSome] at h
    generalize a.go s (fun t => (0, some t)) = x at h h'
    obtain ⟨n, r⟩ := x
    simp only at h
    subst h
    rw [sum_map_zero] at h'
    cases a.run s <;> simp <;> omega
  | .nahead a, s, k => by
    rw [Re.go, Re.run, Re.work]
    have h := go_result a s (fun t => (0, some t))
    have h' := go_steps a s (fun t => (0, some t))
    rw [show (fun t : MState => ((0, some t) : Found).2) = some from rfl, isEmpty_findSome] at h
    generalize a.go s (fun t => (0, some t)) = x at h h'
    obtain ⟨n, r⟩ := x
    simp only at h
    subst h
    rw [sum_map_zero] at h'
    cases a.run s <;> simp <;> omega
  | .behind p, s, k => by
    rw [Re.go, Re.run, Re.work]
    cases s.pre with
    | nil => simp
    | cons c _ =>
      simp only
      split <;> simp [Found.tick]
      omega
  | .cond i a b, s, k => by
    rw [Re.go, Re.run, Re.work, Found.tick]
    have h1 := go_steps a s k
    have h2 := go_steps b s k
    split <;> simp only <;> omega
  | .bol, s, k => by
    rw [Re.go, Re.run, Re.work]
    split <;> simp [Found.tick]
    omega
  | .eol, s, k => by
    rw [Re.go, Re.run, Re.work]
    split <;> simp [Found.tick]
    omega

/-! ## Polynomial bounds -/

/-- At most `c * (n + 1) ^ k` matches and `w * (n + 1) ^ l` steps, where `n` characters follow the position. -/
structure Poly (r : Re) (c k w l : Nat) : Prop where
  runs : ∀ s : MState, (r.run s).length ≤ c * (s.rest.length + 1) ^ k
  steps : ∀ s : MState, r.work s ≤ w * (s.rest.length + 1) ^ l

theorem run_rest_le {r : Re} {s t : MState} (h : t ∈ r.run s) : t.rest.length ≤ s.rest.length := by
  obtain ⟨w, h1, -⟩ := run_mem_split r s t h
  rw [h1]
  simp

theorem sum_le_mul {α : Type} (l : List α) (f : α → Nat) (b : Nat) (h : ∀ t ∈ l, f t ≤ b) :
    (l.map f).sum ≤ l.length * b := by
  induction l with
  | nil => simp
  | cons x l ih =>
    have h1 := h x (by simp)
    have h2 := ih fun t ht => h t (by simp [ht])
    simp only [List.map_cons, List.sum_cons, List.length_cons, Nat.add_mul, Nat.one_mul]
    omega

theorem pow_le {n k l : Nat} (h : k ≤ l) : (n + 1) ^ k ≤ (n + 1) ^ l := Nat.pow_le_pow_right (by omega) h

theorem pow_mono {m n k : Nat} (h : m ≤ n) : (m + 1) ^ k ≤ (n + 1) ^ k := Nat.pow_le_pow_left (by omega) k

theorem one_le_pow (n l : Nat) : 1 ≤ (n + 1) ^ l := Nat.one_le_pow _ _ (by omega)

theorem Poly.weaken {r : Re} {c k w l c' k' w' l' : Nat} (h : Poly r c k w l) (hc : c ≤ c') (hk : k ≤ k') (hw : w ≤ w')
    (hl : l ≤ l') : Poly r c' k' w' l' :=
  ⟨fun s => le_trans (h.runs s) (Nat.mul_le_mul hc (pow_le hk)),
   fun s => le_trans (h.steps s) (Nat.mul_le_mul hw (pow_le hl))⟩

theorem Poly.eps : Poly .eps 1 0 1 0 := ⟨fun s => by simp [Re.run], fun s => by simp [Re.work]⟩
theorem Poly.cls (p : Char → Bool) : Poly (.cls p) 1 0 1 0 :=
  ⟨fun s => by
    rw [Re.run]
    cases s.rest with
    | nil => simp
    | cons c r => simp only; split <;> simp, fun s => by simp [Re.work]⟩
theorem Poly.chr (c : Char) : Poly (Re.chr c) 1 0 1 0 := Poly.cls _
theorem Poly.bol : Poly .bol 1 0 1 0 := ⟨fun s => by rw [Re.run]; split <;> simp, fun s => by simp [Re.work]⟩
theorem Poly.eol : Poly .eol 1 0 1 0 := ⟨fun s => by rw [Re.run]; split <;> simp, fun s => by simp [Re.work]⟩
theorem Poly.behind (p : Char → Bool) : Poly (.behind p) 1 0 1 0 :=
  ⟨fun s => by
    rw [Re.run]
    cases s.pre with
    | nil => simp
    | cons c r => simp only; split <;> simp, fun s => by simp [Re.work]⟩

theorem eatSteps_le : ∀ (w : Str) (s : MState), MState.eatSteps w s ≤ s.rest.length + 1
  | [], s => by simp [MState.eatSteps]
  | c :: w, s => by
    rw [MState.eatSteps]
    cases hr : s.rest with
    | nil => simp
    | cons x rest =>
      simp only
      split
      · have := eatSteps_le w { s with pre := x :: s.pre, rest := rest }
        simp only [List.length_cons] at this ⊢
        omega
      · simp

theorem Poly.bref (i : Nat) : Poly (.bref i) 1 0 1 1 :=
  ⟨fun s => by
    rw [Re.run]
    cases s.group i with
    | none => simp
    | some w => simp only; cases MState.eat w s <;> simp, fun s => by
    rw [Re.work]
    cases s.group i with
    | none => simp
    | some w => simpa using eatSteps_le w s⟩

theorem Poly.seq {a b : Re} {c₁ k₁ w₁ l₁ c₂ k₂ w₂ l₂ : Nat} (ha : Poly a c₁ k₁ w₁ l₁) (hb : Poly b c₂ k₂ w₂ l₂) :
    Poly (.seq a b) (c₁ * c₂) (k₁ + k₂) (1 + w₁ + c₁ * w₂) (max l₁ (k₁ + l₂)) := by
  constructor
  · intro s
    rw [Re.run, List.length_flatMap]
    have h := sum_le_mul (a.run s) (fun t => (b.run t).length) (c₂ * (s.rest.length + 1) ^ k₂) fun t ht =>
      le_trans (hb.runs t) (Nat.mul_le_mul_left _ (pow_mono (run_rest_le ht)))
    refine le_trans h (le_trans (Nat.mul_le_mul_right _ (ha.runs s)) ?_)
    rw [pow_add]
    apply le_of_eq
    ring
  · intro s
    rw [Re.work]
    have h := sum_le_mul (a.run s) b.work (w₂ * (s.rest.length + 1) ^ l₂) fun t ht =>
      le_trans (hb.steps t) (Nat.mul_le_mul_left _ (pow_mono (run_rest_le ht)))
    have h2 := le_trans h (Nat.mul_le_mul_right _ (ha.runs s))
    have h3 := ha.steps s
    generalize hN : s.rest.length = n at h2 h3 ⊢
    have e1 : (1 : Nat) ≤ (n + 1) ^ (max l₁ (k₁ + l₂)) := one_le_pow _ _
    have e2 : w₁ * (n + 1) ^ l₁ ≤ w₁ * (n + 1) ^ (max l₁ (k₁ + l₂)) := Nat.mul_le_mul_left _ (pow_le (le_max_left _ _))
    have e3 : c₁ * (n + 1) ^ k₁ * (w₂ * (n + 1) ^ l₂) ≤ c₁ * w₂ * (n + 1) ^ (max l₁ (k₁ + l₂)) := by
      have : c₁ * (n + 1) ^ k₁ * (w₂ * (n + 1) ^ l₂) = c₁ * w₂ * (n + 1) ^ (k₁ + l₂) := by rw [pow_add]; ring
      rw [this]
      exact Nat.mul_le_mul_left _ (pow_le (le_max_right _ _))
    rw [Nat.add_mul, Nat.add_mul, Nat.one_mul]
    omega

theorem Poly.alt {a b : Re} {c₁ k₁ w₁ l₁ c₂ k₂ w₂ l₂ : Nat} (ha : Poly a c₁ k₁ w₁ l₁) (hb : Poly b c₂ k₂ w₂ l₂) :
    Poly (.alt a b) (c₁ + c₂) (max k₁ k₂) (1 + w₁ + w₂) (max l₁ l₂) := by
  constructor
  · intro s
    rw [Re.run, List.length_append, Nat.add_mul]
    exact Nat.add_le_add (le_trans (ha.runs s) (Nat.mul_le_mul_left _ (pow_le (le_max_left _ _))))
      (le_trans (hb.runs s) (Nat.mul_le_mul_left _ (pow_le (le_max_right _ _))))
  · intro s
    rw [Re.work, Nat.add_mul, Nat.add_mul, Nat.one_mul]
    exact Nat.add_le_add (Nat.add_le_add (one_le_pow _ _)
      (le_trans (ha.steps s) (Nat.mul_le_mul_left _ (pow_le (le_max_left _ _)))))
      (le_trans (hb.steps s) (Nat.mul_le_mul_left _ (pow_le (le_max_right _ _))))

theorem Poly.opt {a : Re} {c k w l : Nat} (ha : Poly a c k w l) : Poly a.opt (c + 1) k (2 + w) l := by
  have := Poly.alt ha Poly.eps
  exact this.weaken (le_refl _) (by simp) (by omega) (by simp)

theorem Poly.grp {a : Re} {c k w l : Nat} (i : Nat) (ha : Poly a c k w l) : Poly (.grp i a) c k (1 + w) l :=
  ⟨fun s => by rw [Re.run, List.length_map]; exact ha.runs s, fun s => by
    rw [Re.work, Nat.add_mul, Nat.one_mul]
    exact Nat.add_le_add (one_le_pow _ _) (ha.steps s)⟩

theorem Poly.ahead {a : Re} {c k w l : Nat} (ha : Poly a c k w l) : Poly (.ahead a) 1 0 (1 + w) l :=
  ⟨fun s => by rw [Re.run]; split <;> simp, fun s => by
    rw [Re.work, Nat.add_mul, Nat.one_mul]
    exact Nat.add_le_add (one_le_pow _ _) (ha.steps s)⟩

theorem Poly.nahead {a : Re} {c k w l : Nat} (ha : Poly a c k w l) : Poly (.nahead a) 1 0 (1 + w) l :=
  ⟨fun s => by rw [Re.run]; split <;> simp, fun s => by
    rw [Re.work, Nat.add_mul, Nat.one_mul]
    exact Nat.add_le_add (one_le_pow _ _) (ha.steps s)⟩

theorem Poly.cond {a b : Re} {c₁ k₁ w₁ l₁ c₂ k₂ w₂ l₂ : Nat} (i : Nat) (ha : Poly a c₁ k₁ w₁ l₁)
    (hb : Poly b c₂ k₂ w₂ l₂) : Poly (.cond i a b) (c₁ + c₂) (max k₁ k₂) (1 + w₁ + w₂) (max l₁ l₂) := by
  have h := Poly.alt ha hb
  refine ⟨fun s => le_trans ?_ (h.runs s), fun s => le_trans ?_ (h.steps s)⟩
  · rw [Re.run, Re.run, List.length_append]
    split <;> omega
  · rw [Re.work, Re.work]

/-- Repetition of an expression after which, from every position, at most one of the matches can be continued by another
one. -/
theorem Poly.star {a : Re} {c k w l : Nat} (ha : Poly a c k w l)
    (h1 : ∀ s, ((a.run s).filter fun t => !(a.run t).isEmpty).length ≤ 1) :
    Poly (.star a) (c + 1) (k + 1) (1 + w + c * (1 + w)) (k + l + 1) := by
  -- sums with at most one large term
  have key : ∀ (L : List MState) (f : MState → Nat) (small big : Nat), (∀ t ∈ L, a.run t = [] → f t ≤ small) →
      (∀ t ∈ L, f t ≤ big) → (L.filter fun t => !(a.run t).isEmpty).length ≤ 1 →
      (L.map f).sum ≤ L.length * small + big := by
    intro L f small big hs hb hL
    induction L with
    | nil => simp
    | cons x L ih =>
      have hx := hb x (by simp)
      cases hr : a.run x with
      | nil =>
        have h2 := hs x (by simp) hr
        rw [List.filter_cons_of_neg (by simp [hr])] at hL
        have h3 := ih (fun t ht => hs t (by simp [ht])) (fun t ht => hb t (by simp [ht])) hL
        simp only [List.map_cons, List.sum_cons, List.length_cons, Nat.add_mul, Nat.one_mul]
        omega
      | cons y ys =>
        rw [List.filter_cons_of_pos (by simp [hr])] at hL
        have h0 : L.filter (fun t => !(a.run t).isEmpty) = [] := by
          rw [List.length_cons] at hL
          exact List.length_eq_zero_iff.1 (by omega)
        have h3 := sum_le_mul L f small fun t ht => hs t (by simp [ht]) (by
          by_contra hne
          have : t ∈ L.filter fun t => !(a.run t).isEmpty := List.mem_filter.2 ⟨ht, by simpa using hne⟩
          rw [h0] at this
          cases this)
        simp only [List.map_cons, List.sum_cons, List.length_cons, Nat.add_mul, Nat.one_mul]
        omega
  constructor
  · have hdead : ∀ n t, a.run t = [] → (starRun a.run n t).length = 1 := by
      intro n t ht
      cases n <;> simp [starRun, ht]
    have hrec : ∀ n M s, s.rest.length ≤ M → (starRun a.run n s).length ≤ n * (c * (M + 1) ^ k) + 1 := by
      intro n M
      induction n with
      | zero => intro s _; simp [starRun]
      | succ n ih =>
        intro s hM
        rw [starRun, List.length_append, List.length_flatMap, List.length_singleton]
        by_cases hL : (a.run s).filter (fun t => t.rest.length < s.rest.length) = []
        · rw [hL]; simp
        · have hlen : ((a.run s).filter (fun t => t.rest.length < s.rest.length)).length ≤ c * (M + 1) ^ k :=
            le_trans (List.length_filter_le _ _) (le_trans (ha.runs s) (Nat.mul_le_mul_left _ (pow_mono hM)))
          -- all but one of the continuations are dead
          have h2 : ((((a.run s).filter (fun t => t.rest.length < s.rest.length))).map
              (fun t => (starRun a.run n t).length)).sum ≤
              (((a.run s).filter (fun t => t.rest.length < s.rest.length))).length * 1 + n * (c * (M + 1) ^ k) := by
            have hall : ∀ t ∈ (a.run s).filter (fun t => t.rest.length < s.rest.length),
                (starRun a.run n t).length ≤ n * (c * (M + 1) ^ k) + 1 := fun t ht =>
              ih t (le_trans (run_rest_le (List.mem_filter.1 ht).1) hM)
            have h1' := key ((a.run s).filter (fun t => t.rest.length < s.rest.length))
              (fun t => (starRun a.run n t).length - 1) 0 (n * (c * (M + 1) ^ k))
              (fun t _ ht => by have := hdead n t ht; omega) (fun t ht => by have := hall t ht; omega)
              (le_trans (List.Sublist.length_le (List.Sublist.filter _ List.filter_sublist)) (h1 s))
            have h4 : ((((a.run s).filter (fun t => t.rest.length < s.rest.length))).map
              (fun t => (starRun a.run n t).length)).sum ≤
              ((((a.run s).filter (fun t => t.rest.length < s.rest.length))).map
              (fun t => 1 + ((starRun a.run n t).length - 1))).sum := sum_map_le _ _ _ fun t _ => by omega
            rw [sum_map_add] at h4
            have h5 : ((((a.run s).filter (fun t => t.rest.length < s.rest.length))).map (fun _ => 1)).sum =
              (((a.run s).filter (fun t => t.rest.length < s.rest.length))).length := sum_map_one _
            omega
          rw [Nat.add_mul, Nat.one_mul]
          omega
    intro s
    rw [Re.run]
    refine le_trans (hrec _ _ s le_rfl) ?_
    generalize s.rest.length = n
    have : (n + 1) ^ (k + 1) = (n + 1) ^ k * n + (n + 1) ^ k := by rw [pow_succ]; ring
    have h3 := one_le_pow n (k + 1)
    have h4 : n * (c * (n + 1) ^ k) ≤ c * (n + 1) ^ (k + 1) := by
      rw [pow_succ]
      have : c * ((n + 1) ^ k * (n + 1)) = (n + 1) * (c * (n + 1) ^ k) := by ring
      rw [this]
      exact Nat.mul_le_mul_right _ (by omega)
    rw [Nat.add_mul, Nat.one_mul]
    omega
  · have hdead : ∀ n t M, t.rest.length ≤ M → a.run t = [] → starWork a.run a.work n t ≤ 1 + w * (M + 1) ^ l := by
      intro n t M hM ht
      have := le_trans (ha.steps t) (Nat.mul_le_mul_left _ (pow_mono hM))
      cases n with
      | zero => simp [starWork]
      | succ n => simp only [starWork, ht, List.map_nil, List.sum_nil]; omega
    have hrec : ∀ n M s, s.rest.length ≤ M → starWork a.run a.work n s ≤
        (n + 1) * (1 + w * (M + 1) ^ l + c * (M + 1) ^ k * (1 + w * (M + 1) ^ l)) := by
      intro n M
      induction n with
      | zero =>
        intro s _
        simp only [starWork]
        have : 1 ≤ 1 + w * (M + 1) ^ l + c * (M + 1) ^ k * (1 + w * (M + 1) ^ l) := by omega
        omega
      | succ n ih =>
        intro s hM
        rw [starWork]
        have hw := le_trans (ha.steps s) (Nat.mul_le_mul_left _ (pow_mono hM))
        have hlen := le_trans (ha.runs s) (Nat.mul_le_mul_left _ (pow_mono hM))
        have h2 := key (a.run s) (fun t => if t.rest.length < s.rest.length then starWork a.run a.work n t else 1)
          (1 + w * (M + 1) ^ l) ((n + 1) * (1 + w * (M + 1) ^ l + c * (M + 1) ^ k * (1 + w * (M + 1) ^ l)))
          (fun t ht hd => by
            split
            · exact hdead n t M (le_trans (run_rest_le ht) hM) hd
            · omega)
          (fun t ht => by
            split
            · exact ih t (le_trans (run_rest_le ht) hM)
            · have : 1 ≤ 1 + w * (M + 1) ^ l + c * (M + 1) ^ k * (1 + w * (M + 1) ^ l) := by omega
              exact le_trans this (Nat.le_mul_of_pos_left _ (by omega)))
          (h1 s)
        have h3 := Nat.mul_le_mul_right (1 + w * (M + 1) ^ l) hlen
        rw [show n + 1 + 1 = (n + 1) + 1 from rfl, Nat.add_mul (n + 1) 1, Nat.one_mul]
        omega
    intro s
    rw [Re.work]
    refine le_trans (hrec _ _ s le_rfl) ?_
    generalize s.rest.length = n
    have e0 : (n + 1) ^ (k + l + 1) = (n + 1) * ((n + 1) ^ k * (n + 1) ^ l) := by rw [pow_succ, pow_add]; ring
    rw [e0]
    have hk := one_le_pow n k
    have hl := one_le_pow n l
    generalize (n + 1) ^ k = A at hk ⊢
    generalize (n + 1) ^ l = B at hl ⊢
    have hAB : B ≤ A * B := Nat.le_mul_of_pos_left _ hk
    have hAA : A ≤ A * B := Nat.le_mul_of_pos_right _ hl
    have f1 : w * B ≤ w * (A * B) := Nat.mul_le_mul_left _ hAB
    have f2 : c * A * (1 + w * B) ≤ c * (1 + w) * (A * B) := by
      have : c * A * (1 + w * B) = c * A + c * w * (A * B) := by ring
      rw [this]
      have : c * (1 + w) * (A * B) = c * (A * B) + c * w * (A * B) := by ring
      rw [this]
      exact Nat.add_le_add_right (Nat.mul_le_mul_left _ hAA) _
    have f3 : 1 + w * B + c * A * (1 + w * B) ≤ (1 + w + c * (1 + w)) * (A * B) := by
      have : (1 + w + c * (1 + w)) * (A * B) = A * B + w * (A * B) + c * (1 + w) * (A * B) := by ring
      rw [this]
      omega
    calc (n + 1) * (1 + w * B + c * A * (1 + w * B)) ≤ (n + 1) * ((1 + w + c * (1 + w)) * (A * B)) :=
          Nat.mul_le_mul_left _ f3
      _ = (1 + w + c * (1 + w)) * ((n + 1) * (A * B)) := by ring

end Clever
