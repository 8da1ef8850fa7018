import Verif.Model.Consistency
import Verif.Proofs.Potential
import Verif.Proofs.TypeCache
import Verif.Props.Dialects
import Mathlib.Tactic.Linarith

/-! # Sorting, scoring and choosing the best dialects -/

namespace Clever

open Props (IsStr C18_strict_total_order)

/-- The order of dialects as a relation. -/
def DLt (a b : SimpleDialect) : Prop := a.lt b = .ok true

theorem SimpleDialect.eq_true {a b : SimpleDialect} (h : a.eq b = true) : a = b := by
  cases a; cases b
  simp [SimpleDialect.eq] at h
  simp [h]

/-! ## Sorting -/

theorem insertSorted_spec (d : SimpleDialect) (hd : IsStr d) :
    ∀ xs : List SimpleDialect, (∀ x ∈ xs, IsStr x) → d ∉ xs → xs.Pairwise DLt →
      ∃ s, insertSorted d xs = .ok s ∧ s.Perm (d :: xs) ∧ s.Pairwise DLt
  | [], _, _, _ => ⟨[d], rfl, .refl _, by simp⟩
  | x :: xs, hx, hn, hp => by
    have hxs := hx x (by simp)
    rw [insertSorted]
    simp only [List.pairwise_cons] at hp
    have hne : x ≠ d := fun h => hn (by simp [h])
    rcases C18_strict_total_order.2.2 x d hxs hd with ⟨h, _, _⟩ | ⟨h, h', _⟩ | ⟨_, _, h⟩
    · obtain ⟨s, h1, h2, h3⟩ := insertSorted_spec d hd xs (fun y hy => hx y (by simp [hy]))
        (fun h => hn (by simp [h])) hp.2
      refine ⟨x :: s, by rw [h]; simp [h1], (h2.cons x).trans (.swap _ _ _), ?_⟩
      refine List.pairwise_cons.mpr ⟨fun y hy => ?_, h3⟩
      rcases List.mem_cons.mp (h2.mem_iff.mp hy) with rfl | hy
      · exact h
      · exact hp.1 y hy
    · refine ⟨d :: x :: xs, by rw [h], .refl _, ?_⟩
      refine List.pairwise_cons.mpr ⟨fun y hy => ?_, List.pairwise_cons.mpr hp⟩
      rcases List.mem_cons.mp hy with rfl | hy
      · exact h'
      · exact C18_strict_total_order.2.1 d x y hd hxs (hx y (by simp [hy])) h' (hp.1 y hy)
    · exact absurd (SimpleDialect.eq_true h) hne

theorem sortDialects_spec : ∀ l : List SimpleDialect, (∀ x ∈ l, IsStr x) → l.Nodup →
    ∃ s, sortDialects l = .ok s ∧ s.Perm l ∧ s.Pairwise DLt
  | [], _, _ => ⟨[], rfl, .refl _, by simp⟩
  | x :: xs, hx, hn => by
    simp only [List.nodup_cons] at hn
    obtain ⟨s, h1, h2, h3⟩ := sortDialects_spec xs (fun y hy => hx y (by simp [hy])) hn.2
    obtain ⟨t, h4, h5, h6⟩ := insertSorted_spec x (hx x (by simp)) s
      (fun y hy => hx y (by simp [h2.mem_iff.mp hy])) (fun h => hn.1 (h2.mem_iff.mp h)) h3
    exact ⟨t, by rw [sortDialects, h1]; exact h4, h5.trans (h2.cons x), h6⟩

/-- Two lists in strictly increasing order with the same members are equal. -/
theorem sorted_ext {l₁ l₂ : List SimpleDialect} (hs : ∀ x ∈ l₁, IsStr x) (h1 : l₁.Pairwise DLt)
    (h2 : l₂.Pairwise DLt) (h : ∀ x, x ∈ l₁ ↔ x ∈ l₂) : l₁ = l₂ := by
  have hs2 : ∀ x ∈ l₂, IsStr x := fun x hx => hs x ((h x).mpr hx)
  have irr : ∀ x, IsStr x → ¬ DLt x x := fun x hx hh => by
    have := C18_strict_total_order.1 x hx
    rw [DLt, this] at hh
    simp at hh
  have nd : ∀ l : List SimpleDialect, (∀ x ∈ l, IsStr x) → l.Pairwise DLt → l.Nodup := by
    intro l
    induction l with
    | nil => intros; simp
    | cons x xs ih =>
      intro hs hp
      simp only [List.pairwise_cons] at hp
      refine List.nodup_cons.mpr ⟨fun hx => irr x (hs x (by simp)) (hp.1 x hx), ih (fun y hy => hs y (by simp [hy])) hp.2⟩
  have hperm : l₁.Perm l₂ := (List.perm_ext_iff_of_nodup (nd _ hs h1) (nd _ hs2 h2)).mpr h
  refine List.Perm.eq_of_pairwise (le := DLt) ?_ h1 h2 hperm
  intro a b ha hb hab hba
  exact absurd (C18_strict_total_order.2.1 a b a (hs a ha) (hs2 b hb) (hs a ha) hab hba) (irr a (hs a ha))

/-! ## The loop -/

/-- The loop with a function for the type score and without the dictionary and the cache. -/
def pureLoop (pat typ : SimpleDialect → Except PyExc ℚ) (skip : Bool) :
    List SimpleDialect → Option ℚ → Except PyExc (List (SimpleDialect × ConsistencyScore))
  | [], _ => .ok []
  | d :: ds, inc =>
    match pat d with
    | .error e => .error e
    | .ok P =>
      if belowIncumbent P inc && skip then
        (pureLoop pat typ skip ds inc).map (fun l => (d, ⟨P, none, none⟩) :: l)
      else
        match typ d with
        | .error e => .error e
        | .ok T =>
          (pureLoop pat typ skip ds (some (maxScore inc (fl (P * T))))).map
            (fun l => (d, ⟨P, some T, some (fl (P * T))⟩) :: l)

theorem dictSet_append {K V : Type} [DecidableEq K] (s : List (K × V)) (k : K) (v : V)
    (h : k ∉ s.map (·.1)) : dictSet s k v = s ++ [(k, v)] := by
  induction s with
  | nil => rfl
  | cons p s ih =>
    obtain ⟨k', v'⟩ := p
    simp only [List.map_cons, List.mem_cons, not_or] at h
    rw [dictSet, if_neg (fun hh => h.1 hh.symm), ih h.2]
    rfl

theorem scoreLoop_eq {pat : SimpleDialect → Except PyExc ℚ}
    {typ : TypeCache → SimpleDialect → Except PyExc ℚ × TypeCache} {t : SimpleDialect → Except PyExc ℚ}
    {Inv : TypeCache → Prop} (hI : ∀ c d, Inv c → (typ c d).1 = t d ∧ Inv (typ c d).2) (skip : Bool) :
    ∀ (ds : List SimpleDialect) (inc : Option ℚ) (cache : TypeCache)
      (scores : List (SimpleDialect × ConsistencyScore)), Inv cache → ds.Nodup →
      (∀ d ∈ ds, d ∉ scores.map (·.1)) →
      (scoreLoop pat typ skip ds inc cache scores).1 =
        (pureLoop pat t skip ds inc).map (fun l => scores ++ l) := by
  intro ds
  induction ds with
  | nil => intro inc cache scores _ _ _; simp [scoreLoop, pureLoop, Except.map]
  | cons d ds ih =>
    intro inc cache scores hc hn hd
    simp only [List.nodup_cons] at hn
    have hnew : ∀ s : ConsistencyScore, ∀ x ∈ ds, x ∉ (dictSet scores d s).map (·.1) := by
      intro s x hx
      rw [dictSet_append _ _ _ (hd d (by simp))]
      simp only [List.map_append, List.map_cons, List.map_nil, List.mem_append, List.mem_singleton,
        not_or]
      exact ⟨hd x (by simp [hx]), fun h => hn.1 (h ▸ hx)⟩
    rw [scoreLoop, pureLoop]
    cases hp : pat d with
    | error e => rfl
    | ok P =>
      simp only
      split
      · rw [ih inc cache _ hc hn.2 (hnew _), dictSet_append _ _ _ (hd d (by simp))]
        cases pureLoop pat t skip ds inc <;> simp [Except.map]
      · obtain ⟨h1, h2⟩ := hI cache d hc
        rcases ht : typ cache d with ⟨r, c'⟩
        rw [ht] at h1 h2
        simp only at h1 h2
        rw [← h1]
        cases r with
        | error e => rfl
        | ok T =>
          simp only
          rw [ih _ c' _ h2 hn.2 (hnew _), dictSet_append _ _ _ (hd d (by simp))]
          cases pureLoop pat t skip ds _ <;> simp [Except.map]

theorem le_maxScore {inc : Option ℚ} {q i : ℚ} (h : inc = some i) : i ≤ maxScore inc q := by
  subst h; exact le_max_left _ _

theorem le_maxScore_right (inc : Option ℚ) (q : ℚ) : q ≤ maxScore inc q := by
  cases inc with
  | none => exact le_refl _
  | some i => exact le_max_right _ _

theorem maxScore_cases (inc : Option ℚ) (q : ℚ) : maxScore inc q = q ∨ inc = some (maxScore inc q) := by
  cases inc with
  | none => exact .inl rfl
  | some i =>
    simp only [maxScore, Option.some.injEq]
    rcases le_total i q with h | h
    · exact .inl (max_eq_right h)
    · exact .inr (max_eq_left h).symm

theorem qMax_some : ∀ (l : List (SimpleDialect × ConsistencyScore)) (inc : Option ℚ) (m : ℚ),
    qMax l inc = some m →
      (inc = some m ∨ ∃ p ∈ l, p.2.Q = some m) ∧ (∀ i, inc = some i → i ≤ m) ∧
      (∀ p ∈ l, ∀ q, p.2.Q = some q → q ≤ m)
  | [], inc, m, h => by
    rw [qMax] at h
    exact ⟨.inl h, fun i hi => by rw [h] at hi; simp at hi; exact hi ▸ le_refl _, by simp⟩
  | (d, s) :: l, inc, m, h => by
    rw [qMax] at h
    cases hq : s.Q with
    | none =>
      rw [hq] at h
      obtain ⟨h1, h2, h3⟩ := qMax_some l inc m h
      refine ⟨h1.imp id (fun ⟨p, hp, h⟩ => ⟨p, by simp [hp], h⟩), h2, ?_⟩
      intro p hp q hpq
      rcases List.mem_cons.mp hp with rfl | hp
      · simp [hq] at hpq
      · exact h3 p hp q hpq
    | some q0 =>
      rw [hq] at h
      obtain ⟨h1, h2, h3⟩ := qMax_some l _ m h
      have h2' := h2 _ rfl
      refine ⟨?_, fun i hi => le_trans (le_maxScore hi) h2', ?_⟩
      · rcases h1 with h1 | ⟨p, hp, h1⟩
        · simp only [Option.some.injEq] at h1
          rcases maxScore_cases inc q0 with h | h
          · exact .inr ⟨(d, s), by simp, by rw [hq, ← h1, h]⟩
          · exact .inl (by rw [h, h1])
        · exact .inr ⟨p, by simp [hp], h1⟩
      · intro p hp q hpq
        rcases List.mem_cons.mp hp with rfl | hp
        · rw [hq] at hpq
          simp only [Option.some.injEq] at hpq
          subst hpq
          exact le_trans (le_maxScore_right _ _) h2'
        · exact h3 p hp q hpq

theorem qMax_isSome : ∀ (l : List (SimpleDialect × ConsistencyScore)) (i : ℚ), ∃ m, qMax l (some i) = some m
  | [], i => ⟨i, rfl⟩
  | (d, s) :: l, i => by
    rw [qMax]
    cases s.Q with
    | none => exact qMax_isSome l i
    | some q => exact qMax_isSome l _

theorem pureLoop_keys {pat typ : SimpleDialect → Except PyExc ℚ} {skip : Bool} :
    ∀ (ds : List SimpleDialect) (inc : Option ℚ) (l : List (SimpleDialect × ConsistencyScore)),
      pureLoop pat typ skip ds inc = .ok l → l.map (·.1) = ds
  | [], inc, l, h => by simp [pureLoop] at h; simp [← h]
  | d :: ds, inc, l, h => by
    rw [pureLoop] at h
    cases hp : pat d with
    | error e => simp [hp] at h
    | ok P =>
      rw [hp] at h
      simp only at h
      split at h
      · cases hr : pureLoop pat typ skip ds inc with
        | error e => simp [hr, Except.map] at h
        | ok r =>
          simp [hr, Except.map] at h
          rw [← h]
          simp [pureLoop_keys ds _ r hr]
      · cases ht : typ d with
        | error e => simp [ht] at h
        | ok T =>
          rw [ht] at h
          simp only at h
          cases hr : pureLoop pat typ skip ds (some (maxScore inc (fl (P * T)))) with
          | error e => simp [hr, Except.map] at h
          | ok r =>
            simp [hr, Except.map] at h
            rw [← h]
            simp [pureLoop_keys ds _ r hr]

/-- What the loop has computed, if `m` is the maximum in the end. -/
theorem pureLoop_best {pat typ : SimpleDialect → Except PyExc ℚ} {skip : Bool}
    (hle : ∀ d P T, pat d = .ok P → typ d = .ok T → fl (P * T) ≤ P) :
    ∀ (ds : List SimpleDialect) (inc : Option ℚ) (l : List (SimpleDialect × ConsistencyScore)) (m : ℚ),
      pureLoop pat typ skip ds inc = .ok l → qMax l inc = some m →
      (∀ p ∈ l, ∃ P, pat p.1 = .ok P ∧
        ((∃ T, typ p.1 = .ok T ∧ p.2.Q = some (fl (P * T))) ∨
          (p.2.Q = none ∧ ∀ T, typ p.1 = .ok T → fl (P * T) < m)))
  | [], inc, l, m, h, hm => by simp [pureLoop] at h; simp [h]
  | d :: ds, inc, l, m, h, hm => by
    rw [pureLoop] at h
    cases hp : pat d with
    | error e => simp [hp] at h
    | ok P =>
      rw [hp] at h
      simp only at h
      split at h
      · rename_i hb
        cases hr : pureLoop pat typ skip ds inc with
        | error e => simp [hr, Except.map] at h
        | ok r =>
          simp only [hr, Except.map, Except.ok.injEq] at h
          subst h
          rw [qMax] at hm
          simp only at hm
          intro p hpm
          rcases List.mem_cons.mp hpm with rfl | hpm
          · refine ⟨P, hp, .inr ⟨rfl, fun T hT => ?_⟩⟩
            have h1 := hle d P T hp hT
            cases inc with
            | none => simp [belowIncumbent] at hb
            | some i =>
              simp [belowIncumbent] at hb
              have := (qMax_some _ _ _ hm).2.1 i rfl
              linarith [hb.1]
          · exact pureLoop_best hle ds inc r m hr hm p hpm
      · cases ht : typ d with
        | error e => simp [ht] at h
        | ok T =>
          rw [ht] at h
          simp only at h
          cases hr : pureLoop pat typ skip ds (some (maxScore inc (fl (P * T)))) with
          | error e => simp [hr, Except.map] at h
          | ok r =>
            simp only [hr, Except.map, Except.ok.injEq] at h
            subst h
            rw [qMax] at hm
            simp only at hm
            intro p hpm
            rcases List.mem_cons.mp hpm with rfl | hpm
            · exact ⟨P, hp, .inl ⟨T, ht, rfl⟩⟩
            · exact pureLoop_best hle ds _ r m hr hm p hpm

/-- If nothing is skipped every score is computed; and then skipping succeeds too. -/
theorem pureLoop_noskip {pat typ : SimpleDialect → Except PyExc ℚ} :
    ∀ (ds : List SimpleDialect) (inc : Option ℚ) (l : List (SimpleDialect × ConsistencyScore)),
      pureLoop pat typ false ds inc = .ok l →
      ∀ d ∈ ds, (∃ P, pat d = .ok P) ∧ ∃ T, typ d = .ok T
  | [], inc, l, h => by simp
  | d :: ds, inc, l, h => by
    rw [pureLoop] at h
    cases hp : pat d with
    | error e => simp [hp] at h
    | ok P =>
      rw [hp] at h
      simp only [Bool.and_false, Bool.false_eq_true, if_false] at h
      cases ht : typ d with
      | error e => simp [ht] at h
      | ok T =>
        rw [ht] at h
        simp only at h
        cases hr : pureLoop pat typ false ds (some (maxScore inc (fl (P * T)))) with
        | error e => simp [hr, Except.map] at h
        | ok r =>
          intro x hx
          rcases List.mem_cons.mp hx with rfl | hx
          · exact ⟨⟨P, hp⟩, T, ht⟩
          · exact pureLoop_noskip ds _ r hr x hx

theorem pureLoop_ok {pat typ : SimpleDialect → Except PyExc ℚ} {skip : Bool} :
    ∀ (ds : List SimpleDialect) (inc : Option ℚ),
      (∀ d ∈ ds, (∃ P, pat d = .ok P) ∧ ∃ T, typ d = .ok T) →
      ∃ l, pureLoop pat typ skip ds inc = .ok l
  | [], inc, h => ⟨[], rfl⟩
  | d :: ds, inc, h => by
    obtain ⟨⟨P, hP⟩, T, hT⟩ := h d (by simp)
    have h' : ∀ x ∈ ds, (∃ P, pat x = .ok P) ∧ ∃ T, typ x = .ok T := fun x hx => h x (by simp [hx])
    rw [pureLoop, hP]
    simp only
    split
    · obtain ⟨l, hl⟩ := pureLoop_ok (skip := skip) ds inc h'
      exact ⟨_, by rw [hl]; rfl⟩
    · rw [hT]
      obtain ⟨l, hl⟩ := pureLoop_ok (skip := skip) ds (some (maxScore inc (fl (P * T)))) h'
      exact ⟨_, by simp only; rw [hl]; rfl⟩

/-- If the loop raises, one of the scores raises. -/
theorem pureLoop_error {pat typ : SimpleDialect → Except PyExc ℚ} {skip : Bool} {e : PyExc} :
    ∀ (ds : List SimpleDialect) (inc : Option ℚ), pureLoop pat typ skip ds inc = .error e →
      ∃ d ∈ ds, pat d = .error e ∨ typ d = .error e
  | [], inc, h => by simp [pureLoop] at h
  | d :: ds, inc, h => by
    rw [pureLoop] at h
    cases hp : pat d with
    | error e' =>
      simp [hp] at h
      exact ⟨d, by simp, .inl (by rw [hp, h])⟩
    | ok P =>
      rw [hp] at h
      simp only at h
      split at h
      · cases hr : pureLoop pat typ skip ds inc with
        | ok r => simp [hr, Except.map] at h
        | error e' =>
          simp [hr, Except.map] at h
          subst h
          obtain ⟨x, hx, h⟩ := pureLoop_error ds inc hr
          exact ⟨x, by simp [hx], h⟩
      · cases ht : typ d with
        | error e' =>
          simp [ht] at h
          exact ⟨d, by simp, .inr (by rw [ht, h])⟩
        | ok T =>
          rw [ht] at h
          simp only at h
          cases hr : pureLoop pat typ skip ds (some (maxScore inc (fl (P * T)))) with
          | ok r => simp [hr, Except.map] at h
          | error e' =>
            simp [hr, Except.map] at h
            subst h
            obtain ⟨x, hx, h⟩ := pureLoop_error ds _ hr
            exact ⟨x, by simp [hx], h⟩

/-- The first dialect is always scored, so there is a maximum. -/
theorem pureLoop_qMax {pat typ : SimpleDialect → Except PyExc ℚ} {skip : Bool}
    {ds : List SimpleDialect} {l : List (SimpleDialect × ConsistencyScore)} (hne : ds ≠ [])
    (h : pureLoop pat typ skip ds none = .ok l) : ∃ m, qMax l none = some m := by
  cases ds with
  | nil => exact absurd rfl hne
  | cons d ds =>
    rw [pureLoop] at h
    cases hp : pat d with
    | error e => simp [hp] at h
    | ok P =>
      rw [hp] at h
      simp only [belowIncumbent, Bool.false_and, Bool.false_eq_true, if_false] at h
      cases ht : typ d with
      | error e => simp [ht] at h
      | ok T =>
        rw [ht] at h
        simp only at h
        cases hr : pureLoop pat typ skip ds (some (maxScore none (fl (P * T)))) with
        | error e => simp [hr, Except.map] at h
        | ok r =>
          simp only [hr, Except.map, Except.ok.injEq] at h
          subst h
          rw [qMax]
          exact qMax_isSome _ _

end Clever
