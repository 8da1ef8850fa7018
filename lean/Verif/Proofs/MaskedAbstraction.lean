import Verif.Proofs.AbstractionRows
import Verif.Proofs.AbstractionSize

/-!
# Abstractions of texts with quotes

The abstraction of a text whose quotes are balanced is the abstraction of the text in which every character between
quotes is replaced by the quote character, for the dialect without quote character.
-/

namespace Clever

open Spec

/-- The letters of `base_abstraction` from the left; `last` is the last letter so far. -/
def baseF (d q : Char) : Option Char → Str → Str
  | _, [] => []
  | last, c :: t =>
    if isNL c = true then
      if last = some 'R' then baseF d q last t else 'R' :: baseF d q (some 'R') t
    else if c = d then 'D' :: baseF d q (some 'D') t
    else if c = q then 'Q' :: baseF d q (some 'Q') t
    else if last = some 'C' then baseF d q last t else 'C' :: baseF d q (some 'C') t

theorem foldl_baseF (d q : Char) (t : Str) (hnul : NUL ∉ t) (stack : List Char) :
    (t.foldl (absStep d q NUL) (stack, false)).1 = (baseF d q stack.head? t).reverse ++ stack := by
  induction t generalizing stack with
  | nil => rfl
  | cons c t ih =>
    have hc : c ≠ NUL := fun h => hnul (by simp [h])
    have ih := ih fun h => hnul (by simp [h])
    rw [List.foldl_cons]
    unfold baseF
    by_cases h1 : isNL c = true
    · have h1' : c = '\r' ∨ c = '\n' := by simpa [isNL] using h1
      rw [if_pos h1]
      simp only [absStep, if_pos h1', pushNew]
      split
      · rw [ih]
      · rw [ih]; simp
    · have h1' : ¬ (c = '\r' ∨ c = '\n') := by simpa [isNL] using h1
      rw [if_neg h1]
      simp only [absStep, if_neg h1']
      by_cases h2 : c = d
      · simp only [if_pos h2, Bool.false_eq_true, if_false]
        rw [ih]; simp
      · rw [if_neg h2, if_neg h2]
        by_cases h3 : c = q
        · simp only [if_pos h3, Bool.false_eq_true, if_false]
          rw [ih]; simp
        · rw [if_neg h3, if_neg h3, if_neg hc]
          simp only [pushNew]
          split
          · rw [ih]
          · rw [ih]; simp

theorem base_eq_baseF (d q : Char) (t : Str) (hnul : NUL ∉ t) : baseAbstraction d q NUL t = baseF d q none t := by
  rw [baseAbstraction, foldl_baseF d q t hnul]
  simp

theorem baseF_noQ (d : Char) (s : Str) (h : NUL ∉ s) (last : Option Char) : 'Q' ∉ baseF d NUL last s := by
  induction s generalizing last with
  | nil => simp [baseF]
  | cons c s ih =>
    simp only [List.mem_cons, not_or] at h
    have ih := ih h.2
    unfold baseF
    rw [if_neg (Ne.symm h.1)]
    repeat' split
    all_goals simp [ih]

/-- Every character between quotes is replaced by the quote character. -/
def mask (q : Char) : Bool → Str → Str
  | _, [] => []
  | inQ, c :: t => if inQ = true then q :: mask q (!(c == q)) t else c :: mask q (c == q) t

theorem mask_nul {q : Char} (hq : q ≠ NUL) {t : Str} (h : NUL ∉ t) (b : Bool) : NUL ∉ mask q b t := by
  induction t generalizing b with
  | nil => simp [mask]
  | cons c t ih =>
    simp only [List.mem_cons, not_or] at h
    unfold mask
    split
    · simpa [hq.symm] using ih h.2 _
    · simpa [h.1] using ih h.2 _

theorem fill_C (s : Str) : fill 'C' ('C' :: s) = fill 'C' s := by
  simp [fill, gap]

theorem fill_Cs (prev : Char) (n : Nat) (s : Str) :
    fill prev (List.replicate (n + 1) 'C' ++ s) = (if prev = 'C' then [] else ['C']) ++ fill 'C' s := by
  have h : ∀ n, fill 'C' (List.replicate n 'C' ++ s) = fill 'C' s := by
    intro n
    induction n with
    | zero => rfl
    | succ n ih => rw [List.replicate_succ, List.cons_append, fill_C, ih]
  rw [List.replicate_succ, List.cons_append, fill, h]
  have : gap prev 'C' = false := by simp [gap]
  rw [this]
  by_cases hp : prev = 'C' <;> simp [hp]

theorem fill_skip {prev : Char} {last : Option Char} (hC : last = some 'C' → prev = 'C') (d q : Char) (s : Str) :
    fill prev (if last = some 'C' then baseF d q last s else 'C' :: baseF d q (some 'C') s) =
      (if prev = 'C' then [] else ['C']) ++ fill 'C' (baseF d q (some 'C') s) := by
  by_cases hl : last = some 'C'
  · rw [if_pos hl, hC hl, if_pos rfl, hl]; rfl
  · rw [if_neg hl]
    have := fill_Cs prev 0 (baseF d q (some 'C') s)
    simpa using this

/-- What is left after a mask for a text that begins outside of quotes. -/
theorem masked_fill {d q : Char} (hd : isNL d = false) (hq : isNL q = false) (hdq : d ≠ q) (hq0 : q ≠ NUL) (t : Str)
    (hnul : NUL ∉ t) :
    (t.count q % 2 = 0 → ∀ prev last last', (last = some 'R' ↔ last' = some 'R') → (last = some 'C' → prev = 'C') →
      (last' = some 'C' → prev = 'C') →
      fill prev (mergeLoop (baseF d q last t) none) = fill prev (baseF d NUL last' (mask q false t))) ∧
    (t.count q % 2 = 1 → ∀ prev last blk,
      fill prev (mergeLoop (baseF d q last t) (some blk)) =
        (if prev = 'C' then [] else ['C']) ++ fill 'C' (baseF d NUL (some 'C') (mask q true t))) := by
  induction h : t.length using Nat.strongRecOn generalizing t with
  | _ n ih =>
  subst h
  cases t with
  | nil =>
    refine ⟨fun _ prev last last' _ _ _ => rfl, fun h => ?_⟩
    simp at h
  | cons c t =>
    have hn : NUL ∉ t := fun h => hnul (by simp [h])
    have hc0 : c ≠ NUL := fun h => hnul (by simp [h])
    obtain ⟨ih1, ih2⟩ := ih t.length (by simp) t hn rfl
    constructor
    · intro hcnt prev last last' hR hC hC'
      by_cases hcq : c = q
      · subst hcq
        rw [List.count_cons_self] at hcnt
        have hodd : t.count c % 2 = 1 := by omega
        have e1 : baseF d c last (c :: t) = 'Q' :: baseF d c (some 'Q') t := by
          rw [baseF, if_neg (by simp [hq]), if_neg (Ne.symm hdq), if_pos rfl]
        have e2 : mask c false (c :: t) = c :: mask c true t := by simp [mask]
        rw [e1, e2, mergeLoop, if_neg (by decide), ih2 hodd]
        have e3 : baseF d NUL last' (c :: mask c true t) = if last' = some 'C' then baseF d NUL last' (mask c true t)
            else 'C' :: baseF d NUL (some 'C') (mask c true t) := by
          rw [baseF, if_neg (by simp [hq]), if_neg (Ne.symm hdq), if_neg hc0]
        rw [e3, fill_skip hC']
      · have hcnt' : t.count q % 2 = 0 := by rwa [List.count_cons_of_ne hcq] at hcnt
        have e2 : mask q false (c :: t) = c :: mask q false t := by
          have : (c == q) = false := by simpa using hcq
          simp [mask, this]
        rw [e2, baseF, baseF]
        by_cases h1 : isNL c = true
        · rw [if_pos h1, if_pos h1]
          by_cases hl : last = some 'R'
          · rw [if_pos hl, if_pos (hR.1 hl)]
            exact ih1 hcnt' prev last last' hR hC hC'
          · rw [if_neg hl, if_neg fun h => hl (hR.2 h), mergeLoop, if_pos (by decide), fill, fill,
              ih1 hcnt' 'R' (some 'R') (some 'R') Iff.rfl (by simp) (by simp)]
        · rw [if_neg h1, if_neg h1]
          by_cases h2 : c = d
          · rw [if_pos h2, if_pos h2, mergeLoop, if_pos (by decide), fill, fill,
              ih1 hcnt' 'D' (some 'D') (some 'D') Iff.rfl (by simp) (by simp)]
          · rw [if_neg h2, if_neg h2, if_neg hcq, if_neg hc0]
            have hL : fill prev (mergeLoop (if last = some 'C' then baseF d q last t else 'C' :: baseF d q (some 'C') t) none) =
                (if prev = 'C' then [] else ['C']) ++ fill 'C' (baseF d NUL (some 'C') (mask q false t)) := by
              split
              · rename_i hl
                rw [hC hl, if_pos rfl, hl]
                exact ih1 hcnt' 'C' (some 'C') (some 'C') Iff.rfl (by simp) (by simp)
              · rw [mergeLoop, if_pos (by decide)]
                have := fill_Cs prev 0 (mergeLoop (baseF d q (some 'C') t) none)
                simp only [Nat.zero_add, List.replicate_one, List.singleton_append] at this
                rw [this, ih1 hcnt' 'C' (some 'C') (some 'C') Iff.rfl (by simp) (by simp)]
            rw [hL, fill_skip hC']
    · intro hcnt prev last blk
      have hbase : ∀ s : Str, baseF d NUL (some 'C') (q :: s) = baseF d NUL (some 'C') s := by
        intro s
        rw [baseF, if_neg (by simp [hq]), if_neg (Ne.symm hdq), if_neg hq0, if_pos rfl]
      by_cases hcq : c = q
      · subst hcq
        rw [List.count_cons_self] at hcnt
        have heven : t.count c % 2 = 0 := by omega
        have e1 : baseF d c last (c :: t) = 'Q' :: baseF d c (some 'Q') t := by
          rw [baseF, if_neg (by simp [hq]), if_neg (Ne.symm hdq), if_pos rfl]
        have e2 : mask c true (c :: t) = c :: mask c false t := by simp [mask]
        rw [e1, e2, hbase]
        cases t with
        | nil =>
          have := fill_Cs prev blk.length []
          simpa [baseF, mergeLoop, mask] using this
        | cons c' t' =>
          have hn' : NUL ∉ t' := fun h => hn (by simp [h])
          by_cases hcq' : c' = c
          · subst hcq'
            rw [List.count_cons_self] at heven
            have hodd : t'.count c' % 2 = 1 := by omega
            have e3 : baseF d c' (some 'Q') (c' :: t') = 'Q' :: baseF d c' (some 'Q') t' := by
              rw [baseF, if_neg (by simp [hq]), if_neg (Ne.symm hdq), if_pos rfl]
            have e4 : mask c' false (c' :: t') = c' :: mask c' true t' := by simp [mask]
            rw [e3, e4, hbase, mergeLoop, if_neg (by decide)]
            simp only [if_true]
            exact (ih t'.length (by simp; omega) t' hn' rfl).2 hodd prev (some 'Q') _
          · have hclose : mergeLoop ('Q' :: baseF d c (some 'Q') (c' :: t')) (some blk) =
                List.replicate (blk.length + 1) 'C' ++ mergeLoop (baseF d c (some 'Q') (c' :: t')) none := by
              have hne : ∃ x s, baseF d c (some 'Q') (c' :: t') = x :: s ∧ x ≠ 'Q' := by
                rw [baseF, if_neg hcq', if_neg (show ¬ some 'Q' = some 'R' by decide),
                  if_neg (show ¬ some 'Q' = some 'C' by decide)]
                by_cases h1 : isNL c' = true
                · rw [if_pos h1]; exact ⟨_, _, rfl, by decide⟩
                · rw [if_neg h1]
                  by_cases h2 : c' = d
                  · rw [if_pos h2]; exact ⟨_, _, rfl, by decide⟩
                  · rw [if_neg h2]; exact ⟨_, _, rfl, by decide⟩
              obtain ⟨x, s, hxs, hx⟩ := hne
              rw [hxs]
              conv => lhs; rw [mergeLoop]
              simp [hx]
            rw [hclose, fill_Cs]
            congr 1
            exact ih1 heven 'C' (some 'Q') (some 'C') (by simp) (by simp) (by simp)
      · have hcnt' : t.count q % 2 = 1 := by rwa [List.count_cons_of_ne hcq] at hcnt
        have e2 : mask q true (c :: t) = q :: mask q true t := by
          have : (c == q) = false := by simpa using hcq
          simp [mask, this]
        rw [e2, hbase]
        have hpush : ∀ (x : Char) (u : Str), x ≠ 'Q' → mergeLoop (x :: u) (some blk) = mergeLoop u (some (x :: blk)) := by
          intro x u hx
          cases u <;> simp [mergeLoop, hx]
        have : ∃ last' blk', mergeLoop (baseF d q last (c :: t)) (some blk) = mergeLoop (baseF d q last' t) (some blk') := by
          rw [baseF]
          by_cases h1 : isNL c = true
          · rw [if_pos h1]
            by_cases hl : last = some 'R'
            · rw [if_pos hl]; exact ⟨_, _, rfl⟩
            · rw [if_neg hl]; exact ⟨_, _, hpush _ _ (by decide)⟩
          · rw [if_neg h1]
            by_cases h2 : c = d
            · rw [if_pos h2]; exact ⟨_, _, hpush _ _ (by decide)⟩
            · rw [if_neg h2, if_neg hcq]
              by_cases hl : last = some 'C'
              · rw [if_pos hl]; exact ⟨_, _, rfl⟩
              · rw [if_neg hl]; exact ⟨_, _, hpush _ _ (by decide)⟩
        obtain ⟨last', blk', he⟩ := this
        rw [he]
        exact ih2 hcnt' prev last' blk'

/-- The abstraction of a text with balanced quotes. -/
theorem abstraction_mask {d q : Char} (hd : isNL d = false) (hq : isNL q = false) (hdq : d ≠ q) (hq0 : q ≠ NUL) (t : Str)
    (hnul : NUL ∉ t) (heven : t.count q % 2 = 0) : abstraction d q NUL t = abstraction d NUL NUL (mask q false t) := by
  rw [abstraction_eq, abstraction_eq, base_eq_baseF d q t hnul, base_eq_baseF d NUL _ (mask_nul hq0 hnul false)]
  have hnoQ : 'Q' ∉ baseF d NUL none (mask q false t) := by
    exact baseF_noQ _ _ (mask_nul hq0 hnul false) _
  rw [mergeLoop_noQ _ hnoQ]
  rw [(masked_fill hd hq hdq hq0 t hnul).1 heven 'R' none none Iff.rfl (by simp) (by simp)]

/-! ## Records and cells of the masked text -/

theorem head_mask (q : Char) (t : Str) : (mask q false t).head? = t.head? := by
  cases t <;> simp [mask]

theorem mask_eq_nil {q : Char} {b : Bool} {t : Str} : mask q b t = [] ↔ t = [] := by
  cases t with
  | nil => simp [mask]
  | cons c t => cases b <;> simp [mask]

/-- The masks of records, of which the first may begin between quotes. -/
def maskRecs (q : Char) (b : Bool) : List Str → List Str
  | [] => []
  | r :: rs => mask q b r :: rs.map (mask q false)

theorem maskRecs_false (q : Char) (L : List Str) : maskRecs q false L = L.map (mask q false) := by
  cases L <;> rfl

theorem textLines_mask {q : Char} (hq : isNL q = false) (t : Str) (b : Bool) :
    textLines (mask q b t) = maskRecs q b (records q b t) := by
  have hq1 : q ≠ '\r' := by rintro rfl; exact absurd hq (by decide)
  have hq2 : q ≠ '\n' := by rintro rfl; exact absurd hq (by decide)
  induction t generalizing b with
  | nil => cases b <;> rfl
  | cons c t ih =>
    cases b with
    | true =>
      have e : mask q true (c :: t) = q :: mask q (!(c == q)) t := by simp [mask]
      rw [e, textLines, if_neg (by simp [hq1]), if_neg (by simp [hq1, hq2]), ih, records]
      simp only [Bool.true_eq_false, false_and, if_false, Bool.true_xor]
      cases records q (!(c == q)) t with
      | nil => simp [consHead, maskRecs, mask]
      | cons r rs => simp [consHead, maskRecs, mask]
    | false =>
      have e : mask q false (c :: t) = c :: mask q (c == q) t := by simp [mask]
      rw [e, textLines, records]
      by_cases h1 : c = '\r' ∧ t.head? = some '\n'
      · have hcq : (c == q) = false := by simpa [h1.1] using Ne.symm hq1
        rw [hcq, head_mask, if_pos h1, if_pos ⟨rfl, h1⟩, ih]
      · by_cases h2 : c = '\n' ∨ c = '\r'
        · have hcq : (c == q) = false := by
            rcases h2 with rfl | rfl
            · simpa using Ne.symm hq2
            · simpa using Ne.symm hq1
          have h1' : ¬ (false = false ∧ c = '\r' ∧ t.head? = some '\n') := fun h => h1 h.2
          rw [hcq, head_mask, if_neg h1, if_pos h2, if_neg h1', if_pos ⟨rfl, h2⟩, ih, maskRecs_false]
          rfl
        · have h1' : ¬ (c = '\r' ∧ (mask q (c == q) t).head? = some '\n') := fun h => h2 (.inr h.1)
          have h3 : ¬ (false = false ∧ c = '\r' ∧ t.head? = some '\n') := fun h => h1 h.2
          have h4 : ¬ (false = false ∧ (c = '\n' ∨ c = '\r')) := fun h => h2 h.2
          rw [if_neg h1', if_neg h2, if_neg h3, if_neg h4, ih]
          simp only [Bool.false_xor]
          cases records q (c == q) t with
          | nil => simp [consHead, maskRecs, mask]
          | cons r rs => simp [consHead, maskRecs, mask]

theorem rawCells_ne (d q : Char) (b : Bool) (r : Str) : rawCells d q b r ≠ [] := by
  cases r with
  | nil => simp [rawCells]
  | cons c r =>
    rw [rawCells]
    split
    · simp
    · cases rawCells d q (b ^^ (c == q)) r <;> simp [consHead]

theorem length_splitOn_mask {d q : Char} (hdq : d ≠ q) (r : Str) (b : Bool) :
    (splitOn d (mask q b r)).length = (rawCells d q b r).length := by
  have hcons : ∀ {x y : Char} {L L' : List Str}, L ≠ [] → L' ≠ [] → L.length = L'.length →
      (consHead x L).length = (consHead y L').length := by
    intro x y L L' h1 h2 h3
    cases L with
    | nil => exact absurd rfl h1
    | cons a L =>
      cases L' with
      | nil => exact absurd rfl h2
      | cons a' L' => simpa [consHead] using h3
  have hne : ∀ s : Str, splitOn d s ≠ [] := fun s h => by
    have := length_splitOn_pos d s
    rw [h] at this
    simp at this
  induction r generalizing b with
  | nil => rfl
  | cons c r ih =>
    cases b with
    | true =>
      have e : mask q true (c :: r) = q :: mask q (!(c == q)) r := by simp [mask]
      rw [e, splitOn, if_neg (Ne.symm hdq), rawCells]
      simp only [Bool.true_eq_false, false_and, and_false, if_false, Bool.true_xor]
      exact hcons (hne _) (rawCells_ne _ _ _ _) (ih _)
    | false =>
      have e : mask q false (c :: r) = c :: mask q (c == q) r := by simp [mask]
      rw [e, splitOn, rawCells]
      by_cases h : c = d
      · have hcq : (c == q) = false := by rw [h]; simpa using hdq
        rw [hcq, if_pos h, if_pos ⟨by simpa using hcq, rfl, h⟩]
        simp [ih]
      · rw [if_neg h, if_neg (by simp [h])]
        simp only [Bool.false_xor]
        exact hcons (hne _) (rawCells_ne _ _ _ _) (ih _)

/-- The row patterns of a text with balanced quotes. -/
theorem rows_quoted {d q : Char} (hd : isNL d = false) (hq : isNL q = false) (hdq : d ≠ q) (hq0 : q ≠ NUL) (t : Str)
    (hnul : NUL ∉ t) (hne : t ≠ []) (hhd : ∀ c, t.head? = some c → isNL c = false) (heven : t.count q % 2 = 0) :
    splitChar 'R' (abstraction d q NUL t) =
      ((records q false t).filter (· ≠ [])).map fun r => pat ((rawCells d q false r).length - 1) := by
  rw [abstraction_mask hd hq hdq hq0 t hnul heven, rows_plain d _ (mask_nul hq0 hnul false) (by simpa [mask_eq_nil] using hne)
    (by rw [head_mask]; exact hhd), nonblank, textLines_mask hq, maskRecs_false]
  induction records q false t with
  | nil => rfl
  | cons r rs ih =>
    rw [List.map_cons]
    by_cases h : r = []
    · simpa [h, mask] using ih
    · have h' : mask q false r ≠ [] := by simpa [mask_eq_nil] using h
      rw [List.filter_cons_of_pos (by simpa using h'), List.filter_cons_of_pos (by simpa using h), List.map_cons,
        List.map_cons, ih, length_splitOn_mask hdq]

end Clever
