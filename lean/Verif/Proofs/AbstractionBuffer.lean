import Verif.Model.AbstractionBuffer
import Verif.Proofs.ParserBuffer

/-!
# `src/abstraction.c` with explicit buffers refines the list model
-/

namespace Clever

/-! ## `base_abstraction` -/

/-- List view. -/
def AbsBuf.abs (b : AbsBuf) : AbsState := ((b.stack.take b.len).reverse, b.escapeNext)

theorem AbsBuf.push_ok (b : AbsBuf) (h : b.len < b.stack.length) (x : Char) :
    ∃ b', b.push x = .ok b' ∧ b'.abs = (x :: b.abs.1, b.abs.2) ∧ b'.len = b.len + 1 ∧
      b'.stack.length = b.stack.length := by
  have hp : b.push x = .ok { b with stack := b.stack.set b.len x, len := b.len + 1 } := by
    simp only [AbsBuf.push, memWrite, h, if_true]
  refine ⟨_, hp, ?_, rfl, by simp⟩
  simp only [AbsBuf.abs, Prod.mk.injEq, and_true]
  rw [List.take_add_one, List.take_set_of_le (Nat.le_refl _)]
  simp [h]

theorem AbsBuf.pushNew_ok (b : AbsBuf) (h : b.len < b.stack.length) (x : Char) :
    ∃ b', b.pushNew x = .ok b' ∧ b'.abs = (Clever.pushNew x b.abs.1, b.abs.2) ∧
      b'.len ≤ b.len + 1 ∧ b'.stack.length = b.stack.length := by
  obtain ⟨b', e1, e2, e3, e4⟩ := b.push_ok h x
  unfold AbsBuf.pushNew
  by_cases h0 : b.len = 0
  · rw [if_pos h0]
    refine ⟨b', e1, ?_, by omega, e4⟩
    rw [e2]; simp [Clever.pushNew, AbsBuf.abs, h0]
  · rw [if_neg h0]
    have hr : memRead b.stack (b.len - 1) = .ok b.stack[b.len - 1] := by
      simp [memRead, List.getElem?_eq_getElem (show b.len - 1 < b.stack.length by omega)]
    have hhead : b.abs.1.head? = some b.stack[b.len - 1] := by
      simp only [AbsBuf.abs, List.head?_reverse, List.getLast?_eq_getElem?, List.length_take]
      rw [Nat.min_eq_left (by omega), List.getElem?_take, if_pos (by omega),
        List.getElem?_eq_getElem]
    rw [hr]
    simp only
    by_cases hx : b.stack[b.len - 1] = x
    · rw [if_neg (by simpa using hx)]
      exact ⟨b, rfl, by simp [Clever.pushNew, hhead, hx], by omega, rfl⟩
    · rw [if_pos hx]
      exact ⟨b', e1, by rw [e2]; simp [Clever.pushNew, hhead, hx], by omega, e4⟩

theorem absStepB_ok (d q e : Char) (b : AbsBuf) (h : b.len < b.stack.length) (s : Char) :
    ∃ b', absStepB d q e b s = .ok b' ∧ b'.abs = absStep d q e b.abs s ∧ b'.len ≤ b.len + 1 ∧
      b'.stack.length = b.stack.length := by
  have hesc : b.abs.2 = b.escapeNext := rfl
  have hmap : ∀ (r : Except BErr AbsBuf) (st : List Char),
      (∃ b', r = .ok b' ∧ b'.abs = (st, b.abs.2) ∧ b'.len ≤ b.len + 1 ∧
        b'.stack.length = b.stack.length) →
      ∃ b', r.map (AbsBuf.esc false) = .ok b' ∧ b'.abs = (st, false) ∧ b'.len ≤ b.len + 1 ∧
        b'.stack.length = b.stack.length := by
    rintro r st ⟨b', rfl, h2, h3, h4⟩
    refine ⟨AbsBuf.esc false b', rfl, ?_, h3, h4⟩
    have := congrArg Prod.fst h2
    exact Prod.ext this rfl
  have hpush : ∀ x, ∃ b', b.push x = .ok b' ∧ b'.abs = (x :: b.abs.1, b.abs.2) ∧
      b'.len ≤ b.len + 1 ∧ b'.stack.length = b.stack.length := by
    intro x
    obtain ⟨b', e1, e2, e3, e4⟩ := b.push_ok h x
    exact ⟨b', e1, e2, by omega, e4⟩
  unfold absStepB absStep
  rw [hesc]
  by_cases h1 : s = '\r' ∨ s = '\n'
  · rw [if_pos h1, if_pos h1]; exact b.pushNew_ok h 'R'
  rw [if_neg h1, if_neg h1]
  by_cases h2 : s = d
  · rw [if_pos h2, if_pos h2]
    cases hx : b.escapeNext with
    | true => exact hmap _ _ (hpush 'C')
    | false => rw [hesc, hx] at hpush; exact hpush 'D'
  rw [if_neg h2, if_neg h2]
  by_cases h3 : s = q
  · rw [if_pos h3, if_pos h3]
    cases hx : b.escapeNext with
    | true => exact hmap _ _ (hpush 'C')
    | false => rw [hesc, hx] at hpush; exact hpush 'Q'
  rw [if_neg h3, if_neg h3]
  by_cases h4 : s = e
  · rw [if_pos h4, if_pos h4]
    cases b.escapeNext with
    | true => exact hmap _ _ (b.pushNew_ok h 'C')
    | false => exact ⟨_, rfl, rfl, by simp [AbsBuf.esc], rfl⟩
  rw [if_neg h4, if_neg h4]
  exact (AbsBuf.esc false b).pushNew_ok h 'C'

theorem growStack_ok (junk : Nat → Char) (b : AbsBuf) (h : b.len ≤ b.stack.length)
    (h0 : 0 < b.stack.length) :
    (growStack junk b).abs = b.abs ∧ (growStack junk b).len < (growStack junk b).stack.length ∧
      b.stack.length ≤ (growStack junk b).stack.length := by
  unfold growStack
  by_cases hf : b.len = b.stack.length
  · rw [if_pos hf]
    refine ⟨?_, ?_, ?_⟩
    · simp only [AbsBuf.abs, memGrow]
      rw [List.take_append_of_le_length h]
    · simp only [length_memGrow]; omega
    · simp only [length_memGrow]; omega
  · rw [if_neg hf]; exact ⟨rfl, by omega, by omega⟩

theorem absLoopB_ok (junk : Nat → Char) (d q e : Char) (data : Str) (b : AbsBuf)
    (h : b.len < b.stack.length) :
    ∃ b', absLoopB junk d q e b data = .ok b' ∧ b'.abs = data.foldl (absStep d q e) b.abs ∧
      b'.len < b'.stack.length := by
  induction data generalizing b with
  | nil => exact ⟨b, rfl, rfl, h⟩
  | cons s rest ih =>
    obtain ⟨b1, e1, e2, e3, e4⟩ := absStepB_ok d q e b h s
    obtain ⟨g1, g2, _⟩ := growStack_ok junk b1 (by omega) (by omega)
    obtain ⟨b', i1, i2, i3⟩ := ih (growStack junk b1) g2
    refine ⟨b', by rw [absLoopB, e1]; exact i1, ?_, i3⟩
    rw [i2, g1, e2]; rfl

theorem baseAbstractionB_eq (junk : Nat → Char) (d q e : Char) (data : Str) :
    baseAbstractionB junk d q e data = .ok (baseAbstraction d q e data) := by
  obtain ⟨b', e1, e2, e3⟩ := absLoopB_ok junk d q e data ⟨List.replicate 4096 NUL, 0, false⟩
    (by rw [List.length_replicate]; exact Nat.succ_pos 4095)
  rw [baseAbstractionB, e1]
  simp only [memPrefix, if_pos (Nat.le_of_lt e3), Except.ok.injEq]
  have := congrArg Prod.fst e2
  simp only [AbsBuf.abs, List.take_zero, List.reverse_nil] at this
  rw [baseAbstraction, ← this, List.reverse_reverse]

/-! ## `c_merge_with_quotechar` -/

theorem overwriteB_ok (X Y Z : List Char) :
    overwriteB Y.length X.length (X ++ Y ++ Z) = .ok (X ++ List.replicate Y.length 'C' ++ Z) := by
  induction Y generalizing X with
  | nil => simp [overwriteB]
  | cons y ys ih =>
    have hw : memWrite (X ++ (y :: ys) ++ Z) X.length 'C' = .ok ((X ++ ['C']) ++ ys ++ Z) := by
      rw [memWrite, if_pos (by simp)]
      simp
    rw [List.length_cons, overwriteB, hw]
    have := ih (X ++ ['C'])
    simp only [List.length_append, List.length_cons, List.length_nil, Nat.zero_add] at this
    simp only [this, List.replicate_succ, Except.ok.injEq]
    simp

theorem overwriteAllB_congr (l r l' r' : List Nat) (n j : Nat) (out : List Char)
    (hl : ∀ k, k < j + n → l[k]? = l'[k]?) (hr : ∀ k, k < j + n → r[k]? = r'[k]?) :
    overwriteAllB l r n j out = overwriteAllB l' r' n j out := by
  induction n generalizing j out with
  | zero => rfl
  | succ n ih =>
    simp only [overwriteAllB, memRead, hl j (by omega), hr j (by omega)]
    cases l'[j]? with
    | none => rfl
    | some lo =>
      cases r'[j]? with
      | none => rfl
      | some hi =>
        simp only
        cases overwriteB (hi + 1 - lo) lo out with
        | error e => rfl
        | ok out' => exact ih (j + 1) out' (fun k hk => hl k (by omega)) (fun k hk => hr k (by omega))

theorem overwriteAllB_succ (l r : List Nat) (n j : Nat) (out out' : List Char)
    (h : overwriteAllB l r n j out = .ok out') (lo hi : Nat) (hl : l[j + n]? = some lo)
    (hr : r[j + n]? = some hi) :
    overwriteAllB l r (n + 1) j out = overwriteB (hi + 1 - lo) lo out' := by
  induction n generalizing j out with
  | zero =>
    simp only [overwriteAllB, Except.ok.injEq] at h
    subst h
    simp only [Nat.add_zero] at hl hr
    simp only [overwriteAllB, memRead, hl, hr]
    cases overwriteB (hi + 1 - lo) lo out <;> rfl
  | succ n ih =>
    rw [overwriteAllB] at h ⊢
    cases h1 : memRead l j with
    | error e => rw [h1] at h; simp at h
    | ok lo' =>
      cases h2 : memRead r j with
      | error e => rw [h1, h2] at h; simp at h
      | ok hi' =>
        rw [h1, h2] at h
        simp only at h ⊢
        cases h3 : overwriteB (hi' + 1 - lo') lo' out with
        | error e => rw [h3] at h; simp at h
        | ok out1 =>
          rw [h3] at h
          simp only at h ⊢
          exact ih (j + 1) out1 h (by rw [← hl]; congr 1; omega) (by rw [← hr]; congr 1; omega)

/-- Relation between the buffers after `i` characters and the list model: `A` is the output before
the current block, `B` the block so far, `P` is `A` after the overwriting of the closed blocks. -/
structure MInv (s : Str) (i : Nat) (A B P : Str) (b : MergeBuf) : Prop where
  out : b.out = A ++ B ++ List.replicate (s.length - i) NUL
  len : A.length + B.length = i
  le : i ≤ s.length
  sizes : b.l.length = b.r.length
  idx : b.idx < b.r.length
  block : if b.inQuotes then b.l[b.idx]? = some A.length else B = []
  over : ∀ Z, overwriteAllB b.l b.r b.idx 0 (A ++ Z) = .ok (P ++ Z)
  plen : P.length = A.length

theorem memWrite_mid (X Z : List Char) (n : Nat) (hn : n = X.length) (c d : Char) :
    memWrite (X ++ d :: Z) n c = .ok (X ++ c :: Z) := by
  subst hn
  rw [memWrite, if_pos (by simp)]
  simp

theorem mergeLoopB_ok (junk : Nat → Nat) (s : Str) (n i : Nat) (hn : s.length ≤ i + n)
    (A B P : Str) (b : MergeBuf) (h : MInv s i A B P b) :
    ∃ b', mergeLoopB junk s n i b = .ok b' ∧ b'.out.length = s.length ∧
      overwriteAllB b'.l b'.r b'.idx 0 b'.out =
        .ok (P ++ mergeLoop (s.drop i) (if b.inQuotes then some B.reverse else none)) := by
  induction n generalizing i A B P b with
  | zero =>
    have hi : i = s.length := by have := h.le; omega
    refine ⟨b, rfl, ?_, ?_⟩
    · rw [h.out]; simp [hi]; have := h.len; omega
    · rw [h.out, hi, Nat.sub_self, List.replicate_zero, List.append_nil, h.over, List.drop_length]
      have hb := h.block
      cases hq : b.inQuotes with
      | true => simp [mergeLoop]
      | false => rw [hq] at hb; simp at hb; simp [mergeLoop, hb]
  | succ n ih =>
    by_cases hi : i < s.length
    · rw [mergeLoopB, if_pos hi]
      have hread : memRead s i = .ok s[i] := by simp [memRead, List.getElem?_eq_getElem hi]
      have hrep : List.replicate (s.length - i) NUL = NUL :: List.replicate (s.length - (i + 1)) NUL := by
        rw [← List.replicate_succ]; congr 1; omega
      have hwrite : memWrite b.out i s[i] =
          .ok (A ++ B ++ s[i] :: List.replicate (s.length - (i + 1)) NUL) := by
        rw [h.out, hrep]
        exact memWrite_mid (A ++ B) _ i (by simp [h.len]) _ _
      rw [hread]
      simp only
      rw [hwrite]
      simp only
      rw [List.drop_eq_getElem_cons hi]
      have hblock := h.block
      have hlen := h.len
      by_cases hc : s[i] ≠ 'Q'
      · rw [if_pos hc]
        rcases Bool.eq_false_or_eq_true b.inQuotes with hq | hq
        rotate_left
        · -- not in quotes
          rw [hq] at hblock
          simp only [Bool.false_eq_true, if_false] at hblock
          subst hblock
          obtain ⟨b', e1, e2, e3⟩ := ih (i + 1) (by omega) (A ++ [s[i]]) [] (P ++ [s[i]])
            { b with out := A ++ [] ++ s[i] :: List.replicate (s.length - (i + 1)) NUL }
            ⟨by simp, by simp at hlen ⊢; omega, by omega, h.sizes, h.idx, by simp [hq],
              by intro Z; have := h.over (s[i] :: Z); simpa using this, by simp [h.plen]⟩
          refine ⟨b', e1, e2, ?_⟩
          rw [e3]
          simp [hq, mergeLoop, hc, -List.getElem_cons_drop]
        · -- in quotes
          rw [hq] at hblock
          simp only [if_true] at hblock
          obtain ⟨b', e1, e2, e3⟩ := ih (i + 1) (by omega) A (B ++ [s[i]]) P
            { b with out := A ++ B ++ s[i] :: List.replicate (s.length - (i + 1)) NUL }
            ⟨by simp, by simp; omega, by omega, h.sizes, h.idx, by simp [hq, hblock],
              h.over, h.plen⟩
          refine ⟨b', e1, e2, ?_⟩
          rw [e3]
          have : ∀ rest blk : Str, mergeLoop (s[i] :: rest) (some blk) =
              mergeLoop rest (some (s[i] :: blk)) := by
            intro rest blk; cases rest <;> simp [mergeLoop, hc]
          simp [hq, this, -List.getElem_cons_drop]
      · have hcq : s[i] = 'Q' := by simpa using hc
        rw [if_neg hc]
        rcases Bool.eq_false_or_eq_true b.inQuotes with hq | hq
        rotate_left
        · -- not in quotes
          rw [hq] at hblock
          simp only [Bool.false_eq_true, if_false] at hblock
          subst hblock
          rw [if_pos hq]
          have hw : memWrite b.l b.idx i = .ok (b.l.set b.idx i) := by
            rw [memWrite, if_pos (by rw [h.sizes]; exact h.idx)]
          rw [hw]
          simp only
          obtain ⟨b', e1, e2, e3⟩ := ih (i + 1) (by omega) A ['Q'] P
            { b with out := A ++ [] ++ s[i] :: List.replicate (s.length - (i + 1)) NUL
                     l := b.l.set b.idx i, inQuotes := true }
            ⟨by simp [hcq], by simp at hlen ⊢; omega, by omega, by simp [h.sizes], h.idx,
              by
                have : b.idx < b.l.length := by rw [h.sizes]; exact h.idx
                simp at hlen
                simp [this, hlen],
              by
                intro Z
                rw [← h.over Z]
                apply overwriteAllB_congr
                · intro k hk
                  simp only [Nat.zero_add] at hk
                  rw [List.getElem?_set_ne (by omega)]
                · intro k hk; rfl, h.plen⟩
          refine ⟨b', e1, e2, ?_⟩
          rw [e3]
          simp [hq, mergeLoop, hcq, -List.getElem_cons_drop]
        · -- in quotes
          rw [hq] at hblock
          simp only [if_true] at hblock
          rw [if_neg (by rw [hq]; simp)]
          have hclose : (¬ (i + 1 < s.length ∧ s[i + 1]? = some 'Q')) →
              ∃ b', (match closeBlock junk
                  { b with out := A ++ B ++ s[i] :: List.replicate (s.length - (i + 1)) NUL } i with
                | .error e => Except.error e
                | .ok b => mergeLoopB junk s n (i + 1) b) = Except.ok b' ∧ b'.out.length = s.length ∧
                overwriteAllB b'.l b'.r b'.idx 0 b'.out =
                  .ok (P ++ (List.replicate (B.length + 1) 'C' ++ mergeLoop (s.drop (i + 1)) none)) := by
            intro _
            have hw : memWrite b.r b.idx i = .ok (b.r.set b.idx i) := by
              rw [memWrite, if_pos h.idx]
            have hidx := h.idx
            have hsz := h.sizes
            have hover : ∀ (l r : List Nat), (∀ k, k ≤ b.idx → l[k]? = b.l[k]?) →
                (∀ k, k ≤ b.idx → r[k]? = (b.r.set b.idx i)[k]?) →
                ∀ Z, overwriteAllB l r (b.idx + 1) 0 (A ++ B ++ ['Q'] ++ Z) =
                  .ok (P ++ List.replicate (B.length + 1) 'C' ++ Z) := by
              intro l r hl hr Z
              have h1 : overwriteAllB l r b.idx 0 (A ++ (B ++ ['Q'] ++ Z)) =
                  .ok (P ++ (B ++ ['Q'] ++ Z)) := by
                rw [← h.over]
                apply overwriteAllB_congr
                · intro k hk; exact hl k (by omega)
                · intro k hk
                  rw [hr k (by omega), List.getElem?_set_ne (by omega)]
              have h2 := overwriteAllB_succ l r b.idx 0 _ _ h1 A.length i
                (by rw [hl _ (by omega)]; simpa using hblock)
                (by rw [hr _ (by omega)]; simp [hidx])
              have h3 := overwriteB_ok P (B ++ ['Q']) Z
              rw [h.plen] at h3
              have hcount : (B ++ ['Q']).length = i + 1 - A.length := by simp; omega
              simp only [hcount] at h3
              simp only [List.append_assoc] at h1 h2 h3 ⊢
              rw [h2, h3]
              have : i + 1 - A.length = B.length + 1 := by omega
              rw [this]
            simp only [closeBlock, hw]
            by_cases hfull : b.idx + 1 = (b.r.set b.idx i).length
            · rw [if_pos hfull]
              simp only
              obtain ⟨b', e1, e2, e3⟩ := ih (i + 1) (by omega) (A ++ B ++ ['Q']) []
                (P ++ List.replicate (B.length + 1) 'C')
                { l := memGrow junk b.l (2 * (b.r.set b.idx i).length)
                  r := memGrow junk (b.r.set b.idx i) (2 * (b.r.set b.idx i).length)
                  idx := b.idx + 1, inQuotes := false
                  out := A ++ B ++ s[i] :: List.replicate (s.length - (i + 1)) NUL }
                ⟨by simp [hcq], by simp; omega, by omega,
                  by simp only [length_memGrow, List.length_set]; rw [hsz],
                  by simp only [length_memGrow, List.length_set] at hfull ⊢; omega,
                  by simp,
                  by
                    apply hover
                    · intro k hk
                      simp only [memGrow]
                      rw [List.getElem?_append_left (by omega)]
                    · intro k hk
                      simp only [memGrow]
                      rw [List.getElem?_append_left (by simp; omega)],
                  by simp [h.plen]⟩
              exact ⟨b', e1, e2, by rw [e3]; simp⟩
            · rw [if_neg hfull]
              simp only
              obtain ⟨b', e1, e2, e3⟩ := ih (i + 1) (by omega) (A ++ B ++ ['Q']) []
                (P ++ List.replicate (B.length + 1) 'C')
                { l := b.l, r := b.r.set b.idx i, idx := b.idx + 1, inQuotes := false
                  out := A ++ B ++ s[i] :: List.replicate (s.length - (i + 1)) NUL }
                ⟨by simp [hcq], by simp; omega, by omega, by simp [hsz],
                  by simp at hfull ⊢; omega, by simp,
                  by
                    apply hover
                    · intro k hk; rfl
                    · intro k hk; rfl,
                  by simp [h.plen]⟩
              exact ⟨b', e1, e2, by rw [e3]; simp⟩
          by_cases hlast : i + 1 < s.length
          · have hr2 : memRead s (i + 1) = .ok s[i + 1] := by
              simp [memRead, List.getElem?_eq_getElem hlast]
            rw [if_pos hlast, hr2]
            simp only
            rw [List.drop_eq_getElem_cons hlast]
            by_cases ht : s[i + 1] = 'Q'
            · rw [if_pos ⟨hlast, ht⟩]
              have hrep2 : List.replicate (s.length - (i + 1)) NUL =
                  NUL :: List.replicate (s.length - (i + 2)) NUL := by
                rw [← List.replicate_succ]; congr 1; omega
              obtain ⟨b', e1, e2, e3⟩ := ih (i + 2) (by omega) A (B ++ ['Q', NUL]) P
                { b with out := A ++ B ++ s[i] :: List.replicate (s.length - (i + 1)) NUL }
                ⟨by simp [hcq, hrep2], by simp; omega, by omega, h.sizes, h.idx, by simp [hq, hblock],
                  h.over, h.plen⟩
              refine ⟨b', e1, e2, ?_⟩
              rw [e3]
              simp [hq, mergeLoop, hcq, ht, -List.getElem_cons_drop]
            · rw [if_neg (fun hh => ht hh.2)]
              obtain ⟨b', e1, e2, e3⟩ := hclose (by simp [List.getElem?_eq_getElem hlast, ht])
              refine ⟨b', e1, e2, ?_⟩
              rw [e3, List.drop_eq_getElem_cons hlast]
              simp [hq, mergeLoop, hcq, ht, -List.getElem_cons_drop]
          · rw [if_neg hlast]
            simp only
            rw [if_neg (fun hh => hlast hh.1)]
            obtain ⟨b', e1, e2, e3⟩ := hclose (fun hh => hlast hh.1)
            refine ⟨b', e1, e2, ?_⟩
            rw [e3, List.drop_eq_nil_of_le (by omega)]
            simp [hq, mergeLoop, hcq, -List.getElem_cons_drop]
    · have hi' : i = s.length := by have := h.le; omega
      rw [mergeLoopB, if_neg hi]
      refine ⟨b, rfl, ?_, ?_⟩
      · rw [h.out]; simp [hi']; have := h.len; omega
      · rw [h.out, hi', Nat.sub_self, List.replicate_zero, List.append_nil, h.over, List.drop_length]
        have hb := h.block
        cases hq : b.inQuotes with
        | true => simp [mergeLoop]
        | false => rw [hq] at hb; simp at hb; simp [mergeLoop, hb]

theorem mergeWithQuotecharB_eq (junk : Nat → Nat) (s : Str) :
    mergeWithQuotecharB junk s = .ok (mergeWithQuotechar s) := by
  unfold mergeWithQuotecharB mergeWithQuotechar
  by_cases h0 : s.length = 0
  · rw [if_pos h0]
    have : s = [] := by simpa using h0
    subst this; rfl
  · rw [if_neg h0]
    obtain ⟨b', e1, e2, e3⟩ := mergeLoopB_ok junk s s.length 0 (by omega) [] [] []
      ⟨(List.range 4).map junk, (List.range 4).map junk, 0, false, List.replicate s.length NUL⟩
      ⟨by simp, rfl, by omega, rfl, by simp, by simp, by intro Z; rfl, rfl⟩
    rw [e1]
    simp only [e3]
    have hlen : ∀ (n i : Nat) (out out' : List Char), overwriteB n i out = .ok out' →
        out'.length = out.length := by
      intro n
      induction n with
      | zero => intro i out out' h; simp [overwriteB] at h; rw [h]
      | succ n ih =>
        intro i out out' h
        rw [overwriteB, memWrite] at h
        by_cases hi : i < out.length
        · rw [if_pos hi] at h
          have := ih (i + 1) _ _ h
          simpa using this
        · rw [if_neg hi] at h; simp at h
    have hlenAll : ∀ (n j : Nat) (l r : List Nat) (out out' : List Char),
        overwriteAllB l r n j out = .ok out' → out'.length = out.length := by
      intro n
      induction n with
      | zero => intro j l r out out' h; simp [overwriteAllB] at h; rw [h]
      | succ n ih =>
        intro j l r out out' h
        rw [overwriteAllB] at h
        cases h1 : memRead l j with
        | error e => rw [h1] at h; simp at h
        | ok lo =>
          cases h2 : memRead r j with
          | error e => rw [h1, h2] at h; simp at h
          | ok hi =>
            rw [h1, h2] at h
            simp only at h
            cases h3 : overwriteB (hi + 1 - lo) lo out with
            | error e => rw [h3] at h; simp at h
            | ok out1 =>
              rw [h3] at h
              rw [ih _ _ _ _ _ h, hlen _ _ _ _ h3]
    have hl := hlenAll _ _ _ _ _ _ e3
    rw [e2] at hl
    simp only [List.drop_zero, List.nil_append, Bool.false_eq_true, if_false] at hl ⊢
    rw [memPrefix, if_pos (by omega), ← hl, List.take_length]

end Clever
