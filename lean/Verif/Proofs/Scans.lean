import Verif.Model.Scans

/-! # Reading a file in blocks -/

namespace Clever

theorem sha1Loop_eq {blk : Nat} (hb : 0 < blk) : ∀ (n : Nat) (b h : Bytes), b.length < n →
    sha1Loop blk n (b.take blk) (b.drop blk) h = h ++ b := by
  intro n
  induction n with
  | zero => intro b h hn; omega
  | succ n ih =>
    intro b h hn
    unfold sha1Loop
    by_cases h0 : b = []
    · subst h0
      simp
    · have hl : 0 < b.length := List.length_pos_iff.mpr h0
      rw [if_pos (by rw [List.length_take]; omega)]
      rw [ih (b.drop blk) _ (by rw [List.length_drop]; omega)]
      rw [List.append_assoc, List.take_append_drop]

/-- The detector after it has been fed some chunks. -/
def EncDetector.fed (det : EncDetector) (s : det.State) (chunks : List Bytes) : det.State :=
  chunks.foldl det.feed s

theorem sniffLoop_final (det : EncDetector) (blk n : Nat) (b : Bytes) (s : det.State) :
    sniffLoop det blk n true b s = (s, []) := by
  cases n <;> rfl

theorem sniffLoop_done (det : EncDetector) (blk n : Nat) (f : Bool) (b : Bytes) (s : det.State)
    (h : det.done s = true) : sniffLoop det blk n f b s = (s, []) := by
  cases n
  · rfl
  · unfold sniffLoop
    simp [h]

/-- What the loop does from a state in which no short chunk has been read. -/
theorem sniffLoop_spec (det : EncDetector) {blk : Nat} (hb : 0 < blk) : ∀ (n : Nat) (b : Bytes) (s : det.State),
    b.length + 1 < n →
    ∃ chunks, sniffLoop det blk n false b s = (det.fed s chunks, chunks) ∧
      chunks.flatten <+: b ∧
      (chunks.flatten = b ∧ (∃ l, chunks.getLast? = some l ∧ l.length < blk) ∨
        det.done (det.fed s chunks) = true) ∧
      (∀ k < chunks.length, det.done (det.fed s (chunks.take k)) = false) ∧
      (∀ c ∈ chunks.dropLast, c.length = blk) ∧
      (∀ l, chunks.getLast? = some l → l.length = blk ∨ l.length < blk ∧ chunks.flatten = b) := by
  intro n
  induction n with
  | zero => intro b s h; omega
  | succ n ih =>
    intro b s hn
    cases hd : det.done s with
    | true =>
      rw [sniffLoop_done det blk _ _ _ _ hd]
      exact ⟨[], rfl, by simp, .inr hd, by simp, by simp, by simp⟩
    | false =>
      rw [sniffLoop]
      simp only [Bool.not_false, hd, Bool.and_self, if_true]
      by_cases hs : (b.take blk).length < blk
      · rw [decide_eq_true hs, sniffLoop_final]
        have hlen : b.length < blk := by rw [List.length_take] at hs; omega
        have ht : b.take blk = b := List.take_of_length_le (by omega)
        rw [ht]
        refine ⟨[b], rfl, by simp, .inl ⟨by simp, b, rfl, hlen⟩, ?_, by simp, by simpa using .inr hlen⟩
        intro k hk
        simp only [List.length_singleton] at hk
        obtain rfl : k = 0 := by omega
        exact hd
      · rw [decide_eq_false hs]
        have hlen : blk ≤ b.length := by rw [List.length_take] at hs; omega
        obtain ⟨cs, h1, h2, h3, h4, h5, h6⟩ := ih (b.drop blk) (det.feed s (b.take blk))
          (by rw [List.length_drop]; omega)
        rw [h1]
        have htl : (b.take blk).length = blk := by rw [List.length_take]; omega
        refine ⟨b.take blk :: cs, rfl, ?_, ?_, ?_, ?_, ?_⟩
        · obtain ⟨t, ht⟩ := h2
          refine ⟨t, ?_⟩
          rw [List.flatten_cons, List.append_assoc, ht, List.take_append_drop]
        · rcases h3 with ⟨h3, l, hl, hl'⟩ | h3
          · refine .inl ⟨by rw [List.flatten_cons, h3, List.take_append_drop], l, ?_, hl'⟩
            rw [List.getLast?_cons, hl]; rfl
          · exact .inr h3
        · intro k hk
          cases k with
          | zero => exact hd
          | succ k => exact h4 k (by simpa using hk)
        · intro c hc
          cases cs with
          | nil => simp at hc
          | cons x xs =>
            rw [List.dropLast_cons_cons] at hc
            rcases List.mem_cons.mp hc with rfl | hc
            · exact htl
            · exact h5 c hc
        · intro l hl
          rw [List.getLast?_cons] at hl
          cases hg : cs.getLast? with
          | none =>
            rw [hg] at hl
            simp only [Option.getD_none, Option.some.injEq] at hl
            exact .inl (by rw [← hl]; exact htl)
          | some l' =>
            rw [hg] at hl
            simp only [Option.getD_some, Option.some.injEq] at hl
            subst hl
            rcases h6 l' hg with h | ⟨h, h'⟩
            · exact .inl h
            · exact .inr ⟨h, by rw [List.flatten_cons, h', List.take_append_drop]⟩

/-- More fuel does not change the outcome: the loop has ended. -/
theorem sniffLoop_fuel (det : EncDetector) {blk : Nat} (hb : 0 < blk) : ∀ (n m : Nat) (f : Bool) (b : Bytes)
    (s : det.State), b.length + 1 < n → b.length + 1 < m →
    sniffLoop det blk n f b s = sniffLoop det blk m f b s := by
  intro n
  induction n with
  | zero => intro m f b s h; omega
  | succ n ih =>
    intro m f b s hn hm
    cases m with
    | zero => omega
    | succ m =>
      rw [sniffLoop, sniffLoop]
      split
      · simp only []
        by_cases hs : (b.take blk).length < blk
        · rw [decide_eq_true hs, sniffLoop_final, sniffLoop_final]
        · have hlen : blk ≤ b.length := by rw [List.length_take] at hs; omega
          rw [ih m _ (b.drop blk) _ (by rw [List.length_drop]; omega) (by rw [List.length_drop]; omega)]
      · rfl

/-- A list of blocks is determined by the text and the number of blocks. -/
theorem blocks_unique {blk : Nat} (det : EncDetector) : ∀ (cs ds : List Bytes) (b : Bytes)
    (s : det.State), cs.flatten <+: b → ds.flatten <+: b →
    (∀ c ∈ cs.dropLast, c.length = blk) → (∀ c ∈ ds.dropLast, c.length = blk) →
    (∀ l, cs.getLast? = some l → l.length = blk ∨ l.length < blk ∧ cs.flatten = b) →
    (∀ l, ds.getLast? = some l → l.length = blk ∨ l.length < blk ∧ ds.flatten = b) →
    (∀ k < cs.length, det.done (det.fed s (cs.take k)) = false) →
    (∀ k < ds.length, det.done (det.fed s (ds.take k)) = false) →
    (det.done (det.fed s cs) = true ∨ (cs.flatten = b ∧ ∃ l, cs.getLast? = some l ∧ l.length < blk)) →
    (det.done (det.fed s ds) = true ∨ (ds.flatten = b ∧ ∃ l, ds.getLast? = some l ∧ l.length < blk)) →
    cs = ds := by
  -- the first block
  have first : ∀ (c : Bytes) (cs : List Bytes) (b : Bytes), (c :: cs).flatten <+: b →
      (∀ x ∈ (c :: cs).dropLast, x.length = blk) →
      (∀ l, (c :: cs).getLast? = some l → l.length = blk ∨ l.length < blk ∧ (c :: cs).flatten = b) →
      c = b.take blk := by
    intro c cs b h1 h2 h3
    obtain ⟨t, ht⟩ := h1
    rw [List.flatten_cons, List.append_assoc] at ht
    cases cs with
    | nil =>
      rcases h3 c rfl with h | ⟨h, h'⟩
      · rw [← ht, ← h, List.take_left']
        rfl
      · simp only [List.flatten_cons, List.flatten_nil, List.append_nil] at h'
        rw [← h', List.take_of_length_le h.le]
    | cons x xs =>
      have := h2 c (by simp)
      rw [← ht, ← this, List.take_left']
      rfl
  intro cs
  induction cs with
  | nil =>
    intro ds b s _ _ _ _ _ _ _ h8 h9 _
    rcases h9 with h | ⟨-, l, hl, -⟩
    · cases ds with
      | nil => rfl
      | cons d ds =>
        have := h8 0 (by simp)
        rw [List.take_zero] at this
        rw [this] at h
        simp at h
    · simp at hl
  | cons c cs ih =>
    intro ds b s h1 h2 h3 h4 h5 h6 h7 h8 h9 h10
    cases ds with
    | nil =>
      rcases h10 with h | ⟨-, l, hl, -⟩
      · have := h7 0 (by simp)
        rw [List.take_zero] at this
        rw [this] at h
        simp at h
      · simp at hl
    | cons d ds =>
      have hc := first c cs b h1 h3 h5
      have hd := first d ds b h2 h4 h6
      have hdrop : ∀ (x : Bytes) (xs : List Bytes), x = b.take blk → (x :: xs).flatten <+: b →
          xs.flatten <+: b.drop blk := by
        rintro x xs rfl ⟨t, ht⟩
        rw [List.flatten_cons, List.append_assoc] at ht
        refine ⟨t, ?_⟩
        have h := ht
        rw [← List.take_append_drop blk b, List.take_append_drop] at h
        conv at h => rhs; rw [← List.take_append_drop blk b]
        exact List.append_cancel_left h
      have hflat : ∀ (x : Bytes) (xs : List Bytes), x = b.take blk → (x :: xs).flatten = b →
          xs.flatten = b.drop blk := by
        rintro x xs rfl h
        rw [List.flatten_cons] at h
        conv at h => rhs; rw [← List.take_append_drop blk b]
        exact List.append_cancel_left h
      have hcd : c = d := hc.trans hd.symm
      subst hcd
      congr 1
      have hlast : ∀ (xs : List Bytes) (l : Bytes), xs.getLast? = some l → (c :: xs).getLast? = some l := by
        intro xs l h; rw [List.getLast?_cons, h]; rfl
      have hmem : ∀ (xs : List Bytes) (y : Bytes), y ∈ xs.dropLast → y ∈ (c :: xs).dropLast := by
        intro xs y h
        cases xs with
        | nil => simp at h
        | cons z zs => rw [List.dropLast_cons_cons]; exact List.mem_cons_of_mem _ h
      have hcomp : ∀ (xs : List Bytes), (∀ k < (c :: xs).length, det.done (det.fed s ((c :: xs).take k)) = false) →
          (∀ l, (c :: xs).getLast? = some l → l.length = blk ∨ l.length < blk ∧ (c :: xs).flatten = b) →
          (det.done (det.fed s (c :: xs)) = true ∨
            ((c :: xs).flatten = b ∧ ∃ l, (c :: xs).getLast? = some l ∧ l.length < blk)) →
          (det.done (det.fed (det.feed s c) xs) = true ∨
            (xs.flatten = b.drop blk ∧ ∃ l, xs.getLast? = some l ∧ l.length < blk)) ∨
          (xs = [] ∧ c.length < blk ∧ c = b) := by
        intro xs _ _ h
        rcases h with h | ⟨h, l, hl, hl'⟩
        · exact .inl (.inl h)
        · cases xs with
          | nil =>
            simp only [List.getLast?_singleton, Option.some.injEq] at hl
            subst hl
            exact .inr ⟨rfl, hl', by simpa using h⟩
          | cons z zs =>
            refine .inl (.inr ⟨hflat c _ hc h, l, ?_, hl'⟩)
            rw [List.getLast?_cons_cons] at hl
            exact hl
      -- a short first block is the last one
      have hshort : ∀ (xs : List Bytes), c.length < blk → (∀ x ∈ (c :: xs).dropLast, x.length = blk) → xs = [] := by
        intro xs h h'
        cases xs with
        | nil => rfl
        | cons z zs => have := h' c (by simp); omega
      rcases hcomp cs h7 h5 h9 with h9 | ⟨rfl, h9, -⟩
      · rcases hcomp ds h8 h6 h10 with h10 | ⟨rfl, h10, -⟩
        · refine ih ds (b.drop blk) (det.feed s c) (hdrop c cs hc h1) (hdrop c ds hc h2)
            (fun y hy => h3 y (hmem cs y hy)) (fun y hy => h4 y (hmem ds y hy)) ?_ ?_
            (fun k hk => h7 (k + 1) (by simpa using hk)) (fun k hk => h8 (k + 1) (by simpa using hk)) h9 h10
          · intro l hl
            rcases h5 l (hlast cs l hl) with h | ⟨h, h'⟩
            · exact .inl h
            · exact .inr ⟨h, hflat c cs hc h'⟩
          · intro l hl
            rcases h6 l (hlast ds l hl) with h | ⟨h, h'⟩
            · exact .inl h
            · exact .inr ⟨h, hflat c ds hc h'⟩
        · exact hshort cs h10 h3
      · exact (hshort ds h9 h4).symm

end Clever
