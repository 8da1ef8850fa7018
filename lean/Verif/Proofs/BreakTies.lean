import Verif.Model.BreakTies
import Verif.Proofs.Potential

/-! # Facts about tie breaking -/

namespace Clever

/-! ## Membership -/

theorem tieQuote_mem {limit : Int} {data : Str} {A B d : SimpleDialect}
    (h : tieQuote limit data A B = .ok (some d)) : d = A ∨ d = B := by
  unfold tieQuote at h
  simp only at h
  repeat' split at h
  all_goals simp_all

theorem tieDelimiter_mem {A B d : SimpleDialect} (h : tieDelimiter A B = some d) : d = A ∨ d = B := by
  unfold tieDelimiter at h
  repeat' split at h
  all_goals simp_all

theorem tieEscape_mem {limit : Int} {data : Str} {A B d : SimpleDialect}
    (h : tieEscape limit data A B = .ok (some d)) : d = A ∨ d = B := by
  unfold tieEscape at h
  simp only at h
  repeat' split at h
  all_goals simp_all

theorem tieQuoteEscape_mem {limit : Int} {data : Str} {A B d : SimpleDialect}
    (h : tieQuoteEscape limit data A B = .ok (some d)) : d = A ∨ d = B := by
  unfold tieQuoteEscape at h
  simp only at h
  repeat' split at h
  all_goals simp_all

theorem breakTiesTwo_mem {limit : Int} {data : Str} {A B d : SimpleDialect}
    (h : breakTiesTwo limit data A B = .ok (some d)) : d = A ∨ d = B := by
  unfold breakTiesTwo at h
  split at h
  · exact tieQuote_mem h
  split at h
  · simp only [Except.ok.injEq] at h
    exact tieDelimiter_mem h
  split at h
  · exact tieEscape_mem h
  split at h
  · exact tieQuoteEscape_mem h
  · simp at h

theorem equalPairs_mem {limit : Int} {data : Str} :
    ∀ {l ps : List (SimpleDialect × SimpleDialect)}, equalPairs limit data l = .ok ps →
      ∀ p ∈ ps, p ∈ l
  | [], ps, h => by simp [equalPairs] at h; simp [h]
  | (a, b) :: l, ps, h => by
    rw [equalPairs] at h
    split at h
    · simp at h
    split at h
    · simp at h
    split at h
    · simp at h
    rename_i qs hqs
    have ih := equalPairs_mem hqs
    simp only [Except.ok.injEq] at h
    subst h
    intro p hp
    split at hp
    · rcases List.mem_cons.mp hp with rfl | hp
      · simp
      · simp [ih p hp]
    · simp [ih p hp]

theorem pairAnswers_mem {limit : Int} {data : Str} :
    ∀ {ps : List (SimpleDialect × SimpleDialect)} {ans : List SimpleDialect},
      pairAnswers limit data ps = .ok ans → ∀ d ∈ ans, ∃ p ∈ ps, d = p.1 ∨ d = p.2
  | [], ans, h => by simp [pairAnswers] at h; simp [h]
  | (a, b) :: ps, ans, h => by
    rw [pairAnswers] at h
    split at h
    · simp at h
    rename_i r hr
    split at h
    · simp at h
    rename_i l hl
    have ih := pairAnswers_mem hl
    simp only [Except.ok.injEq] at h
    subst h
    intro d hd
    rcases List.mem_append.mp hd with hd | hd
    · simp only [Option.mem_toList, Option.mem_def] at hd
      subst hd
      exact ⟨(a, b), by simp, breakTiesTwo_mem hr⟩
    · obtain ⟨p, hp, h⟩ := ih d hd
      exact ⟨p, by simp [hp], h⟩

theorem pairwise_mem_left {α : Type} {l : List α} {p : α × α} (h : p ∈ pairwise l) :
    p.1 ∈ l ∧ p.2 ∈ l := by
  obtain ⟨u, v, rfl⟩ := pairwise_mem.mp h
  simp

theorem reducePairwise_mem {ord : SetOrder} {limit : Int} {data : Str} {ds l : List SimpleDialect}
    (h : reducePairwise ord limit data ds = .ok (some l)) : ∀ d ∈ l, d ∈ ds := by
  unfold reducePairwise at h
  split at h
  · simp at h
  split at h
  · simp at h
  rename_i ps hps
  split at h
  · simp at h
  rename_i ans hans
  simp only [Except.ok.injEq, Option.some.injEq] at h
  subst h
  intro d hd
  rw [ord.mem_dialects, List.mem_append] at hd
  rcases hd with hd | hd
  · obtain ⟨p, hp, h⟩ := pairAnswers_mem hans d hd
    have := pairwise_mem_left (equalPairs_mem hps p hp)
    rcases h with rfl | rfl
    · exact this.1
    · exact this.2
  · exact (List.mem_filter.mp hd).1

theorem breakTiesThree_mem {ord : SetOrder} {limit : Int} {data : Str} {A B C d : SimpleDialect}
    (h : breakTiesThree ord limit data A B C = .ok (some d)) : d = A ∨ d = B ∨ d = C := by
  unfold breakTiesThree at h
  simp only at h
  split at h
  · split at h
    · simp at h
    rename_i pA hA
    split at h
    · simp at h
    rename_i pB hB
    split at h
    · simp at h
    rename_i pC hC
    split at h
    · simp at h
    split at h
    · simp at h
    rename_i pN dN hN
    have hdN : dN = A ∨ dN = B ∨ dN = C := by
      have := List.mem_of_find?_eq_some hN
      simp at this
      grind
    split at h
    · split at h
      · simp at h
      · rename_i x hx
        simp at h
        have := reducePairwise_mem hx x (by simp)
        simp at this
        rw [← h]
        exact this
      · simp at h
    · split at h
      · rename_i p0 d0 p1 d1 rest hrem
        have h0 : (p0, d0) ∈ [(pA, A), (pB, B), (pC, C)] := by
          have : (p0, d0) ∈ List.filter (fun p => decide (p.1 ≠ pN)) [(pA, A), (pB, B), (pC, C)] := by
            rw [hrem]; simp
          exact (List.mem_filter.mp this).1
        have h1 : (p1, d1) ∈ [(pA, A), (pB, B), (pC, C)] := by
          have : (p1, d1) ∈ List.filter (fun p => decide (p.1 ≠ pN)) [(pA, A), (pB, B), (pC, C)] := by
            rw [hrem]; simp
          exact (List.mem_filter.mp this).1
        simp at h0 h1
        split at h
        · have := breakTiesTwo_mem h
          grind
        · split at h
          · have := breakTiesTwo_mem h
            grind
          · simp at h
      · simp at h
  · split at h
    · split at h
      · rename_i x y hf
        have := breakTiesTwo_mem h
        have hx : x ∈ [A, B, C] := by
          have : x ∈ List.filter (fun d => decide (d.quotechar ≠ some [])) [A, B, C] := by rw [hf]; simp
          exact (List.mem_filter.mp this).1
        have hy : y ∈ [A, B, C] := by
          have : y ∈ List.filter (fun d => decide (d.quotechar ≠ some [])) [A, B, C] := by rw [hf]; simp
          exact (List.mem_filter.mp this).1
        simp at hx hy
        rcases this with rfl | rfl
        · exact hx
        · exact hy
      · simp at h
    · simp at h

theorem breakTiesFour_mem {ord : SetOrder} {limit : Int} {data : Str} {ds : List SimpleDialect}
    {d : SimpleDialect} (h : breakTiesFour ord limit data ds = .ok (some d)) : d ∈ ds := by
  unfold breakTiesFour at h
  split at h
  · simp at h
  split at h
  · simp at h
  · rename_i x hx
    simp at h
    exact h ▸ reducePairwise_mem hx x (by simp)
  · rename_i x y hx
    rcases breakTiesTwo_mem h with rfl | rfl
    · exact reducePairwise_mem hx _ (by simp)
    · exact reducePairwise_mem hx _ (by simp)
  · rename_i x y z hx
    rcases breakTiesThree_mem h with rfl | rfl | rfl
    · exact reducePairwise_mem hx _ (by simp)
    · exact reducePairwise_mem hx _ (by simp)
    · exact reducePairwise_mem hx _ (by simp)
  · simp at h

theorem tieBreaker_mem {ord : SetOrder} {limit : Int} {data : Str} {ds : List SimpleDialect}
    {d : SimpleDialect} (h : tieBreaker ord limit data ds = .ok (some d)) : d ∈ ds := by
  unfold tieBreaker at h
  split at h
  · have := breakTiesTwo_mem h; simpa using this
  · have := breakTiesThree_mem h; simpa using this
  · exact breakTiesFour_mem h
  · simp at h

/-! ## Success -/

/-- The dialect can be used to parse the data, and its components are strings. -/
structure Parses (limit : Int) (data : Str) (d : SimpleDialect) : Prop where
  parses : ∃ X, parseAll limit data d = .ok X
  quote : ∃ q, d.quotechar = some q
  escape : ∃ e, d.escapechar = some e

theorem Parses.ite {limit : Int} {data : Str} {A B : SimpleDialect} {c : Prop} [Decidable c]
    (hA : Parses limit data A) (hB : Parses limit data B) : Parses limit data (if c then A else B) := by
  split <;> assumption

theorem tieQuote_ok {limit : Int} {data : Str} {A B : SimpleDialect} (hA : Parses limit data A)
    (hB : Parses limit data B) : ∃ r, tieQuote limit data A B = .ok r := by
  unfold tieQuote
  split
  · have h1 : Parses limit data (if A.quotechar = some [] then A else B) := hA.ite hB
    have h2 : Parses limit data (if (if A.quotechar = some [] then A else B) = A then B else A) :=
      hB.ite hA
    obtain ⟨X, hX⟩ := h1.parses
    obtain ⟨Y, hY⟩ := h2.parses
    simp only [hX, hY]
    exact ⟨_, rfl⟩
  · exact ⟨_, rfl⟩

theorem tieEscape_ok {limit : Int} {data : Str} {A B : SimpleDialect} (hA : Parses limit data A)
    (hB : Parses limit data B) : ∃ r, tieEscape limit data A B = .ok r := by
  unfold tieEscape
  have h1 : Parses limit data (if A.escapechar = some [] then A else B) := by split <;> assumption
  have h2 : Parses limit data (if A.escapechar = some [] then B else A) := by split <;> assumption
  obtain ⟨X, hX⟩ := h1.parses
  obtain ⟨Y, hY⟩ := h2.parses
  simp only [hX, hY]
  split
  · exact ⟨_, rfl⟩
  · split <;> exact ⟨_, rfl⟩

theorem tieQuoteEscape_ok {limit : Int} {data : Str} {A B : SimpleDialect} (hA : Parses limit data A)
    (hB : Parses limit data B) : ∃ r, tieQuoteEscape limit data A B = .ok r := by
  unfold tieQuoteEscape
  simp only
  split
  · obtain ⟨X, hX⟩ := (hA.ite hB (c := (decide (A.quotechar = some []) && decide (A.escapechar = some [])) = true)).parses
    have h2 : Parses limit data (if (if (decide (A.quotechar = some []) && decide (A.escapechar = some [])) = true
      then A else B) = A then B else A) := hB.ite hA
    obtain ⟨Y, hY⟩ := h2.parses
    obtain ⟨q, hq⟩ := h2.quote
    obtain ⟨e, he⟩ := h2.escape
    rw [hX]
    simp only
    rw [hY]
    simp only
    rw [he, hq]
    simp only
    split
    · exact ⟨_, rfl⟩
    · split <;> exact ⟨_, rfl⟩
  · exact ⟨_, rfl⟩

theorem breakTiesTwo_ok {limit : Int} {data : Str} {A B : SimpleDialect} (hA : Parses limit data A)
    (hB : Parses limit data B) : ∃ r, breakTiesTwo limit data A B = .ok r := by
  unfold breakTiesTwo
  split
  · exact tieQuote_ok hA hB
  split
  · exact ⟨_, rfl⟩
  split
  · exact tieEscape_ok hA hB
  split
  · exact tieQuoteEscape_ok hA hB
  · exact ⟨_, rfl⟩

theorem equalPairs_ok {limit : Int} {data : Str} :
    ∀ {l : List (SimpleDialect × SimpleDialect)},
      (∀ p ∈ l, Parses limit data p.1 ∧ Parses limit data p.2) →
      ∃ ps, equalPairs limit data l = .ok ps
  | [], _ => ⟨[], rfl⟩
  | (a, b) :: l, h => by
    obtain ⟨ps, hps⟩ := equalPairs_ok (l := l) (fun p hp => h p (by simp [hp]))
    obtain ⟨X, hX⟩ := (h (a, b) (by simp)).1.parses
    obtain ⟨Y, hY⟩ := (h (a, b) (by simp)).2.parses
    rw [equalPairs]
    simp only at hX hY
    rw [hX, hY, hps]
    exact ⟨_, rfl⟩

theorem pairAnswers_ok {limit : Int} {data : Str} :
    ∀ {l : List (SimpleDialect × SimpleDialect)},
      (∀ p ∈ l, Parses limit data p.1 ∧ Parses limit data p.2) →
      ∃ ps, pairAnswers limit data l = .ok ps
  | [], _ => ⟨[], rfl⟩
  | (a, b) :: l, h => by
    obtain ⟨ps, hps⟩ := pairAnswers_ok (l := l) (fun p hp => h p (by simp [hp]))
    obtain ⟨r, hr⟩ := breakTiesTwo_ok (h (a, b) (by simp)).1 (h (a, b) (by simp)).2
    rw [pairAnswers]
    simp only at hr
    rw [hr, hps]
    exact ⟨_, rfl⟩

theorem reducePairwise_ok {ord : SetOrder} {limit : Int} {data : Str} {ds : List SimpleDialect}
    (h : ∀ d ∈ ds, Parses limit data d) : ∃ r, reducePairwise ord limit data ds = .ok r := by
  unfold reducePairwise
  split
  · exact ⟨_, rfl⟩
  · have h1 : ∀ p ∈ pairwise ds, Parses limit data p.1 ∧ Parses limit data p.2 := fun p hp =>
      ⟨h _ (pairwise_mem_left hp).1, h _ (pairwise_mem_left hp).2⟩
    obtain ⟨ps, hps⟩ := equalPairs_ok h1
    obtain ⟨ans, hans⟩ := pairAnswers_ok (l := ps) (fun p hp => h1 p (equalPairs_mem hps p hp))
    rw [hps]
    simp only
    rw [hans]
    exact ⟨_, rfl⟩

theorem breakTiesThree_ok {ord : SetOrder} {limit : Int} {data : Str} {A B C : SimpleDialect}
    (hA : Parses limit data A) (hB : Parses limit data B) (hC : Parses limit data C) :
    ∃ r, breakTiesThree ord limit data A B C = .ok r := by
  unfold breakTiesThree
  simp only
  obtain ⟨pA, hpA⟩ := hA.parses
  obtain ⟨pB, hpB⟩ := hB.parses
  obtain ⟨pC, hpC⟩ := hC.parses
  have hmem : ∀ {x : SimpleDialect}, x ∈ [A, B, C] → Parses limit data x := by
    intro x hx
    simp at hx
    rcases hx with rfl | rfl | rfl <;> assumption
  split
  · rw [hpA, hpB, hpC]
    simp only
    split
    · exact ⟨_, rfl⟩
    split
    · exact ⟨_, rfl⟩
    rename_i pN dN hN
    have hdN : Parses limit data dN := by
      have := List.mem_of_find?_eq_some hN
      apply hmem
      simp at this ⊢
      grind
    split
    · obtain ⟨r, hr⟩ := reducePairwise_ok (ord := ord) (limit := limit) (data := data) (ds := [A, B, C])
        (fun d hd => hmem hd)
      rw [hr]
      split
      · simp at *
      · exact ⟨_, rfl⟩
      · exact ⟨_, rfl⟩
    · split
      · rename_i p0 d0 p1 d1 rest hrem
        have h0 : Parses limit data d0 := by
          have : (p0, d0) ∈ List.filter (fun p => decide (p.1 ≠ pN)) [(pA, A), (pB, B), (pC, C)] := by
            rw [hrem]; simp
          have := (List.mem_filter.mp this).1
          apply hmem
          simp at this ⊢
          grind
        have h1 : Parses limit data d1 := by
          have : (p1, d1) ∈ List.filter (fun p => decide (p.1 ≠ pN)) [(pA, A), (pB, B), (pC, C)] := by
            rw [hrem]; simp
          have := (List.mem_filter.mp this).1
          apply hmem
          simp at this ⊢
          grind
        split
        · exact breakTiesTwo_ok hdN h0
        · split
          · exact breakTiesTwo_ok hdN h1
          · exact ⟨_, rfl⟩
      · exact ⟨_, rfl⟩
  · split
    · split
      · rename_i x y hf
        apply breakTiesTwo_ok
        · apply hmem
          have : x ∈ List.filter (fun d => decide (d.quotechar ≠ some [])) [A, B, C] := by rw [hf]; simp
          exact (List.mem_filter.mp this).1
        · apply hmem
          have : y ∈ List.filter (fun d => decide (d.quotechar ≠ some [])) [A, B, C] := by rw [hf]; simp
          exact (List.mem_filter.mp this).1
      · exact ⟨_, rfl⟩
    · exact ⟨_, rfl⟩

theorem tieBreaker_ok {ord : SetOrder} {limit : Int} {data : Str} {ds : List SimpleDialect}
    (h : ∀ d ∈ ds, Parses limit data d) : ∃ r, tieBreaker ord limit data ds = .ok r := by
  unfold tieBreaker
  split
  · exact breakTiesTwo_ok (h _ (by simp)) (h _ (by simp))
  · exact breakTiesThree_ok (h _ (by simp)) (h _ (by simp)) (h _ (by simp))
  · unfold breakTiesFour
    split
    · exact ⟨_, rfl⟩
    obtain ⟨r, hr⟩ := reducePairwise_ok (ord := ord) h
    split
    · rename_i hx; rw [hr] at hx; simp at hx
    · exact ⟨_, rfl⟩
    · rename_i hx
      have := reducePairwise_mem hx
      exact breakTiesTwo_ok (h _ (this _ (by simp))) (h _ (this _ (by simp)))
    · rename_i hx
      have := reducePairwise_mem hx
      exact breakTiesThree_ok (h _ (this _ (by simp))) (h _ (this _ (by simp))) (h _ (this _ (by simp)))
    · exact ⟨_, rfl⟩
  · exact ⟨_, rfl⟩

end Clever
