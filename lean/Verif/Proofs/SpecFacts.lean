import Verif.Proofs.ParseSpec2

/-!
# What the parity specification says: the cuts are exactly those at even quote parity
-/

set_option linter.unusedSimpArgs false

namespace Clever

open Spec

theorem joinWith_consHead (d c : Char) (L : List Str) (h : L ≠ []) :
    joinWith d (consHead c L) = c :: joinWith d L := by
  match L, h with
  | [x], _ => rfl
  | x :: y :: t, _ => rfl

/-- Nothing is lost or added: the raw cells, joined by the delimiter, are the record. -/
theorem joinWith_rawCells (d q : Char) (r : Str) (inQ : Bool) :
    joinWith d (rawCells d q inQ r) = r := by
  induction r generalizing inQ with
  | nil => rfl
  | cons c r ih =>
    rw [rawCells]
    split
    · rename_i h
      obtain ⟨_, _, rfl⟩ := h
      have := rawCells_ne_nil c q false r
      cases hr : rawCells c q false r with
      | nil => exact absurd hr this
      | cons x xs => rw [joinWith, ← hr, ih, List.nil_append]
    · rw [joinWith_consHead _ _ _ (rawCells_ne_nil _ _ _ _), ih]

theorem joinWith_splitOn (d : Char) (r : Str) : joinWith d (splitOn d r) = r := by
  induction r with
  | nil => rfl
  | cons c r ih =>
    have hne : splitOn d r ≠ [] := by
      cases r with
      | nil => simp [splitOn]
      | cons a r => rw [splitOn]; split <;> simp [consHead]; cases splitOn d r <;> simp [consHead]
    rw [splitOn]
    split
    · rename_i h
      subst h
      cases hr : splitOn c r with
      | nil => exact absurd hr hne
      | cons x xs => rw [joinWith, ← hr, ih, List.nil_append]
    · rw [joinWith_consHead _ _ _ hne, ih]

theorem not_mem_splitOn (d : Char) (r : Str) : ∀ x ∈ splitOn d r, d ∉ x := by
  induction r with
  | nil => simp [splitOn]
  | cons c r ih =>
    rw [splitOn]
    split
    · intro x hx
      simp at hx
      rcases hx with rfl | hx
      · simp
      · exact ih x hx
    · rename_i h
      intro x hx hd
      rcases mem_consHead hx hd with h' | ⟨s, h1, h2⟩
      · exact h h'.symm
      · exact ih s h1 h2

/-- Cells after the first begin outside quotes; all cells but the last end outside quotes. -/
theorem rawCells_parity (d q : Char) (r : Str) (inQ : Bool) :
    ∃ x xs, rawCells d q inQ r = x :: xs ∧
      (xs ≠ [] → oddQuotes q x = inQ) ∧ (∀ y ∈ xs.dropLast, oddQuotes q y = false) := by
  induction r generalizing inQ with
  | nil => exact ⟨[], [], rfl, by simp, by simp⟩
  | cons c r ih =>
    rw [rawCells]
    split
    · rename_i h
      obtain ⟨x, xs, h1, h2, h3⟩ := ih false
      refine ⟨[], x :: xs, by rw [h1], fun _ => by simp [oddQuotes, h.2.1], ?_⟩
      cases xs with
      | nil => simp
      | cons a xs =>
        intro y hy
        simp only [List.dropLast_cons_cons, List.mem_cons] at hy
        rcases hy with rfl | hy
        · exact h2 (by simp)
        · exact h3 y hy
    · obtain ⟨x, xs, h1, h2, h3⟩ := ih (inQ ^^ (c == q))
      refine ⟨c :: x, xs, by rw [h1]; rfl, fun hx => ?_, h3⟩
      rw [oddQuotes_cons, h2 hx]
      cases inQ <;> cases (c == q) <;> rfl

/-- No cut was missed: a delimiter inside a raw cell is preceded by an odd number of quotes. -/
theorem rawCells_no_cut (d q : Char) (hdq : d ≠ q) (r : Str) (inQ : Bool) :
    ∃ x xs, rawCells d q inQ r = x :: xs ∧
      (∀ a b, x = a ++ d :: b → oddQuotes q a = !inQ) ∧
      (∀ y ∈ xs, ∀ a b, y = a ++ d :: b → oddQuotes q a = true) := by
  induction r generalizing inQ with
  | nil => exact ⟨[], [], rfl, by simp, by simp⟩
  | cons c r ih =>
    rw [rawCells]
    split
    · obtain ⟨x, xs, h1, h2, h3⟩ := ih false
      refine ⟨[], x :: xs, by rw [h1], by simp, ?_⟩
      intro y hy
      rcases List.mem_cons.1 hy with rfl | hy
      · exact h2
      · exact h3 y hy
    · rename_i hcut
      obtain ⟨x, xs, h1, h2, h3⟩ := ih (inQ ^^ (c == q))
      refine ⟨c :: x, xs, by rw [h1]; rfl, fun a b hab => ?_, h3⟩
      cases a with
      | nil =>
        simp at hab
        obtain ⟨rfl, _⟩ := hab
        have hi : inQ = true := by
          cases inQ with
          | true => rfl
          | false => exact absurd ⟨hdq, rfl, rfl⟩ hcut
        simp [oddQuotes, hi]
      | cons a' a =>
        simp at hab
        obtain ⟨rfl, hab⟩ := hab
        rw [oddQuotes_cons, h2 a b hab]
        cases inQ <;> cases (c == q) <;> rfl

/-- A text assembled from pieces and their terminators. -/
def assemble : List (Str × Str) → Str
  | [] => []
  | (r, term) :: t => r ++ term ++ assemble t

/-- Line terminators. -/
def IsTerm (s : Str) : Prop := s = ['\n'] ∨ s = ['\r'] ∨ s = ['\r', '\n']

/-- The records of a text are obtained by cutting it at line terminators at even quote parity; only
the last record may lack a terminator, and then it is not empty.  `inQ` is the parity at the
beginning. -/
theorem records_assemble (q : Char) (n : Nat) (t : Str) (ht : t.length ≤ n)
    (inQ : Bool) :
    ∃ ps : List (Str × Str), ps.map Prod.fst = records q inQ t ∧ assemble ps = t ∧
      (∀ p ∈ ps.dropLast, IsTerm p.2) ∧
      (∀ p ∈ ps.getLast?, IsTerm p.2 ∨ (p.2 = [] ∧ p.1 ≠ [])) ∧
      (∀ p ∈ ps.head?, p.2 ≠ [] → oddQuotes q p.1 = inQ) ∧
      (∀ p ∈ ps.tail, p.2 ≠ [] → oddQuotes q p.1 = false) := by
  induction n generalizing t inQ with
  | zero =>
    have : t = [] := by cases t <;> simp_all
    subst this
    exact ⟨[], by simp [records], rfl, by simp, by simp, by simp, by simp⟩
  | succ n ih =>
    cases t with
    | nil => exact ⟨[], by simp [records], rfl, by simp, by simp, by simp, by simp⟩
    | cons c rest =>
      have hlen : rest.length ≤ n := by simpa using ht
      by_cases hcut : inQ = false ∧ isNL c = true
      · obtain ⟨rfl, hnl⟩ := hcut
        obtain ⟨rest', hrest, hrec⟩ := nl_split c rest hnl
        have hterm : ∃ term, IsTerm term ∧ c :: rest = term ++ rest' := by
          rcases hrest with ⟨rfl, rfl⟩ | ⟨h1, rfl⟩
          · exact ⟨['\r', '\n'], Or.inr (Or.inr rfl), rfl⟩
          · simp only [isNL, Bool.or_eq_true, decide_eq_true_eq] at hnl
            rcases hnl with rfl | rfl
            · exact ⟨['\r'], Or.inr (Or.inl rfl), rfl⟩
            · exact ⟨['\n'], Or.inl rfl, rfl⟩
        have hl' : rest'.length ≤ n := by
          rcases hrest with ⟨_, rfl⟩ | ⟨_, rfl⟩
          · simp at hlen; omega
          · exact hlen
        obtain ⟨term, ht1, ht2⟩ := hterm
        obtain ⟨ps, h1, h2, h3, h4, h5, h6⟩ := ih rest' hl' false
        refine ⟨([], term) :: ps, by simp [hrec, h1], by simp [assemble, h2, ht2], ?_, ?_, ?_, ?_⟩
        · cases ps with
          | nil => simp
          | cons p ps =>
            intro p' hp'
            simp only [List.dropLast_cons_cons, List.mem_cons] at hp'
            rcases hp' with rfl | hp'
            · exact ht1
            · exact h3 p' hp'
        · cases ps with
          | nil => intro p hp; simp at hp; subst hp; exact Or.inl ht1
          | cons p ps => simpa [List.getLast?_cons_cons] using h4
        · intro p hp; simp at hp; subst hp; intro _; simp [oddQuotes]
        · intro p hp hne
          simp at hp
          cases ps with
          | nil => simp at hp
          | cons p0 ps =>
            rcases List.mem_cons.1 hp with rfl | hp
            · exact h5 _ (by simp) hne
            · exact h6 _ (by simpa using hp) hne
      · have hnocut : inQ = true ∨ isNL c = false := by
          cases inQ <;> cases h : isNL c <;> simp_all
        have hrc := records_cons q inQ c rest (by rw [isNL_false_iff] at hnocut; exact hnocut)
        obtain ⟨ps, h1, h2, h3, h4, h5, h6⟩ := ih rest hlen (inQ ^^ (c == q))
        have hxor : ∀ b, (b = (inQ ^^ (c == q))) → ((c == q) ^^ b) = inQ := by
          rintro b rfl; cases inQ <;> cases (c == q) <;> rfl
        cases ps with
        | nil =>
          simp [assemble] at h2
          subst h2
          refine ⟨[([c], [])], ?_, by simp [assemble], by simp, by simp, by simp, by simp⟩
          rw [hrc]; simp [recs1, records]
        | cons p ps =>
          refine ⟨(c :: p.1, p.2) :: ps, ?_, ?_, ?_, ?_, ?_, ?_⟩
          · rw [hrc, recs1, ← h1]; simp
          · simp [assemble] at h2 ⊢; exact h2
          · cases ps with
            | nil => simp
            | cons p' ps =>
              intro x hx
              simp only [List.dropLast_cons_cons, List.mem_cons] at hx
              rcases hx with rfl | hx
              · exact h3 p (by simp)
              · exact h3 x (by simp [hx])
          · cases ps with
            | nil =>
              intro x hx
              simp at hx; subst hx
              rcases h4 p (by simp) with h | h
              · exact Or.inl h
              · exact Or.inr ⟨h.1, by simp⟩
            | cons p' ps => simpa [List.getLast?_cons_cons] using h4
          · intro x hx hne
            simp at hx; subst hx
            simp only [oddQuotes_cons]
            exact hxor _ (h5 p (by simp) hne)
          · simpa using h6

/-- No cut was missed: a newline inside a record is preceded, within the record, by an odd number
of quotes. -/
theorem records_no_cut (q : Char) (t : Str) (inQ : Bool) :
    (∀ r ∈ (records q inQ t).head?, ∀ a c b, r = a ++ c :: b → isNL c = true → oddQuotes q a = !inQ) ∧
    (∀ r ∈ (records q inQ t).tail, ∀ a c b, r = a ++ c :: b → isNL c = true → oddQuotes q a = true) := by
  induction t generalizing inQ with
  | nil => simp [records]
  | cons c rest ih =>
    by_cases hcut : inQ = false ∧ isNL c = true
    · obtain ⟨rfl, hnl⟩ := hcut
      rw [records]
      obtain ⟨h1, h2⟩ := ih false
      split
      · exact ⟨h1, h2⟩
      · have : c = '\n' ∨ c = '\r' := by simpa [isNL, or_comm] using hnl
        rw [if_pos ⟨rfl, this⟩]
        refine ⟨by simp, ?_⟩
        simp only [List.tail_cons]
        intro r hr
        cases hrec : records q false rest with
        | nil => rw [hrec] at hr; simp at hr
        | cons x xs =>
          rw [hrec] at hr h1 h2
          rcases List.mem_cons.1 hr with rfl | hr
          · simpa using h1 r (by simp)
          · exact h2 r (by simpa using hr)
    · have hnocut : inQ = true ∨ isNL c = false := by
        cases inQ <;> cases h : isNL c <;> simp_all
      rw [records_cons q inQ c rest (by rw [isNL_false_iff] at hnocut; exact hnocut)]
      obtain ⟨h1, h2⟩ := ih (inQ ^^ (c == q))
      simp only [recs1]
      have hsingle : ∀ a c' b, c :: (match records q (inQ ^^ (c == q)) rest with
            | [] => (([], []) : Str × List Str)
            | r :: rs => (r, rs)).1 = a ++ c' :: b → isNL c' = true → oddQuotes q a = !inQ := by
        intro a c' b hab hnl
        cases a with
        | nil =>
          simp at hab
          obtain ⟨rfl, _⟩ := hab
          rcases hnocut with h | h
          · simp [oddQuotes, h]
          · rw [h] at hnl; simp at hnl
        | cons a' a =>
          simp at hab
          obtain ⟨rfl, hab⟩ := hab
          cases hrec : records q (inQ ^^ (c == q)) rest with
          | nil => rw [hrec] at hab; simp at hab
          | cons x xs =>
            rw [hrec] at hab h1
            simp at hab
            have := h1 x (by simp) a c' b hab hnl
            rw [oddQuotes_cons, this]
            cases inQ <;> cases (c == q) <;> rfl
      refine ⟨fun r hr => ?_, fun r hr => ?_⟩
      · simp at hr; subst hr; exact hsingle
      · cases hrec : records q (inQ ^^ (c == q)) rest with
        | nil => rw [hrec] at hr; simp at hr
        | cons x xs =>
          rw [hrec] at hr h2
          exact h2 r (by simpa using hr)

end Clever
