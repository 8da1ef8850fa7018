import Verif.Model.Code
import Verif.Spec.PyLiteral

/-!
# Evaluating the literals that `repr` and `generate_code` produce
-/

namespace Clever

open Spec

theorem hexOf_hexDigit : ∀ v < 16, hexOf (hexDigit v) = some v := by decide

theorem litBody_hex (q : Char) : ∀ (k j n m : Nat) (rest : Str), m < 16 ^ k →
    litBody q (.hex (k + j) n) (hexDigits k m ++ rest) =
      litBody q (.hex j (16 ^ k * n + m)) rest := by
  intro k
  induction k with
  | zero =>
    intro j n m rest hm
    have : m = 0 := by omega
    subst this
    simp [hexDigits]
  | succ k ih =>
    intro j n m rest hm
    rw [hexDigits, List.append_assoc, show k + 1 + j = k + (j + 1) by omega,
      ih (j + 1) n (m / 16) _ (by rw [Nat.pow_succ] at hm; omega)]
    rw [List.singleton_append, litBody, hexOf_hexDigit _ (Nat.mod_lt _ (by decide))]
    simp only
    congr 2
    rw [Nat.pow_succ]
    have := Nat.div_add_mod m 16
    generalize 16 ^ k = X at *
    rw [Nat.mul_comm X 16, Nat.mul_assoc, Nat.mul_add]
    omega

/-- All digits of a hexadecimal escape. -/
theorem litBody_hexDigits (q : Char) (k : Nat) (c : Char) (rest : Str) (h : c.toNat < 16 ^ (k + 1)) :
    litBody q (.hex k 0) (hexDigits (k + 1) c.toNat ++ rest) =
      (litBody q .plain rest).map fun p => (c :: p.1, p.2) := by
  rw [hexDigits, List.append_assoc]
  have h1 := litBody_hex q k 0 0 (c.toNat / 16) ([hexDigit (c.toNat % 16)] ++ rest)
    (by rw [Nat.pow_succ] at h; omega)
  rw [Nat.add_zero] at h1
  rw [h1, List.singleton_append, litBody, hexOf_hexDigit _ (Nat.mod_lt _ (by decide))]
  have h2 : 16 * (16 ^ k * 0 + c.toNat / 16) + c.toNat % 16 = c.toNat := by
    have := Nat.div_add_mod c.toNat 16
    omega
  simp only [h2]
  rw [if_pos (show c.toNat.isValidChar from c.valid), Char.ofNat_toNat]

theorem nul_toNat {c : Char} (h : 32 ≤ c.toNat) : c ≠ NUL ∧ c ≠ '\n' ∧ c ≠ '\r' := by
  refine ⟨?_, ?_, ?_⟩ <;> (rintro rfl; revert h; decide)

/-- One character of `repr`. -/
theorem litBody_reprChar (pr : Printer) {q : Char} (hq : q = '"' ∨ q = '\'') (c : Char) (rest : Str) :
    litBody q .plain (reprChar pr q c ++ rest) = (litBody q .plain rest).map fun p => (c :: p.1, p.2) := by
  have hb : q ≠ '\\' := by rcases hq with rfl | rfl <;> decide
  have hesc : ∀ (x y : Char) (r : Str), simpleEscape x = some y →
      litBody q .plain ('\\' :: x :: r) = (litBody q .plain r).map fun p => (y :: p.1, p.2) := by
    intro x y r hx
    rw [litBody, if_neg (Ne.symm hb), if_neg (by decide), if_pos rfl, litBody, hx]
  have hhex : ∀ (x : Char) (k : Nat) (r : Str), simpleEscape x = none → hexCount x = some (k + 1) →
      litBody q .plain ('\\' :: x :: r) = litBody q (.hex k 0) r := by
    intro x k r h1 h2
    rw [litBody, if_neg (Ne.symm hb), if_neg (by decide), if_pos rfl, litBody, h1, h2]
    rfl
  have hplain : c ≠ q → c ≠ '\\' → 32 ≤ c.toNat → litBody q .plain ([c] ++ rest) =
      (litBody q .plain rest).map fun p => (c :: p.1, p.2) := by
    intro h1 h2 h3
    obtain ⟨h4, h5, h6⟩ := nul_toNat h3
    rw [List.singleton_append, litBody, if_neg h1, if_neg (by simp [h4, h5, h6]), if_neg h2]
  unfold reprChar
  split
  · rename_i h
    rw [List.cons_append, List.cons_append, List.nil_append]
    refine hesc c c rest ?_
    unfold simpleEscape
    rw [if_pos]
    rcases h with rfl | h
    · rcases hq with h | h <;> simp [h]
    · exact .inl h
  rename_i h0
  rw [not_or] at h0
  split
  · rename_i h; subst h; exact hesc _ _ _ (by decide)
  split
  · rename_i h; subst h; exact hesc _ _ _ (by decide)
  split
  · rename_i h; subst h; exact hesc _ _ _ (by decide)
  split
  · rename_i h
    rw [List.cons_append, List.cons_append, hhex _ 1 _ (by decide) (by decide)]
    exact litBody_hexDigits q 1 c rest (by omega)
  rename_i h1
  split
  · exact hplain h0.1 h0.2 (by omega)
  split
  · exact hplain h0.1 h0.2 (by omega)
  split
  · rename_i h
    rw [List.cons_append, List.cons_append, hhex _ 1 _ (by decide) (by decide)]
    exact litBody_hexDigits q 1 c rest (by omega)
  split
  · rename_i h
    rw [List.cons_append, List.cons_append, hhex _ 3 _ (by decide) (by decide)]
    exact litBody_hexDigits q 3 c rest (by omega)
  · rw [List.cons_append, List.cons_append, hhex _ 7 _ (by decide) (by decide)]
    refine litBody_hexDigits q 7 c rest ?_
    have := c.valid
    have h2 : c.toNat < 1114112 := by
      rcases this with h | ⟨_, h⟩ <;> (change c.toNat < _ at h; omega)
    omega

theorem litBody_repr (pr : Printer) {q : Char} (hq : q = '"' ∨ q = '\'') (s : Str) (rest : Str) :
    litBody q .plain (s.flatMap (reprChar pr q) ++ q :: rest) = some (s, rest) := by
  induction s with
  | nil => rw [List.flatMap_nil, List.nil_append, litBody, if_pos rfl]
  | cons c s ih =>
    rw [List.flatMap_cons, List.append_assoc, litBody_reprChar pr hq, ih]
    rfl

theorem reprChar_head (pr : Printer) {q : Char} (hq : q = '"' ∨ q = '\'') (c : Char) :
    ∃ x r, reprChar pr q c = x :: r ∧ x ≠ q := by
  have hb : '\\' ≠ q := by rcases hq with rfl | rfl <;> decide
  unfold reprChar
  split
  · exact ⟨_, _, rfl, hb⟩
  rename_i h0
  rw [not_or] at h0
  repeat' split
  all_goals first
    | exact ⟨_, _, rfl, hb⟩
    | exact ⟨_, _, rfl, h0.1⟩

/-- A text between quotes, escaped as `repr` does it. -/
theorem literal_repr (pr : Printer) {q : Char} (hq : q = '"' ∨ q = '\'') (s : Str) (rest : Str)
    (hr : rest.head? ≠ some q) : literal (q :: (s.flatMap (reprChar pr q) ++ q :: rest)) = some (s, rest) := by
  unfold literal
  simp only []
  rw [if_pos hq, if_neg, litBody_repr pr hq]
  cases s with
  | nil =>
    simp only [List.flatMap_nil, List.nil_append]
    intro h
    cases rest with
    | nil => simp at h
    | cons x xs => simp at h; exact hr (by simp [h])
  | cons c s =>
    obtain ⟨x, r, h1, h2⟩ := reprChar_head pr hq c
    rw [List.flatMap_cons, h1]
    intro h
    simp at h
    exact h2 h.1

/-- `repr` of a string evaluates to that string. -/
theorem literal_pyRepr (pr : Printer) (s rest : Str) (h1 : rest.head? ≠ some '"') (h2 : rest.head? ≠ some '\'') :
    literal (pyRepr pr s ++ rest) = some (s, rest) := by
  unfold pyRepr
  simp only
  split
  · rw [List.cons_append, List.append_assoc]
    exact literal_repr pr (.inl rfl) s rest h1
  · rw [List.cons_append, List.append_assoc]
    exact literal_repr pr (.inr rfl) s rest h2

/-- A text between double quotes, with quotes escaped. -/
theorem litBody_quoted (s rest : Str) (h : ∀ c ∈ s, c ≠ '\\' ∧ c ≠ '\n' ∧ c ≠ '\r' ∧ c ≠ NUL) :
    litBody '"' .plain (replaceChar '"' ['\\', '"'] s ++ '"' :: rest) = some (s, rest) := by
  induction s with
  | nil => simp [replaceChar, litBody]
  | cons c s ih =>
    have ih := ih fun c hc => h c (by simp [hc])
    obtain ⟨h1, h2, h3, h4⟩ := h c (by simp)
    unfold replaceChar at ih ⊢
    rw [List.flatMap_cons, List.append_assoc]
    by_cases hc : c = '"'
    · rw [if_pos hc, List.cons_append, List.cons_append, List.nil_append, litBody, if_neg (by decide),
        if_neg (by decide), if_pos rfl, litBody, show simpleEscape '"' = some '"' by decide]
      simp only
      rw [ih, hc]
      rfl
    · rw [if_neg hc, List.singleton_append, litBody, if_neg hc, if_neg (by simp [h2, h3, h4]), if_neg h1, ih]
      rfl

theorem literal_quoted (s rest : Str) (h : ∀ c ∈ s, c ≠ '\\' ∧ c ≠ '\n' ∧ c ≠ '\r' ∧ c ≠ NUL)
    (hr : rest.head? ≠ some '"') :
    literal ('"' :: (replaceChar '"' ['\\', '"'] s ++ '"' :: rest)) = some (s, rest) := by
  unfold literal
  simp only []
  rw [if_pos (by simp), if_neg, litBody_quoted s rest h]
  cases s with
  | nil =>
    intro h
    cases rest with
    | nil => simp [replaceChar] at h
    | cons x xs => simp [replaceChar] at h; exact hr (by simp [h])
  | cons c s =>
    unfold replaceChar
    rw [List.flatMap_cons]
    split
    · simp
    · rename_i hc
      simp [hc]

theorem replaceChar_none {x : Char} {y s : Str} (h : x ∉ s) : replaceChar x y s = s := by
  unfold replaceChar
  induction s with
  | nil => rfl
  | cons c s ih =>
    simp only [List.mem_cons, not_or] at h
    rw [List.flatMap_cons, if_neg (Ne.symm h.1), ih h.2]
    rfl

theorem replaceChar_append (x : Char) (y s t : Str) : replaceChar x y (s ++ t) = replaceChar x y s ++ replaceChar x y t :=
  List.flatMap_append ..

/-- A text between double quotes without anything to escape. -/
theorem literal_raw (s rest : Str) (h : ∀ c ∈ s, c ≠ '"' ∧ c ≠ '\\' ∧ c ≠ '\n' ∧ c ≠ '\r' ∧ c ≠ NUL)
    (hr : rest.head? ≠ some '"') : literal ('"' :: (s ++ '"' :: rest)) = some (s, rest) := by
  have := literal_quoted s rest (fun c hc => (h c hc).2) hr
  rwa [replaceChar_none] at this
  intro hc
  exact (h _ hc).1 rfl

theorem hexDigit_not_quote : ∀ v < 16, hexDigit v ≠ '\'' := by decide

theorem hexDigits_not_quote : ∀ (k n : Nat), '\'' ∉ hexDigits k n
  | 0, _ => by simp [hexDigits]
  | k + 1, n => by
    rw [hexDigits, List.mem_append, not_or]
    refine ⟨hexDigits_not_quote k _, ?_⟩
    simp only [List.mem_singleton]
    exact fun h => hexDigit_not_quote _ (Nat.mod_lt _ (by decide)) h.symm

theorem reprChar_swap (pr : Printer) {c : Char} (h1 : c ≠ '\'') (h2 : c ≠ '"') :
    reprChar pr '\'' c = reprChar pr '"' c ∧ '\'' ∉ reprChar pr '\'' c := by
  constructor
  · unfold reprChar
    simp [h1, h2]
  · unfold reprChar
    have := hexDigits_not_quote
    repeat' split
    all_goals simp [this, Ne.symm h1]

/-- The literal for the escape character. -/
theorem codeEscapechar_eq (pr : Printer) (d : SimpleDialect) {E : Str} (he : d.escapechar = some E)
    (h : ∀ c ∈ E, c ≠ '\'' ∧ c ≠ '"') :
    codeEscapechar pr d = '"' :: (E.flatMap (reprChar pr '"') ++ ['"']) := by
  have hc : E.contains '\'' = false := by
    rw [Bool.eq_false_iff]
    intro hc
    rw [List.contains_iff_mem] at hc
    exact (h _ hc).1 rfl
  unfold codeEscapechar pyRepr
  simp only [he, fmtOpt, hc, Bool.false_and, Bool.false_eq_true, if_false]
  rw [show ('\'' :: (E.flatMap (reprChar pr '\'') ++ ['\''])) =
    ['\''] ++ E.flatMap (reprChar pr '\'') ++ ['\''] by simp, replaceChar_append, replaceChar_append]
  have h1 : E.flatMap (reprChar pr '\'') = E.flatMap (reprChar pr '"') ∧ '\'' ∉ E.flatMap (reprChar pr '\'') := by
    clear hc he
    induction E with
    | nil => simp
    | cons c s ih =>
      obtain ⟨i1, i2⟩ := ih fun c hc => h c (by simp [hc])
      obtain ⟨j1, j2⟩ := h c (by simp)
      obtain ⟨k1, k2⟩ := reprChar_swap pr j1 j2
      constructor
      · rw [List.flatMap_cons, List.flatMap_cons, i1, k1]
      · rw [List.flatMap_cons, List.mem_append, not_or]
        exact ⟨k2, i2⟩
  rw [replaceChar_none h1.2, h1.1]
  rfl

theorem after_append (word : String) (s : Str) : after word (word.toList ++ s) = some s := by
  unfold after
  rw [if_pos (List.isPrefixOf_iff_prefix.mpr (List.prefix_append ..))]
  simp

/-- The text after a word, for any way to write the word. -/
theorem after_of {word : String} {s t : Str} (h : t = word.toList ++ s) : after word t = some s := by
  rw [h, after_append]

end Clever
