import Verif.Proofs.Json
import Verif.Proofs.JsonGrammar
import Verif.Spec.JsonText

/-!
# `json.loads` of objects
-/

namespace Clever

open Spec

theorem hexVal_eq (c : Char) : hexVal c = if hexDig c then some (hexValue c) else none := by
  unfold hexVal hexDig hexValue digit
  by_cases h1 : 48 ≤ c.toNat ∧ c.toNat ≤ 57
  · simp [h1.1, h1.2]
  · have h1' : ¬ (decide (48 ≤ c.toNat) && decide (c.toNat ≤ 57)) = true := by simpa using h1
    rw [if_neg h1]
    by_cases h2 : 97 ≤ c.toNat ∧ c.toNat ≤ 102
    · rw [if_pos h2, if_neg h1', if_pos (by simp [h2]), if_pos h2.1]
    · rw [if_neg h2]
      by_cases h3 : 65 ≤ c.toNat ∧ c.toNat ≤ 70
      · rw [if_pos h3, if_pos (by simp [h3]), if_neg h1', if_neg (by omega)]
      · rw [if_neg h3, if_neg (by simp; omega)]

theorem hex4_iff {s rest : Str} {n : Nat} : hex4 s = some (n, rest) ↔ ∃ ds, HexText n ds ∧ s = ds ++ rest := by
  constructor
  · intro h
    match s, h with
    | a :: b :: c :: d :: t, h =>
      simp only [hex4, hexVal_eq, bind, Option.bind, pure] at h
      by_cases ha : hexDig a = true
      · by_cases hb : hexDig b = true
        · by_cases hc : hexDig c = true
          · by_cases hd : hexDig d = true
            · simp only [ha, hb, hc, hd, if_true, Option.some.injEq, Prod.mk.injEq] at h
              refine ⟨[a, b, c, d], ⟨rfl, ?_, ?_⟩, by simp [h.2]⟩
              · intro x hx
                simp only [List.mem_cons, List.not_mem_nil, or_false] at hx
                rcases hx with rfl | rfl | rfl | rfl <;> assumption
              · simp only [List.foldl_cons, List.foldl_nil]
                omega
            · simp [ha, hb, hc, hd] at h
          · simp [ha, hb, hc] at h
        · simp [ha, hb] at h
      · simp [ha] at h
  · rintro ⟨ds, ⟨h1, h2, h3⟩, rfl⟩
    match ds, h1 with
    | [a, b, c, d], _ =>
      have ha := h2 a (by simp)
      have hb := h2 b (by simp)
      have hc := h2 c (by simp)
      have hd := h2 d (by simp)
      simp only [List.foldl_cons, List.foldl_nil] at h3
      simp only [List.cons_append, List.nil_append, hex4, hexVal_eq, ha, hb, hc, hd, if_true, bind, Option.bind, pure,
        Option.some.injEq, Prod.mk.injEq, and_true]
      omega

theorem hexText_lt {n : Nat} {s : Str} (h : HexText n s) : n < 65536 := by
  obtain ⟨h1, h2, h3⟩ := h
  have hv : ∀ c, hexDig c = true → hexValue c < 16 := by
    intro c hc
    unfold hexDig digit at hc
    unfold hexValue digit
    simp only [Bool.or_eq_true, Bool.and_eq_true, decide_eq_true_eq] at hc
    repeat' split
    all_goals (simp only [Bool.and_eq_true, decide_eq_true_eq] at *; omega)
  match s, h1 with
  | [a, b, c, d], _ =>
    have ha := hv a (h2 a (by simp))
    have hb := hv b (h2 b (by simp))
    have hc := hv c (h2 c (by simp))
    have hd := hv d (h2 d (by simp))
    simp only [List.foldl_cons, List.foldl_nil] at h3
    omega

theorem toNat_ofNat {n : Nat} (h : n < 55296 ∨ (57343 < n ∧ n < 1114112)) : (Char.ofNat n).toNat = n := by
  have hv : n.isValidChar := h
  simp [Char.ofNat, hv, Char.toNat, Char.ofNatAux]

theorem decodeEscape_some {s rest : Str} {c : Char} (h : decodeEscape s = some (c, rest)) :
    ∃ x, x ≠ [] ∧ CharText c ('\\' :: x) ∧ s = x ++ rest := by
  match s, h with
  | x :: t, h =>
    simp only [decodeEscape] at h
    have short : ∀ (x c : Char), (x, c) ∈ shortEscapes → some (c, t) = some (c, rest) →
        ∃ y, y ≠ [] ∧ CharText c ('\\' :: y) ∧ x :: t = y ++ rest := by
      intro x c hm he
      simp only [Option.some.injEq, Prod.mk.injEq, true_and] at he
      exact ⟨[x], by simp, Or.inr (Or.inl ⟨x, hm, rfl⟩), by simp [he]⟩
    split at h
    · rename_i hx
      simp only [Option.some.injEq, Prod.mk.injEq] at h
      obtain ⟨rfl, rfl⟩ := h
      refine ⟨[x], by simp, Or.inr (Or.inl ⟨x, ?_, rfl⟩), by simp⟩
      rcases hx with rfl | rfl | rfl <;> simp [shortEscapes]
    split at h
    · rename_i hx; subst hx
      simp only [Option.some.injEq, Prod.mk.injEq] at h
      obtain ⟨rfl, rfl⟩ := h
      exact ⟨['b'], by simp, Or.inr (Or.inl ⟨'b', by simp [shortEscapes], rfl⟩), by simp⟩
    split at h
    · rename_i hx; subst hx
      simp only [Option.some.injEq, Prod.mk.injEq] at h
      obtain ⟨rfl, rfl⟩ := h
      exact ⟨['f'], by simp, Or.inr (Or.inl ⟨'f', by simp [shortEscapes], rfl⟩), by simp⟩
    split at h
    · rename_i hx; subst hx
      simp only [Option.some.injEq, Prod.mk.injEq] at h
      obtain ⟨rfl, rfl⟩ := h
      exact ⟨['n'], by simp, Or.inr (Or.inl ⟨'n', by simp [shortEscapes], rfl⟩), by simp⟩
    split at h
    · rename_i hx; subst hx
      simp only [Option.some.injEq, Prod.mk.injEq] at h
      obtain ⟨rfl, rfl⟩ := h
      exact ⟨['r'], by simp, Or.inr (Or.inl ⟨'r', by simp [shortEscapes], rfl⟩), by simp⟩
    split at h
    · rename_i hx; subst hx
      simp only [Option.some.injEq, Prod.mk.injEq] at h
      obtain ⟨rfl, rfl⟩ := h
      exact ⟨['t'], by simp, Or.inr (Or.inl ⟨'t', by simp [shortEscapes], rfl⟩), by simp⟩
    split at h
    · rename_i hx; subst hx
      cases h4 : hex4 t with
      | none => simp [h4] at h
      | some p =>
        obtain ⟨n, t1⟩ := p
        rw [h4] at h
        obtain ⟨ds, hds, rfl⟩ := hex4_iff.1 h4
        have hn := hexText_lt hds
        simp only at h
        split at h
        · rename_i hhi
          match t1, h with
          | b :: u :: t2, h =>
            simp only at h
            split at h
            · rename_i hbu
              obtain ⟨rfl, rfl⟩ := hbu
              cases h5 : hex4 t2 with
              | none => simp [h5] at h
              | some p =>
                obtain ⟨m, t3⟩ := p
                rw [h5] at h
                obtain ⟨es, hes, rfl⟩ := hex4_iff.1 h5
                simp only at h
                split at h
                · rename_i hlo
                  simp only [Option.some.injEq, Prod.mk.injEq] at h
                  obtain ⟨rfl, rfl⟩ := h
                  refine ⟨'u' :: (ds ++ '\\' :: 'u' :: es), by simp, ?_, by simp⟩
                  refine Or.inr (Or.inr (Or.inr ⟨n, m, ds, es, hds, hes, by omega, by omega, by omega, by omega, ?_, rfl⟩))
                  rw [toNat_ofNat (by omega)]
                · simp at h
            · simp at h
        · split at h
          · simp at h
          · simp only [Option.some.injEq, Prod.mk.injEq] at h
            obtain ⟨rfl, rfl⟩ := h
            refine ⟨'u' :: ds, by simp, Or.inr (Or.inr (Or.inl ⟨ds, ?_, rfl⟩)), by simp⟩
            rw [toNat_ofNat (by omega)]
            exact hds
    · simp at h

/-- What one way to write a character looks like: not an escape, or a backslash and something that is decoded. -/
theorem charText_cases {c : Char} {s : Str} (h : CharText c s) :
    (c ≠ '"' ∧ c ≠ '\\' ∧ 32 ≤ c.toNat ∧ s = [c]) ∨
      ∃ x, s = '\\' :: x ∧ ∀ rest, decodeEscape (x ++ rest) = some (c, rest) := by
  rcases h with h | ⟨x, hx, rfl⟩ | ⟨ds, hds, rfl⟩ | ⟨hi, lo, ds, es, hds, hes, h1, h2, h3, h4, h5, rfl⟩
  · exact Or.inl h
  · refine Or.inr ⟨[x], rfl, fun rest => ?_⟩
    simp only [shortEscapes, List.mem_cons, Prod.mk.injEq, List.not_mem_nil, or_false] at hx
    rcases hx with ⟨rfl, rfl⟩ | ⟨rfl, rfl⟩ | ⟨rfl, rfl⟩ | ⟨rfl, rfl⟩ | ⟨rfl, rfl⟩ | ⟨rfl, rfl⟩ | ⟨rfl, rfl⟩ |
      ⟨rfl, rfl⟩ <;> simp [decodeEscape]
  · refine Or.inr ⟨'u' :: ds, rfl, fun rest => ?_⟩
    have h4 : hex4 (ds ++ rest) = some (c.toNat, rest) := hex4_iff.2 ⟨ds, hds, rfl⟩
    have hc := char_not_surrogate c
    simp only [List.cons_append, decodeEscape, Char.reduceEq, or_self, if_false, if_true, h4]
    rw [if_neg (by omega), if_neg (by omega), ofNat_toNat]
  · refine Or.inr ⟨'u' :: (ds ++ '\\' :: 'u' :: es), rfl, fun rest => ?_⟩
    have h6 : hex4 (ds ++ ('\\' :: 'u' :: (es ++ rest))) = some (hi, '\\' :: 'u' :: (es ++ rest)) :=
      hex4_iff.2 ⟨ds, hds, rfl⟩
    have h7 : hex4 (es ++ rest) = some (lo, rest) := hex4_iff.2 ⟨es, hes, rfl⟩
    simp only [List.cons_append, List.append_assoc, decodeEscape, Char.reduceEq, or_self, if_false, if_true, h6,
      and_self, h7]
    rw [if_pos (by omega), if_pos (by omega)]
    have e : 65536 + ((hi - 55296) * 1024 + (lo - 56320)) = c.toNat := by omega
    rw [e, ofNat_toNat]

theorem decodeStr_iff {n : Nat} {s t rest : Str} (hn : s.length < n) :
    decodeStr n s = some (t, rest) ↔ ∃ r, BodyText t r ∧ s = r ++ '"' :: rest := by
  induction n generalizing s t with
  | zero => omega
  | succ n ih =>
    constructor
    · intro h
      cases s with
      | nil => simp [decodeStr] at h
      | cons c s =>
        simp only [List.length_cons] at hn
        simp only [decodeStr] at h
        split at h
        · rename_i hc; subst hc
          simp only [Option.some.injEq, Prod.mk.injEq] at h
          obtain ⟨rfl, rfl⟩ := h
          exact ⟨[], .nil, rfl⟩
        · rename_i hq
          split at h
          · rename_i hc; subst hc
            cases he : decodeEscape s with
            | none => simp [he] at h
            | some p =>
              obtain ⟨c, s1⟩ := p
              rw [he] at h
              simp only at h
              obtain ⟨x, hx0, hx, rfl⟩ := decodeEscape_some he
              cases hd : decodeStr n s1 with
              | none => simp [hd] at h
              | some p =>
                obtain ⟨t1, s2⟩ := p
                rw [hd] at h
                simp only [Option.some.injEq, Prod.mk.injEq] at h
                obtain ⟨rfl, rfl⟩ := h
                simp only [List.length_append] at hn
                obtain ⟨r, hr, rfl⟩ := (ih (by omega)).1 hd
                exact ⟨'\\' :: x ++ r, .cons hx hr, by simp⟩
          · rename_i hb
            split at h
            · simp at h
            · rename_i h32
              cases hd : decodeStr n s with
              | none => simp [hd] at h
              | some p =>
                obtain ⟨t1, s2⟩ := p
                rw [hd] at h
                simp only [Option.some.injEq, Prod.mk.injEq] at h
                obtain ⟨rfl, rfl⟩ := h
                obtain ⟨r, hr, rfl⟩ := (ih (by omega)).1 hd
                exact ⟨[c] ++ r, .cons (Or.inl ⟨hq, hb, by omega, rfl⟩) hr, by simp⟩
    · rintro ⟨r, hr, rfl⟩
      cases hr with
      | nil => simp [decodeStr]
      | @cons c s' t' r' hc hr' =>
        rcases charText_cases hc with ⟨h1, h2, h3, rfl⟩ | ⟨x, rfl, hx⟩
        · simp only [List.cons_append, List.nil_append, List.length_cons] at hn ⊢
          simp only [decodeStr, h1, h2, if_false]
          rw [if_neg (by omega), (ih (by omega)).2 ⟨r', hr', rfl⟩]
        · simp only [List.cons_append, List.append_assoc, List.length_cons, List.length_append] at hn ⊢
          rw [decodeStr_escape n _ c (r' ++ '"' :: rest) (hx _),
            (ih (by simp only [List.length_append, List.length_cons]; omega)).2 ⟨r', hr', rfl⟩]
          rfl

theorem dropPrefix_iff {p s rest : Str} : dropPrefix p s = some rest ↔ s = p ++ rest := by
  induction p generalizing s with
  | nil => simp [dropPrefix]
  | cons a p ih =>
    cases s with
    | nil => simp [dropPrefix]
    | cons c s =>
      simp only [dropPrefix]
      split
      · rename_i h; subst h; simp [ih]
      · rename_i h; simp [Ne.symm h]

theorem decodeQuoted_iff {s rest t : Str} : decodeQuoted s = some (t, rest) ↔ ∃ r, StringText t r ∧ s = r ++ rest := by
  unfold decodeQuoted
  cases h1 : dropPrefix ['"'] s with
  | some s1 =>
    obtain rfl := dropPrefix_iff.1 h1
    constructor
    · intro hd
      obtain ⟨b, hb, rfl⟩ := (decodeStr_iff (Nat.lt_succ_self _)).1 hd
      exact ⟨_, ⟨b, hb, rfl⟩, by simp⟩
    · rintro ⟨r, ⟨b, hb, rfl⟩, hs⟩
      exact (decodeStr_iff (Nat.lt_succ_self _)).2 ⟨b, hb, by simpa using hs⟩
  | none =>
    simp only [reduceCtorEq, false_iff]
    rintro ⟨r, ⟨b, hb, rfl⟩, rfl⟩
    simp [dropPrefix] at h1

/-- The words are no prefixes of each other and do not begin with a quote. -/
theorem decodeQuoted_word {w s : Str} (hw : w ∈ jsonWords) : decodeQuoted (w ++ s) = none := by
  simp only [jsonWords, List.mem_cons, List.not_mem_nil, or_false] at hw
  rcases hw with rfl | rfl | rfl <;> rfl

theorem decodeVal_some {env : PyEnv} {d : Nat} {s rest : Str} {v : JVal} (h : decodeVal env d s = some (v, rest)) :
    ∃ r, ValueText env.maxStrDigits d v r ∧ s = r ++ rest := by
  unfold decodeVal at h
  cases h1 : decodeQuoted s with
  | some p =>
    simp only [h1, Option.some.injEq, Prod.mk.injEq] at h
    obtain ⟨rfl, rfl⟩ := h
    exact decodeQuoted_iff.1 h1
  | none =>
    simp only [h1] at h
    cases h2 : dropPrefix "true".toList s with
    | some s1 =>
      simp only [h2, Option.some.injEq, Prod.mk.injEq] at h
      obtain ⟨rfl, rfl⟩ := h
      exact ⟨_, rfl, dropPrefix_iff.1 h2⟩
    | none =>
      simp only [h2] at h
      cases h3 : dropPrefix "false".toList s with
      | some s1 =>
        simp only [h3, Option.some.injEq, Prod.mk.injEq] at h
        obtain ⟨rfl, rfl⟩ := h
        exact ⟨_, rfl, dropPrefix_iff.1 h3⟩
      | none =>
        simp only [h3] at h
        cases h4 : dropPrefix "null".toList s with
        | some s1 =>
          simp only [h4, Option.some.injEq, Prod.mk.injEq] at h
          obtain ⟨rfl, rfl⟩ := h
          exact ⟨_, rfl, dropPrefix_iff.1 h4⟩
        | none =>
          simp only [h4] at h
          split at h
          · simp at h
          · rename_i s1 h5
            simp only [Option.some.injEq, Prod.mk.injEq] at h
            obtain ⟨rfl, rfl⟩ := h
            obtain ⟨r, hr, rfl⟩ := (jParse_sound env _).1 _ _ _ h5
            refine ⟨r, ⟨by simp, by simpa using hr, ?_, ?_⟩, rfl⟩
            · intro u hu
              rw [decodeQuoted_iff.2 ⟨r, by simpa using hu, rfl⟩] at h1
              cases h1
            · intro hw
              simp only [List.length_append, Nat.add_sub_cancel, List.take_left, jsonWords, List.mem_cons,
                List.not_mem_nil, or_false] at hw
              rcases hw with rfl | rfl | rfl
              · rw [dropPrefix_iff.2 rfl] at h4; cases h4
              · rw [dropPrefix_iff.2 rfl] at h2; cases h2
              · rw [dropPrefix_iff.2 rfl] at h3; cases h3

/-- Strings are JSON strings. -/
theorem charText_json {c : Char} {s : Str} (h : CharText c s) : ∃ cs : List Str, (∀ x ∈ cs, IsJsonChar x) ∧ s = cs.flatten := by
  rcases h with ⟨h1, h2, h3, rfl⟩ | ⟨x, hx, rfl⟩ | ⟨ds, ⟨h1, h2, -⟩, rfl⟩ | ⟨hi, lo, ds, es, ⟨h1, h2, -⟩, ⟨h3, h4, -⟩, -, -, -, -, -, rfl⟩
  · exact ⟨[[c]], fun x hx => List.mem_singleton.1 hx ▸ Or.inl ⟨c, h1, h2, h3, rfl⟩, rfl⟩
  · refine ⟨[['\\', x]], ?_, rfl⟩
    intro y hy
    obtain rfl := List.mem_singleton.1 hy
    refine Or.inr (Or.inl ⟨x, ?_, rfl⟩)
    simp only [shortEscapes, List.mem_cons, Prod.mk.injEq, List.not_mem_nil, or_false] at hx
    rcases hx with ⟨rfl, -⟩ | ⟨rfl, -⟩ | ⟨rfl, -⟩ | ⟨rfl, -⟩ | ⟨rfl, -⟩ | ⟨rfl, -⟩ | ⟨rfl, -⟩ | ⟨rfl, -⟩ <;> decide
  · refine ⟨['\\' :: 'u' :: ds], ?_, by simp⟩
    intro y hy
    obtain rfl := List.mem_singleton.1 hy
    exact Or.inr (Or.inr ⟨ds, h1, h2, rfl⟩)
  · refine ⟨['\\' :: 'u' :: ds, '\\' :: 'u' :: es], ?_, by simp⟩
    intro y hy
    simp only [List.mem_cons, List.not_mem_nil, or_false] at hy
    rcases hy with rfl | rfl
    · exact Or.inr (Or.inr ⟨ds, h1, h2, rfl⟩)
    · exact Or.inr (Or.inr ⟨es, h3, h4, rfl⟩)

theorem stringText_json {t r : Str} (h : StringText t r) : IsJsonString r := by
  obtain ⟨b, hb, rfl⟩ := h
  suffices ∃ cs : List Str, (∀ x ∈ cs, IsJsonChar x) ∧ b = cs.flatten by
    obtain ⟨cs, h1, rfl⟩ := this
    exact ⟨cs, h1, rfl⟩
  induction hb with
  | nil => exact ⟨[], by simp, rfl⟩
  | cons hc _ ih =>
    obtain ⟨cs, h1, rfl⟩ := charText_json hc
    obtain ⟨ds, h2, rfl⟩ := ih
    exact ⟨cs ++ ds, fun x hx => (List.mem_append.1 hx).elim (h1 x) (h2 x), by simp⟩

/-- Where a JSON string ends is determined by the text. -/
theorem jsonString_cancel {r y rest x : Str} (hr : IsJsonString r) (hy : IsJsonString y) (h : r ++ rest = y ++ x) :
    r = y := by
  obtain ⟨cs, hc, rfl⟩ := hr
  obtain ⟨ds, hd, rfl⟩ := hy
  have h' : cs.flatten ++ '"' :: rest = ds.flatten ++ '"' :: x := by simpa using h
  have e1 := jString_complete hc rest
  rw [h', jString_complete hd x] at e1
  obtain rfl : x = rest := by simpa using e1
  exact List.append_cancel_right h

/-- A value of which a word is the beginning is the word. -/
theorem word_value {lim d : Nat} {t rest r w : Str} (ht : IsJson pythonWords lim .value d t) (hw : w ∈ jsonWords)
    (h : t ++ rest = w ++ r) : t = w := by
  have hd : ∀ c, digit c = true → ∀ w ∈ jsonWords, w.head? ≠ some c := by
    intro c hc w hw he
    simp only [jsonWords, List.mem_cons, List.not_mem_nil, or_false] at hw
    rcases hw with rfl | rfl | rfl <;> (simp at he; subst he; revert hc; decide)
  have hq : ∀ c x, t = c :: x → w.head? = some c := by
    rintro c x rfl
    have := congrArg List.head? h
    simp only [jsonWords, List.mem_cons, List.not_mem_nil, or_false] at hw
    rcases hw with rfl | rfl | rfl <;> simpa using this.symm
  cases ht with
  | word hv =>
    simp only [pythonWords, jsonWords, List.cons_append, List.nil_append, List.mem_cons, List.not_mem_nil, or_false] at hv
    simp only [jsonWords, List.mem_cons, List.not_mem_nil, or_false] at hw
    rcases hv with rfl | rfl | rfl | rfl | rfl | rfl <;> rcases hw with rfl | rfl | rfl <;> first
      | rfl
      | (exfalso; simp at h)
  | number hn =>
    obtain ⟨g, n, f, e, hg, hw', -, -, -, rfl⟩ := hn
    obtain ⟨c, x, rfl, hc⟩ := isWhole_head hw'
    rcases hg with rfl | rfl
    · exact absurd (hq c _ rfl) (hd c hc w hw)
    · exfalso
      have := hq '-' _ rfl
      simp only [jsonWords, List.mem_cons, List.not_mem_nil, or_false] at hw
      rcases hw with rfl | rfl | rfl <;> simp at this
  | string hs =>
    obtain ⟨cs, -, rfl⟩ := hs
    exfalso
    have := hq '"' _ rfl
    simp only [jsonWords, List.mem_cons, List.not_mem_nil, or_false] at hw
    rcases hw with rfl | rfl | rfl <;> simp at this
  | emptyArray | array =>
    exfalso
    have := hq '[' _ rfl
    simp only [jsonWords, List.mem_cons, List.not_mem_nil, or_false] at hw
    rcases hw with rfl | rfl | rfl <;> simp at this
  | emptyObject | object =>
    exfalso
    have := hq '{' _ rfl
    simp only [jsonWords, List.mem_cons, List.not_mem_nil, or_false] at hw
    rcases hw with rfl | rfl | rfl <;> simp at this

theorem decodeVal_of {env : PyEnv} {d : Nat} {r rest : Str} {v : JVal} (h : ValueText env.maxStrDigits d v r)
    (hr : JFollow rest) : decodeVal env d (r ++ rest) = some (v, rest) := by
  cases v with
  | str t => simp only [decodeVal, decodeQuoted_iff.2 ⟨r, h, rfl⟩]
  | bool b =>
    cases b
    · obtain rfl : r = "false".toList := h
      rfl
    · obtain rfl : r = "true".toList := h
      rfl
  | null =>
    obtain rfl : r = "null".toList := h
    rfl
  | other t =>
    obtain ⟨rfl, hj, hs, hw⟩ := h
    have hv := jParse_complete env (fun _ h => h) hj (2 * (r ++ rest).length + 1) rest
      (by simp only [List.length_append]; omega) hr
    have hq : decodeQuoted (r ++ rest) = none := by
      cases hq : decodeQuoted (r ++ rest) with
      | none => rfl
      | some p =>
        obtain ⟨u, x⟩ := p
        obtain ⟨y, hy, he⟩ := decodeQuoted_iff.1 hq
        exfalso
        have hy' := stringText_json hy
        have hr' : IsJsonString r := by
          obtain ⟨c, t, rfl, -⟩ := value_head (fun _ h => h) hj
          have hc : c = '"' := by
            obtain ⟨b, -, rfl⟩ := hy
            simp only [List.cons_append, List.cons.injEq] at he
            exact he.1
          subst hc
          generalize ht : '"' :: t = r at hj
          cases hj with
          | word hv =>
            simp only [pythonWords, jsonWords, List.cons_append, List.nil_append, List.mem_cons, List.not_mem_nil,
              or_false] at hv
            rcases hv with rfl | rfl | rfl | rfl | rfl | rfl <;> simp at ht
          | number hn =>
            obtain ⟨g, n, f, e, hg, hw', -, -, -, rfl⟩ := hn
            obtain ⟨c, x, rfl, hc⟩ := isWhole_head hw'
            rcases hg with rfl | rfl
            · simp only [List.nil_append, List.cons_append, List.cons.injEq] at ht
              rw [← ht.1] at hc
              exact absurd hc (by decide)
            · simp at ht
          | string hs => exact hs
          | emptyArray | array | emptyObject | object => simp at ht
        obtain rfl := jsonString_cancel hr' hy' he
        exact hs u hy
    have hp : ∀ w ∈ jsonWords, dropPrefix w (r ++ rest) = none := by
      intro w hw'
      cases hx : dropPrefix w (r ++ rest) with
      | none => rfl
      | some x =>
        obtain rfl := word_value hj hw' (dropPrefix_iff.1 hx)
        exact absurd hw' hw
    simp only [decodeVal, hq, hp _ (show "true".toList ∈ jsonWords by simp [jsonWords]),
      hp _ (show "false".toList ∈ jsonWords by simp [jsonWords]),
      hp _ (show "null".toList ∈ jsonWords by simp [jsonWords]), hv]
    simp

/-! ## White space -/

theorem skipWs_split (s : Str) : ∃ a, IsJsonSpace a ∧ s = a ++ skipWs s := by
  induction s with
  | nil => exact ⟨[], by simp [IsJsonSpace], rfl⟩
  | cons c s ih =>
    simp only [skipWs]
    split
    · rename_i h
      obtain ⟨a, ha, hs⟩ := ih
      refine ⟨c :: a, ?_, by rw [List.cons_append, ← hs]⟩
      intro x hx
      rcases List.mem_cons.1 hx with rfl | hx
      · exact h
      · exact ha x hx
    · exact ⟨[], by simp [IsJsonSpace], rfl⟩

theorem skipWs_skip {a : Str} (h : IsJsonSpace a) (s : Str) : skipWs (a ++ s) = skipWs s := by
  induction a with
  | nil => rfl
  | cons c a ih =>
    have hc := h c (by simp)
    simp only [List.cons_append, skipWs, hc, if_true]
    exact ih (fun x hx => h x (by simp [hx]))

/-- A text that does not begin with white space. -/
theorem skipWs_id {c : Char} {s : Str} (h : ¬ (c = ' ' ∨ c = '\t' ∨ c = '\n' ∨ c = '\r')) : skipWs (c :: s) = c :: s := by
  simp only [skipWs, if_neg h]

theorem skipWs_nil_iff {s : Str} : skipWs s = [] ↔ IsJsonSpace s := by
  constructor
  · intro h
    obtain ⟨a, ha, hs⟩ := skipWs_split s
    rw [h, List.append_nil] at hs
    rw [hs]; exact ha
  · intro h
    have := skipWs_skip h []
    simpa [skipWs] using this

theorem valueText_head {lim d : Nat} {v : JVal} {r : Str} (h : ValueText lim d v r) :
    ∃ c t, r = c :: t ∧ ¬ (c = ' ' ∨ c = '\t' ∨ c = '\n' ∨ c = '\r') := by
  cases v with
  | str t => obtain ⟨b, -, rfl⟩ := h; exact ⟨_, _, rfl, by simp⟩
  | bool b =>
    cases b
    · exact ⟨'f', "alse".toList, h, by simp⟩
    · exact ⟨'t', "rue".toList, h, by simp⟩
  | null => exact ⟨'n', "ull".toList, h, by simp⟩
  | other t =>
    obtain ⟨rfl, h, -⟩ := h
    obtain ⟨c, t, h1, h2, -⟩ := value_head (fun _ h => h) h
    exact ⟨c, t, h1, h2⟩

/-! ## Members -/

theorem decodeItem_iff {env : PyEnv} {d : Nat} {s rest : Str} {p : Str × JVal} :
    (decodeItem env d s = some (p, rest) →
      ∃ a k b c v, IsJsonSpace a ∧ StringText p.1 k ∧ IsJsonSpace b ∧ IsJsonSpace c ∧
        ValueText env.maxStrDigits d p.2 v ∧ s = a ++ (k ++ (b ++ ':' :: (c ++ (v ++ rest))))) ∧
    (JFollow rest → (∃ a k b c v, IsJsonSpace a ∧ StringText p.1 k ∧ IsJsonSpace b ∧ IsJsonSpace c ∧
        ValueText env.maxStrDigits d p.2 v ∧ s = a ++ (k ++ (b ++ ':' :: (c ++ (v ++ rest))))) →
      decodeItem env d s = some (p, rest)) := by
  obtain ⟨key, val⟩ := p
  constructor
  · intro h
    obtain ⟨a, ha, hs⟩ := skipWs_split s
    simp only [decodeItem, bind, Option.bind] at h
    cases h1 : decodeQuoted (skipWs s) with
    | none => simp [h1] at h
    | some p =>
      obtain ⟨k, s2⟩ := p
      rw [h1] at h
      simp only at h
      obtain ⟨b, hb, hs2⟩ := skipWs_split s2
      cases h3 : dropPrefix [':'] (skipWs s2) with
      | none => simp [h3] at h
      | some s3 =>
        rw [h3] at h
        simp only at h
        obtain ⟨c, hc, hs3⟩ := skipWs_split s3
        cases h4 : decodeVal env d (skipWs s3) with
        | none => simp [h4] at h
        | some p =>
          obtain ⟨v, s4⟩ := p
          rw [h4] at h
          simp only [pure, Option.some.injEq, Prod.mk.injEq] at h
          obtain ⟨⟨rfl, rfl⟩, rfl⟩ := h
          obtain ⟨kr, hkr, hk2⟩ := decodeQuoted_iff.1 h1
          obtain ⟨vr, hvr, hv2⟩ := decodeVal_some h4
          refine ⟨a, kr, b, c, vr, ha, hkr, hb, hc, hvr, ?_⟩
          rw [hs, hk2, hs2, dropPrefix_iff.1 h3, hs3, hv2]
          simp
  · rintro hf ⟨a, k, b, c, v, ha, hk, hb, hc, hv, rfl⟩
    simp only at hk hv
    obtain ⟨x, vt, hvx, hx⟩ := valueText_head hv
    have e1 : skipWs (a ++ (k ++ (b ++ ':' :: (c ++ (v ++ rest))))) = k ++ (b ++ ':' :: (c ++ (v ++ rest))) := by
      obtain ⟨kb, -, rfl⟩ := hk
      rw [skipWs_skip ha, List.cons_append, skipWs_id (by simp)]
    have e2 : decodeQuoted (k ++ (b ++ ':' :: (c ++ (v ++ rest)))) = some (key, b ++ ':' :: (c ++ (v ++ rest))) :=
      decodeQuoted_iff.2 ⟨k, hk, rfl⟩
    have e3 : skipWs (b ++ ':' :: (c ++ (v ++ rest))) = ':' :: (c ++ (v ++ rest)) := by
      rw [skipWs_skip hb, skipWs_id (by simp)]
    have e4 : skipWs (c ++ (v ++ rest)) = v ++ rest := by
      rw [skipWs_skip hc, hvx, List.cons_append, skipWs_id hx]
    have e5 : decodeVal env d (v ++ rest) = some (val, rest) := decodeVal_of hv hf
    simp only [decodeItem, bind, Option.bind, e1, dropPrefix, if_true, e2, e3, e4, e5, pure]

theorem decodeItems_some {env : PyEnv} {d n : Nat} {s rest : Str} {ps : List (Str × JVal)}
    (h : decodeItems env d n s = some (ps, rest)) : ∃ b, MembersText env.maxStrDigits d ps b ∧ s = b ++ '}' :: rest := by
  induction n generalizing s ps with
  | zero => simp [decodeItems] at h
  | succ n ih =>
    simp only [decodeItems] at h
    cases h1 : decodeItem env d s with
    | none => simp [h1] at h
    | some p =>
      obtain ⟨p, s1⟩ := p
      rw [h1] at h
      simp only at h
      obtain ⟨a, k, b, c, v, ha, hk, hb, hc, hv, rfl⟩ := decodeItem_iff.1 h1
      obtain ⟨e, he, hs1⟩ := skipWs_split s1
      cases h2 : skipWs s1 with
      | nil => simp [h2] at h
      | cons x s2 =>
        rw [h2] at h hs1
        simp only at h
        split at h
        · rename_i hx; subst hx
          simp only [Option.some.injEq, Prod.mk.injEq] at h
          obtain ⟨rfl, rfl⟩ := h
          exact ⟨_, .one ⟨a, k, b, c, v, e, ha, hk, hb, hc, hv, he, rfl⟩, by rw [hs1]; simp⟩
        · split at h
          · rename_i hx; subst hx
            cases h3 : decodeItems env d n s2 with
            | none => simp [h3] at h
            | some q =>
              obtain ⟨qs, s3⟩ := q
              rw [h3] at h
              simp only [Option.some.injEq, Prod.mk.injEq] at h
              obtain ⟨rfl, rfl⟩ := h
              obtain ⟨b', hb', rfl⟩ := ih h3
              exact ⟨_, .more ⟨a, k, b, c, v, e, ha, hk, hb, hc, hv, he, rfl⟩ hb', by rw [hs1]; simp⟩
          · simp at h

theorem decodeItems_of {env : PyEnv} {d : Nat} {ps : List (Str × JVal)} {b : Str}
    (h : MembersText env.maxStrDigits d ps b) (rest : Str) (n : Nat) (hn : b.length < n) : decodeItems env d n (b ++ '}' :: rest) = some (ps, rest) := by
  induction h generalizing n with
  | @one p s hm =>
    obtain ⟨a, k, b, c, v, e, ha, hk, hb, hc, hv, he, rfl⟩ := hm
    cases n with
    | zero => omega
    | succ n =>
      have h1 : decodeItem env d (a ++ (k ++ (b ++ ':' :: (c ++ (v ++ e)))) ++ '}' :: rest) = some (p, e ++ '}' :: rest) :=
        decodeItem_iff.2 (follow_space he (follow_cons (by simp) _)) ⟨a, k, b, c, v, ha, hk, hb, hc, hv, by simp⟩
      simp only [decodeItems, h1, skipWs_skip he]
      rw [skipWs_id (by simp)]
      simp
  | @more p s ps t hm hms ih =>
    obtain ⟨a, k, b, c, v, e, ha, hk, hb, hc, hv, he, rfl⟩ := hm
    cases n with
    | zero => omega
    | succ n =>
      have h1 : decodeItem env d (a ++ (k ++ (b ++ ':' :: (c ++ (v ++ e)))) ++ ',' :: t ++ '}' :: rest) =
          some (p, e ++ ',' :: (t ++ '}' :: rest)) :=
        decodeItem_iff.2 (follow_space he (follow_cons (by simp) _)) ⟨a, k, b, c, v, ha, hk, hb, hc, hv, by simp⟩
      simp only [decodeItems, h1, skipWs_skip he]
      rw [skipWs_id (by simp)]
      have hl : t.length < n := by
        simp only [List.length_append, List.length_cons] at hn
        omega
      simp only [Char.reduceEq, if_false, if_true, ih n hl]

theorem membersText_head {lim d : Nat} {ps : List (Str × JVal)} {b : Str} (h : MembersText lim d ps b) :
    ∃ a t, IsJsonSpace a ∧ b = a ++ '"' :: t := by
  cases h with
  | one hm =>
    obtain ⟨a, k, b, c, v, e, ha, ⟨kb, -, rfl⟩, -, -, -, -, rfl⟩ := hm
    exact ⟨a, _, ha, rfl⟩
  | more hm _ =>
    obtain ⟨a, k, b, c, v, e, ha, ⟨kb, -, rfl⟩, -, -, -, -, rfl⟩ := hm
    exact ⟨a, _, ha, by rw [List.append_assoc]; rfl⟩

theorem loads_iff {env : PyEnv} {s : Str} {ps : List (Str × JVal)} :
    loads env s = some ps ↔ ObjectText env.maxStrDigits env.jsonDepth ps s := by
  cases hdepth : env.jsonDepth with
  | zero =>
    simp only [loads, hdepth, reduceCtorEq, false_iff]
    rintro ⟨d, -, -, -, hd, -⟩
    omega
  | succ d =>
  constructor
  · intro h
    simp only [loads, hdepth] at h
    obtain ⟨a, ha, hs⟩ := skipWs_split s
    cases h1 : dropPrefix ['{'] (skipWs s) with
    | none => simp [h1] at h
    | some s1 =>
      rw [h1] at h
      simp only at h
      rw [dropPrefix_iff.1 h1] at hs
      obtain ⟨b, hb, hs1⟩ := skipWs_split s1
      cases h2 : dropPrefix ['}'] (skipWs s1) with
      | some s2 =>
        rw [h2] at h
        simp only at h
        split at h
        · rename_i h3
          simp only [Option.some.injEq] at h
          subst h
          refine ⟨d, a, b, s2, rfl, ha, skipWs_nil_iff.1 h3, Or.inl ⟨rfl, hb⟩, ?_⟩
          rw [hs, hs1, dropPrefix_iff.1 h2]; simp
        · simp at h
      | none =>
        rw [h2] at h
        simp only at h
        cases h3 : decodeItems env d (s1.length + 1) s1 with
        | none => simp [h3] at h
        | some p =>
          obtain ⟨qs, s2⟩ := p
          rw [h3] at h
          simp only at h
          split at h
          · rename_i h4
            simp only [Option.some.injEq] at h
            subst h
            obtain ⟨m, hm, rfl⟩ := decodeItems_some h3
            exact ⟨d, a, m, s2, rfl, ha, skipWs_nil_iff.1 h4, Or.inr hm, by rw [hs]; simp⟩
          · simp at h
  · rintro ⟨d', a, b, c, hd', ha, hc, hb, rfl⟩
    obtain rfl : d' = d := by omega
    have e1 : skipWs (a ++ '{' :: (b ++ '}' :: c)) = '{' :: (b ++ '}' :: c) := by
      rw [skipWs_skip ha, skipWs_id (by simp)]
    have e2 := skipWs_nil_iff.2 hc
    simp only [loads, hdepth, e1, dropPrefix, if_true]
    rcases hb with ⟨rfl, hb⟩ | hb
    · rw [skipWs_skip hb, skipWs_id (by simp)]
      simp [dropPrefix, e2]
    · obtain ⟨x, t, hx, rfl⟩ := membersText_head hb
      have e3 : dropPrefix ['}'] (skipWs (x ++ '"' :: t ++ '}' :: c)) = none := by
        rw [List.append_assoc, skipWs_skip hx, List.cons_append, skipWs_id (by simp)]
        simp [dropPrefix]
      have e4 := decodeItems_of hb c ((x ++ '"' :: t ++ '}' :: c).length + 1)
        (by simp only [List.length_append, List.length_cons]; omega)
      rw [show dropPrefix ['}'] (skipWs (x ++ '"' :: t ++ '}' :: c)) = none from e3, e4]
      simp [e2]

/-! ## Objects are JSON texts -/

theorem valueText_json {lim d : Nat} {v : JVal} {r : Str} (h : ValueText lim d v r) : IsJson pythonWords lim .value d r := by
  cases v with
  | str t => exact .string (stringText_json h)
  | bool b =>
    cases b
    · obtain rfl : r = "false".toList := h
      exact .word (by decide)
    · obtain rfl : r = "true".toList := h
      exact .word (by decide)
  | null =>
    obtain rfl : r = "null".toList := h
    exact .word (by decide)
  | other t =>
    obtain ⟨rfl, hj, -⟩ := h
    exact hj

theorem membersText_json {lim d : Nat} {ps : List (Str × JVal)} {b : Str} (h : MembersText lim d ps b) :
    IsJson pythonWords lim .members d b := by
  induction h with
  | one hm =>
    obtain ⟨a, k, b, c, v, e, ha, hk, hb, hc, hv, he, rfl⟩ := hm
    exact .member ha (stringText_json hk) hb hc (valueText_json hv) he
  | more hm _ ih =>
    obtain ⟨a, k, b, c, v, e, ha, hk, hb, hc, hv, he, rfl⟩ := hm
    have := IsJson.members ha (stringText_json hk) hb hc (valueText_json hv) he ih
    simpa using this

theorem objectText_json {lim depth : Nat} {ps : List (Str × JVal)} {s : Str} (h : ObjectText lim depth ps s) :
    ∃ a t c, IsJsonSpace a ∧ IsJson pythonWords lim .value depth ('{' :: t) ∧ IsJsonSpace c ∧
      s = a ++ ('{' :: t ++ c) := by
  obtain ⟨d, a, b, c, rfl, ha, hc, hb, rfl⟩ := h
  refine ⟨a, b ++ ['}'], c, ha, ?_, hc, by simp⟩
  rcases hb with ⟨-, hb⟩ | hb
  · exact .emptyObject hb
  · exact .object (membersText_json hb)

/-! ## Lookup -/

theorem jget_iff {ps : List (Str × JVal)} {k : String} {v : JVal} : jget ps k = some v ↔ LastValue ps k v := by
  unfold jget LastValue
  simp only [Option.map_eq_some_iff, Prod.exists, exists_eq_right]
  constructor
  · rintro ⟨k', h⟩
    rw [List.find?_eq_some_iff_append] at h
    obtain ⟨h1, as, bs, h2, h3⟩ := h
    have h1' : k' = k.toList := by simpa using h1
    subst h1'
    refine ⟨bs.reverse, as.reverse, ?_, ?_⟩
    · have := congrArg List.reverse h2
      simpa using this
    · intro p hp
      have := h3 p (by simpa using hp)
      simpa using this
  · rintro ⟨a, b, rfl, hb⟩
    refine ⟨k.toList, ?_⟩
    rw [List.find?_eq_some_iff_append]
    refine ⟨by simp, b.reverse, a.reverse, by simp, ?_⟩
    intro p hp
    have := hb p (by simpa using hp)
    simpa using this

theorem ofJOpt_iff {v : JVal} {x : Option Str} : ofJOpt v = .ok x ↔ IsComponent v x := by
  unfold IsComponent
  cases v <;> simp [ofJOpt, eq_comm]

end Clever
