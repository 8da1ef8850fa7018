import Verif.Spec.NormalForms
import Verif.Proofs.QuotedTables
import Verif.Proofs.Columns

/-!
# Lemmas for C121: the normal forms
-/

namespace Clever

open Spec

/-! ## Characters -/

/-- A property of the characters below 128 and of a list of such characters. -/
theorem char_table {f : Char → Bool} {L : Str} (h : ∀ n : Fin 128, f (Char.ofNat n) = L.contains (Char.ofNat n))
    (hf : ∀ c : Char, 128 ≤ c.toNat → f c = false) (hL : ∀ c ∈ L, c.toNat < 128) (c : Char) : f c = true ↔ c ∈ L := by
  by_cases hc : c.toNat < 128
  · have := h ⟨c.toNat, hc⟩
    rw [Char.ofNat_toNat] at this
    rw [this, List.contains_iff_mem]
  · rw [hf c (by omega)]
    constructor
    · intro h; cases h
    · intro h; exact absurd (hL c h) hc

theorem big_char {c : Char} (h : 128 ≤ c.toNat) : isLow c = false ∧ isUpp c = false ∧ isDig c = false ∧
    ∀ x : Char, x.toNat < 128 → c ≠ x := by
  refine ⟨?_, ?_, ?_, ?_⟩
  · simp only [isLow, Bool.and_eq_false_iff, decide_eq_false_iff_not, Char.le_def, UInt32.le_iff_toNat_le]; right; simp only [Char.toNat] at h; have : ('z').val.toNat < 128 := by decide
    omega
  · simp only [isUpp, Bool.and_eq_false_iff, decide_eq_false_iff_not, Char.le_def, UInt32.le_iff_toNat_le]; right; simp only [Char.toNat] at h; have : ('Z').val.toNat < 128 := by decide
    omega
  · simp only [isDig, Bool.and_eq_false_iff, decide_eq_false_iff_not, Char.le_def, UInt32.le_iff_toNat_le]; right; simp only [Char.toNat] at h; have : ('9').val.toNat < 128 := by decide
    omega
  · rintro x hx rfl
    omega

theorem elementaryChar_iff (c : Char) : elementaryChar c = true ↔ c ∈ elementaryText := by
  refine char_table (by decide +kernel) (fun c hc => ?_) (by decide +kernel) c
  obtain ⟨h1, h2, h3, h4⟩ := big_char hc
  simp only [elementaryChar, h1, h2, h3, Bool.false_or]
  rw [List.contains_eq_mem, decide_eq_false_iff_not]
  exact fun hm => h4 c (by
    have : ∀ x ∈ ['.', '_', '&', '-', '@', '+', '%', '(', ')', ' ', '/'], x.toNat < 128 := by decide
    exact this c hm) rfl

theorem form4Char_iff (c : Char) : form4Char c = true ↔ c ∈ wordText := by
  refine char_table (by decide +kernel) (fun c hc => ?_) (by decide +kernel) c
  obtain ⟨h1, h2, h3, h4⟩ := big_char hc
  simp only [form4Char, h1, h2, h3, Bool.false_or]
  rw [List.contains_eq_mem, decide_eq_false_iff_not]
  exact fun hm => h4 c (by
    have : ∀ x ∈ ['.', '_', '&', '-'], x.toNat < 128 := by decide
    exact this c hm) rfl

/-! ## Cutting a line -/

theorem oddQuotes_iff (q : Char) (t : Str) : oddQuotes q t = true ↔ t.count q % 2 = 1 := by simp [oddQuotes]

theorem oddQuotes_false (q : Char) (t : Str) : oddQuotes q t = false ↔ Closed q t := by
  simp [oddQuotes, Closed]

theorem rawCells_over {d q : Char} (hdq : d ≠ q) (x : Str) : ∀ (b : Bool) (rest : Str),
    (∀ a c, x = a ++ d :: c → oddQuotes q a = !b) →
    rawCells d q b (x ++ rest) = appHead x (rawCells d q (b ^^ oddQuotes q x) rest) := by
  induction x with
  | nil =>
    intro b rest _
    rw [show oddQuotes q [] = false from rfl, Bool.xor_false, List.nil_append]
    cases h : rawCells d q b rest with
    | nil => exact absurd h (rawCells_ne_nil _ _ _ _)
    | cons a b => simp [appHead]
  | cons c x ih =>
    intro b rest h
    rw [List.cons_append, rawCells, if_neg (by
      rintro ⟨_, rfl, rfl⟩
      have := h [] x rfl
      simp [oddQuotes] at this), ih (b ^^ (c == q)) rest (by
        intro a e hx
        have := h (c :: a) e (by rw [hx]; rfl)
        rw [oddQuotes_cons] at this
        revert this
        cases oddQuotes q a <;> cases b <;> cases (c == q) <;> simp), consHead_appHead, appHead_appHead, oddQuotes_cons,
      Bool.xor_assoc]
    rfl

/-- The cells of a line. -/
def Cut (d q : Char) (T : List Str) (row : Str) : Prop :=
  T ≠ [] ∧ row = joinWith d T ∧ (∀ t ∈ T, Uncut d q t) ∧ ∀ t ∈ T.dropLast, Closed q t

theorem rawCells_of_cut {d q : Char} (hdq : d ≠ q) : ∀ (T : List Str), T ≠ [] → (∀ t ∈ T, Uncut d q t) →
    (∀ t ∈ T.dropLast, Closed q t) → rawCells d q false (joinWith d T) = T
  | [], h, _, _ => absurd rfl h
  | [x], _, h, _ => by
    have := rawCells_over hdq x false [] (fun a c e => (oddQuotes_iff q a).mpr (h x (by simp) a c e))
    rw [List.append_nil] at this
    rw [joinWith, this, rawCells, appHead, List.append_nil]
  | x :: y :: T, _, h, hc => by
    have e := rawCells_over hdq x false (d :: joinWith d (y :: T))
      (fun a c e => (oddQuotes_iff q a).mpr (h x (by simp) a c e))
    rw [(oddQuotes_false q x).mpr (hc x (by simp)), Bool.xor_false, rawCells, if_pos ⟨hdq, rfl, rfl⟩,
      rawCells_of_cut hdq (y :: T) (by simp) (fun t ht => h t (List.mem_cons_of_mem _ ht))
        (fun t ht => hc t (by rw [List.dropLast_cons_cons]; exact List.mem_cons_of_mem _ ht))] at e
    rw [joinWith, e, appHead, List.append_nil]

theorem rawCells_iff {d q : Char} (hdq : d ≠ q) (T : List Str) (row : Str) :
    rawCells d q false row = T ↔ Cut d q T row := by
  constructor
  · rintro rfl
    obtain ⟨x, xs, h1, h2, h3⟩ := rawCells_parity d q row false
    obtain ⟨x', xs', h1', h2', h3'⟩ := rawCells_no_cut d q hdq row false
    refine ⟨rawCells_ne_nil _ _ _ _, (joinWith_rawCells d q row false).symm, fun t ht a b e => ?_, fun t ht => ?_⟩
    · rw [h1'] at ht
      rw [← oddQuotes_iff]
      rcases List.mem_cons.mp ht with rfl | ht
      · exact h2' a b e
      · exact h3' t ht a b e
    · rw [← oddQuotes_false]
      rw [h1] at ht
      cases xs with
      | nil => simp at ht
      | cons y ys =>
        rw [List.dropLast_cons_cons] at ht
        rcases List.mem_cons.mp ht with rfl | ht
        · exact h2 (by simp)
        · exact h3 t ht
  · rintro ⟨h0, rfl, h1, h2⟩
    exact rawCells_of_cut hdq T h0 h1 h2

theorem splitRow_quotes {d q : Char} (hdq : d ≠ q) {row : Str} (h : q ∈ row) :
    splitRow row [d] [q] = dropEmptyLast (rawCells d q false row) := by
  unfold splitRow
  rw [if_neg (by simp [isInfixOf_of_mem h]), splitRowLoop_eq hdq]
  cases hr : rawCells d q false row with
  | nil => exact absurd hr (rawCells_ne_nil _ _ _ _)
  | cons a b => simp [appHead]

theorem splitRow_noquotes {d q : Char} {row : Str} (h : q ∉ row) :
    splitRow row [d] [q] = splitOn d row := by
  unfold splitRow
  rw [if_pos (by simp [isInfixOf_single h])]
  simp only [List.isEmpty_cons, Bool.false_eq_true, if_false]
  exact pySplit_splitOn d row

theorem dropEmptyLast_eq_iff {R T : List Str} (hT : ∀ t ∈ T, t ≠ []) : dropEmptyLast R = T ↔ R = T ∨ R = T ++ [[]] := by
  unfold dropEmptyLast
  split
  · rename_i h
    have hne : R ≠ [] := by rintro rfl; simp at h
    rw [List.getLast?_eq_some_getLast hne, Option.some.injEq] at h
    have e := List.dropLast_append_getLast hne
    rw [h] at e
    constructor
    · rintro rfl
      exact .inr e.symm
    · rintro (rfl | h')
      · exact absurd rfl (hT [] (by rw [← e]; simp))
      · rw [h']; simp
  · rename_i h
    constructor
    · exact .inl
    · rintro (rfl | rfl)
      · rfl
      · simp at h

theorem joinWith_snoc (d : Char) (x : Str) : ∀ (T : List Str), T ≠ [] → joinWith d (T ++ [x]) = joinWith d T ++ d :: x
  | [], h => absurd rfl h
  | [y], _ => rfl
  | y :: z :: T, _ => by
    rw [List.cons_append, List.cons_append, joinWith, ← List.cons_append, joinWith_snoc d x (z :: T) (by simp), joinWith]
    simp

/-- `split_row` gives non-empty cells exactly if the line is built of them. -/
theorem splitRow_iff {d q : Char} (hdq : d ≠ q) {T : List Str} (h0 : T ≠ []) (hT : ∀ t ∈ T, t ≠ []) (row : Str) :
    splitRow row [d] [q] = T ↔
      (∀ t ∈ T, Uncut d q t) ∧ ((row = joinWith d T ∧ ∀ t ∈ T.dropLast, Closed q t) ∨
       (row = joinWith d T ++ [d] ∧ q ∈ row ∧ ∀ t ∈ T, Closed q t)) := by
  have e1 : rawCells d q false row = T ↔ (∀ t ∈ T, Uncut d q t) ∧ (row = joinWith d T ∧ ∀ t ∈ T.dropLast, Closed q t) := by
    rw [rawCells_iff hdq]
    exact ⟨fun ⟨_, a, b, c⟩ => ⟨b, a, c⟩, fun ⟨b, a, c⟩ => ⟨h0, a, b, c⟩⟩
  have e2 : rawCells d q false row = T ++ [[]] ↔ (∀ t ∈ T, Uncut d q t) ∧ (row = joinWith d T ++ [d] ∧ ∀ t ∈ T, Closed q t) := by
    rw [rawCells_iff hdq, Cut, joinWith_snoc d [] T h0, List.dropLast_concat]
    constructor
    · rintro ⟨_, a, b, c⟩
      exact ⟨fun t ht => b t (List.mem_append_left _ ht), a, c⟩
    · rintro ⟨b, a, c⟩
      refine ⟨by simp, a, fun t ht => ?_, c⟩
      rcases List.mem_append.mp ht with ht | ht
      · exact b t ht
      · rw [List.mem_singleton.mp ht]
        intro a b e
        simp at e
  by_cases hq : q ∈ row
  · rw [splitRow_quotes hdq hq, dropEmptyLast_eq_iff hT, e1, e2]
    tauto
  · rw [splitRow_noquotes hq, ← rawCells_splitOn _ _ _ hq, e1]
    tauto

theorem splitRow_ne_nil {d q : Char} (hdq : d ≠ q) {row : Str} (h : d ∈ row) : splitRow row [d] [q] ≠ [] := by
  intro e
  by_cases hq : q ∈ row
  · rw [splitRow_quotes hdq hq, dropEmptyLast_eq_iff (by simp)] at e
    rcases e with e | e
    · exact rawCells_ne_nil _ _ _ _ e
    · rw [List.nil_append, rawCells_iff hdq] at e
      rw [e.2.1] at h
      simp [joinWith] at h
  · rw [splitRow_noquotes hq, ← rawCells_splitOn _ _ _ hq] at e
    exact rawCells_ne_nil _ _ _ _ e

theorem splitOn_iff (d : Char) (T : List Str) (row : Str) :
    splitOn d row = T ↔ T ≠ [] ∧ (∀ t ∈ T, d ∉ t) ∧ row = joinWith d T := by
  constructor
  · rintro rfl
    refine ⟨?_, not_mem_splitOn d row, (joinWith_splitOn d row).symm⟩
    rw [← pySplit_splitOn]
    exact pySplit_ne_nil _ _ _
  · rintro ⟨h0, h1, rfl⟩
    exact splitOn_joinWith d T h0 h1

/-! ## The same length -/

theorem sameLength_iff (rows : List Str) (d : Char) (q : Str) :
    everyRowSameLength rows [d] q = true ↔
      rows ≠ [] ∧ ∃ n, ∀ row ∈ rows, d ∈ row ∧ (splitRow row [d] q).length = n := by
  constructor
  · intro h
    obtain ⟨k, hk⟩ := sameLength_spec h
    refine ⟨by rintro rfl; simp [everyRowSameLength] at h, k, fun row hr => ⟨?_, (hk row hr).2⟩⟩
    by_contra hn
    have := (hk row hr).1
    rw [isInfixOf_single hn] at this
    cases this
  · rintro ⟨h0, n, h⟩
    cases rows with
    | nil => exact absurd rfl h0
    | cons r rows =>
      simp only [everyRowSameLength, List.all_eq_true, Bool.and_eq_true, decide_eq_true_eq]
      exact fun row hr => ⟨isInfixOf_of_mem (h row hr).1, by rw [(h row hr).2, (h r (by simp)).2]⟩

/-! ## Quoted cells -/

theorem isQuotedCell_iff (q : Char) (t : Str) : isQuotedCell t [q] = true ↔ ∃ s, t = withQuotes q s := by
  unfold isQuotedCell
  constructor
  · intro h
    simp only [Bool.and_eq_true, decide_eq_true_eq] at h
    obtain ⟨⟨h1, h2⟩, h3⟩ := h
    match t, h1 with
    | a :: b :: t, _ =>
      have hne : (b :: t) ≠ [] := by simp
      refine ⟨(b :: t).dropLast, ?_⟩
      simp only [List.head?_cons, Option.map_some, Option.some.injEq, List.cons.injEq, and_true] at h2
      rw [List.getLast?_cons_cons, List.getLast?_eq_some_getLast hne] at h3
      simp only [Option.map_some, Option.some.injEq, List.cons.injEq, and_true] at h3
      rw [withQuotes, h2, ← h3, List.dropLast_append_getLast hne]
  · rintro ⟨s, rfl⟩
    have : (q :: (s ++ [q])).getLast? = some q := by
      rw [← List.cons_append, List.getLast?_append]; rfl
    simp only [withQuotes, this]
    simp

theorem inner_withQuotes (q : Char) (s : Str) : inner (withQuotes q s) = s := by
  simp [inner, withQuotes]

theorem withQuotes_ne (q : Char) (s : Str) : withQuotes q s ≠ [] := by simp [withQuotes]

theorem uncut_withQuotes {d q : Char} (hdq : d ≠ q) {s : Str} (hs : q ∉ s) : Uncut d q (withQuotes q s) := by
  intro a b e
  cases a with
  | nil =>
    simp only [withQuotes, List.nil_append, List.cons.injEq] at e
    exact absurd e.1.symm hdq
  | cons x a =>
    simp only [withQuotes, List.cons_append, List.cons.injEq] at e
    obtain ⟨rfl, e⟩ := e
    have : q ∉ a := by
      intro ha
      have hlen := congrArg List.length e
      have h1 : a.length ≤ s.length := by
        by_contra hc
        have hb : b = [] := by
          cases b with
          | nil => rfl
          | cons _ _ => simp at hlen; omega
        subst hb
        have := congrArg List.getLast? e
        rw [List.getLast?_append, List.getLast?_append] at this
        simp at this
        exact hdq this.symm
      have h2 : a = s.take a.length := by
        have := congrArg (List.take a.length) e
        rw [List.take_append_of_le_length h1, List.take_append_of_le_length (Nat.le_refl _), List.take_length] at this
        exact this.symm
      rw [h2] at ha
      exact hs (List.mem_of_mem_take ha)
    rw [List.count_cons_self, List.count_eq_zero_of_not_mem this]

theorem closed_withQuotes {q : Char} {s : Str} (hs : q ∉ s) : Closed q (withQuotes q s) := by
  simp [Closed, withQuotes, List.count_append, List.count_eq_zero_of_not_mem hs]

/-! ## The forms -/

theorem mem_joinWith_delim {d : Char} : ∀ {T : List Str}, 2 ≤ T.length → d ∈ joinWith d T
  | _ :: _ :: _, _ => by simp [joinWith]
  | [_], h => by simp at h
  | [], h => by simp at h

theorem isForm2_iff (d : Char) (rows : List Str) : isForm2 rows [d] [] = true ↔ Form2 d rows := by
  have hcell : ∀ t : Str, (!isAnyQuotedCell t && !isAnyPartialQuotedCell t && (t.isEmpty || isElementary t)) = true ↔
      ∀ c ∈ t, c ∈ elementaryText := by
    intro t
    constructor
    · intro h
      simp only [Bool.and_eq_true, Bool.or_eq_true, List.isEmpty_iff, isElementary, List.all_eq_true] at h
      intro c hc
      rcases h.2 with rfl | h
      · cases hc
      · exact (elementaryChar_iff c).mp (h.2 c hc)
    · intro h
      have hq : ∀ q ∈ ['"', '\''], q ∉ t := fun q hq hm => by
        have h1 : ∀ q ∈ ['"', '\''], q ∉ elementaryText := by decide +kernel
        exact h1 q hq (h q hm)
      have h1 := hq '"' (by simp)
      have h2 := hq '\'' (by simp)
      have n1 : isAnyQuotedCell t = false := by
        rw [isAnyQuotedCell, Bool.or_eq_false_iff, Bool.eq_false_iff, Bool.eq_false_iff]
        constructor
        · intro e
          obtain ⟨s, rfl⟩ := (isQuotedCell_iff _ _).mp e
          exact h2 (by simp [withQuotes])
        · intro e
          obtain ⟨s, rfl⟩ := (isQuotedCell_iff _ _).mp e
          exact h1 (by simp [withQuotes])
      have n2 : isAnyPartialQuotedCell t = false := by
        rw [Bool.eq_false_iff]
        intro e
        simp only [isAnyPartialQuotedCell, Bool.or_eq_true, decide_eq_true_eq] at e
        rcases e with ((e | e) | e) | e
        · exact h1 (List.mem_of_head? e)
        · exact h2 (List.mem_of_head? e)
        · exact h1 (List.mem_of_getLast? e)
        · exact h2 (List.mem_of_getLast? e)
      rw [n1, n2]
      cases t with
      | nil => rfl
      | cons c t =>
        simp only [Bool.not_false, Bool.true_and, isElementary, Bool.or_eq_true, Bool.and_eq_true, List.all_eq_true]
        exact .inr ⟨rfl, fun x hx => (elementaryChar_iff x).mpr (h x hx)⟩
  unfold isForm2
  rw [Bool.and_eq_true, sameLength_iff]
  simp only [List.all_eq_true, Bool.and_eq_true (a := decide _), decide_eq_true_eq, hcell, splitRow_nil]
  constructor
  · rintro ⟨⟨h0, n, hn⟩, h⟩
    have hne : ∀ row ∈ rows, splitOn d row ≠ [] := fun row _ => ((splitOn_iff d _ row).mp rfl).1
    have h2 : 2 ≤ n := by
      obtain ⟨row, hr⟩ := List.exists_mem_of_ne_nil rows h0
      have e1 := (hn row hr).2
      have e2 := (h row hr).1
      have e3 := List.length_pos_of_ne_nil (hne row hr)
      omega
    refine ⟨h0, n, h2, fun row hr => ⟨splitOn d row, (hn row hr).2, fun s hs => ?_, (joinWith_splitOn d row).symm⟩⟩
    exact ⟨not_mem_splitOn d row s hs, (h row hr).2 s hs⟩
  · rintro ⟨h0, n, h2, h⟩
    refine ⟨⟨h0, n, fun row hr => ?_⟩, fun row hr => ?_⟩ <;> obtain ⟨T, rfl, hT, rfl⟩ := h row hr
    · refine ⟨mem_joinWith_delim h2, ?_⟩
      rw [splitOn_joinWith d T (by rintro rfl; simp at h2) (fun t ht => (hT t ht).1)]
    · rw [splitOn_joinWith d T (by rintro rfl; simp at h2) (fun t ht => (hT t ht).1)]
      exact ⟨by omega, fun t ht => (hT t ht).2⟩

theorem isForm1_iff {d q : Char} (hdq : d ≠ q) (rows : List Str) : isForm1 rows [d] [q] = true ↔ Form1 d q rows := by
  have hcell : ∀ t : Str, (!t.isEmpty && isQuotedCell t [q] && !isInfixOf [q] (inner t)) = true ↔
      ∃ s, q ∉ s ∧ t = withQuotes q s := by
    intro t
    constructor
    · intro h
      simp only [Bool.and_eq_true, Bool.not_eq_true'] at h
      obtain ⟨s, rfl⟩ := (isQuotedCell_iff _ _).mp h.1.2
      rw [inner_withQuotes] at h
      refine ⟨s, fun hm => ?_, rfl⟩
      rw [isInfixOf_of_mem hm] at h
      cases h.2
    · rintro ⟨s, hs, rfl⟩
      rw [inner_withQuotes, isInfixOf_single hs, (isQuotedCell_iff _ _).mpr ⟨s, rfl⟩]
      rfl
  unfold isForm1
  rw [Bool.and_eq_true, sameLength_iff]
  simp only [List.all_eq_true, Bool.and_eq_true (a := decide _), decide_eq_true_eq, hcell]
  constructor
  · rintro ⟨⟨h0, n, hn⟩, h⟩
    have hne : ∀ row ∈ rows, splitRow row [d] [q] ≠ [] := fun row hr => splitRow_ne_nil hdq (hn row hr).1
    have h2 : 2 ≤ n := by
      obtain ⟨row, hr⟩ := List.exists_mem_of_ne_nil rows h0
      have e1 := (hn row hr).2
      have e2 := (h row hr).1
      have e3 := List.length_pos_of_ne_nil (hne row hr)
      omega
    refine ⟨h0, n, h2, fun row hr => ?_⟩
    have hT := (h row hr).2
    have hin : ∀ t ∈ splitRow row [d] [q], withQuotes q (inner t) = t ∧ q ∉ inner t := by
      intro t ht
      obtain ⟨s, hs, rfl⟩ := hT t ht
      rw [inner_withQuotes]
      exact ⟨rfl, hs⟩
    have hmap : ((splitRow row [d] [q]).map inner).map (withQuotes q) = splitRow row [d] [q] := by
      rw [List.map_map]
      conv => rhs; rw [← List.map_id (splitRow row [d] [q])]
      exact List.map_congr_left fun t ht => (hin t ht).1
    refine ⟨(splitRow row [d] [q]).map inner, by rw [List.length_map]; exact (hn row hr).2, ?_, ?_⟩
    · intro s hs
      obtain ⟨t, ht, rfl⟩ := List.mem_map.mp hs
      exact (hin t ht).2
    · rw [hmap]
      have := (splitRow_iff hdq (hne row hr) (fun t ht => by
        obtain ⟨s, _, rfl⟩ := hT t ht
        exact withQuotes_ne q s) row).mp rfl
      rcases this.2 with ⟨e, _⟩ | ⟨e, _⟩
      · exact .inl e
      · exact .inr e
  · rintro ⟨h0, n, h2, h⟩
    have key : ∀ row ∈ rows, d ∈ row ∧ ∃ T : List Str, T.length = n ∧ (∀ s ∈ T, q ∉ s) ∧
        splitRow row [d] [q] = T.map (withQuotes q) := by
      intro row hr
      obtain ⟨T, hl, hT, hrow⟩ := h row hr
      have hTne : T ≠ [] := by rintro rfl; simp at hl; omega
      have hd : d ∈ joinWith d (T.map (withQuotes q)) := mem_joinWith_delim (by rw [List.length_map]; omega)
      have hcl : ∀ t ∈ T.map (withQuotes q), Closed q t := by
        intro t ht
        obtain ⟨s, hs, rfl⟩ := List.mem_map.mp ht
        exact closed_withQuotes (hT s hs)
      refine ⟨?_, T, hl, hT, ?_⟩
      · rcases hrow with rfl | rfl
        · exact hd
        · exact List.mem_append_left _ hd
      · refine (splitRow_iff hdq (by simpa using hTne) (fun t ht => ?_) row).mpr ⟨fun t ht => ?_, ?_⟩
        · obtain ⟨s, hs, rfl⟩ := List.mem_map.mp ht
          exact withQuotes_ne q s
        · obtain ⟨s, hs, rfl⟩ := List.mem_map.mp ht
          exact uncut_withQuotes hdq (hT s hs)
        · rcases hrow with e | e
          · exact .inl ⟨e, fun t ht => hcl t (List.mem_of_mem_dropLast ht)⟩
          · refine .inr ⟨e, ?_, hcl⟩
            rw [e]
            apply List.mem_append_left
            cases T with
            | nil => exact absurd rfl hTne
            | cons s T =>
              cases T with
              | nil => simp [joinWith, withQuotes]
              | cons s' T => simp [joinWith, withQuotes]
    refine ⟨⟨h0, n, fun row hr => ?_⟩, fun row hr => ?_⟩ <;> obtain ⟨hd, T, hl, hT, e⟩ := key row hr
    · exact ⟨hd, by rw [e, List.length_map, hl]⟩
    · refine ⟨by rw [e, List.length_map, hl]; omega, fun t ht => ?_⟩
      rw [e] at ht
      obtain ⟨s, hs, rfl⟩ := List.mem_map.mp ht
      exact ⟨s, hT s hs, rfl⟩

theorem quote_not_elementary {q : Char} (hq : PlainQuote q) : q ∉ elementaryText := by
  rcases hq with rfl | rfl <;> decide +kernel

theorem cell3_iff {d q : Char} (hq : PlainQuote q) {t : Str} (hu : Uncut d q t) :
    (!isAnyEmpty t && (if isAnyQuotedCell t then isQuotedCell t [q] else isElementary t)) = true ↔ Cell3 d q t := by
  have hel : ∀ q', PlainQuote q' → (∀ c ∈ t, c ∈ elementaryText) → isQuotedCell t [q'] = false := by
    intro q' hq' h
    rw [Bool.eq_false_iff]
    intro e
    obtain ⟨s, rfl⟩ := (isQuotedCell_iff _ _).mp e
    exact quote_not_elementary hq' (h q' (by simp [withQuotes]))
  constructor
  · intro h
    simp only [Bool.and_eq_true, Bool.not_eq_true'] at h
    obtain ⟨h1, h2⟩ := h
    split at h2
    · obtain ⟨s, rfl⟩ := (isQuotedCell_iff _ _).mp h2
      refine .inr ⟨s, ?_, rfl, hu⟩
      rintro rfl
      rcases hq with rfl | rfl <;> exact absurd h1 (by decide)
    · simp only [isElementary, Bool.and_eq_true, List.all_eq_true, Bool.not_eq_true', List.isEmpty_eq_false_iff] at h2
      have he : ∀ c ∈ t, c ∈ elementaryText := fun c hc => (elementaryChar_iff c).mp (h2.2 c hc)
      refine .inl ⟨h2.1, fun hd => ?_, he⟩
      obtain ⟨a, b, e⟩ := List.append_of_mem hd
      have := hu a b e
      have hqa : q ∉ a := fun hm => quote_not_elementary hq (he q (by rw [e]; exact List.mem_append_left _ hm))
      rw [List.count_eq_zero_of_not_mem hqa] at this
      cases this
  · rintro (⟨h1, _, h3⟩ | ⟨s, hs, rfl, _⟩)
    · have n1 := hel '"' (.inl rfl) h3
      have n2 := hel '\'' (.inr rfl) h3
      have e1 : isAnyQuotedCell t = false := by rw [isAnyQuotedCell, n1, n2]; rfl
      have e2 : isAnyEmpty t = false := by
        rw [isAnyEmpty, isEmptyQuoted, isEmptyQuoted, n1, n2]
        cases t with
        | nil => exact absurd rfl h1
        | cons => simp
      rw [e1, e2]
      simp only [Bool.not_false, Bool.true_and, Bool.false_eq_true, if_false, isElementary, Bool.and_eq_true, List.all_eq_true,
        Bool.not_eq_true', List.isEmpty_eq_false_iff]
      exact ⟨h1, fun c hc => (elementaryChar_iff c).mpr (h3 c hc)⟩
    · have hqd : isQuotedCell (withQuotes q s) [q] = true := (isQuotedCell_iff _ _).mpr ⟨s, rfl⟩
      have e1 : isAnyQuotedCell (withQuotes q s) = true := by
        rw [isAnyQuotedCell]
        rcases hq with rfl | rfl <;> rw [hqd] <;> simp
      have e2 : isAnyEmpty (withQuotes q s) = false := by
        have hl : (withQuotes q s).length ≠ 2 := by
          cases s with
          | nil => exact absurd rfl hs
          | cons a s => simp [withQuotes]
        rw [isAnyEmpty, isEmptyQuoted, isEmptyQuoted, decide_eq_false hl]
        simp [withQuotes]
      rw [e1, e2, if_pos rfl, hqd]
      rfl

theorem Spec.Cell3.ne {d q : Char} {t : Str} (h : Cell3 d q t) : t ≠ [] := by
  rcases h with h | ⟨s, _, rfl, _⟩
  · exact h.1
  · exact withQuotes_ne q s

theorem Spec.Cell3.uncut {d q : Char} {t : Str} (h : Cell3 d q t) : Uncut d q t := by
  rcases h with h | ⟨s, _, rfl, h⟩
  · intro a b e
    exact absurd (by rw [e]; simp) h.2.1
  · exact h

theorem isForm3_iff {d q : Char} (hq : PlainQuote q) (hdq : d ≠ q) (rows : List Str) :
    isForm3 rows [d] [q] = true ↔ Form3 d q rows := by
  unfold isForm3
  rw [Bool.and_eq_true, Bool.and_eq_true, sameLength_iff]
  simp only [List.all_eq_true, Bool.and_eq_true (a := decide (List.length _ ≠ 1)), decide_eq_true_eq]
  constructor
  · rintro ⟨⟨⟨h0, n, hn⟩, hlen⟩, h⟩
    have hne : ∀ row ∈ rows, splitRow row [d] [q] ≠ [] := fun row hr => splitRow_ne_nil hdq (hn row hr).1
    have h2 : 2 ≤ n := by
      obtain ⟨row, hr⟩ := List.exists_mem_of_ne_nil rows h0
      have e1 := (hn row hr).2
      have e2 := (h row hr).1
      have e3 := List.length_pos_of_ne_nil (hne row hr)
      omega
    refine ⟨hlen, n, h2, fun row hr => ⟨splitRow row [d] [q], (hn row hr).2, ?_⟩⟩
    have hT := (h row hr).2
    have hc := (splitRow_iff hdq (hne row hr) (fun t ht => by
      rintro rfl
      exact absurd (hT [] ht) (by simp [isAnyEmpty])) row).mp rfl
    exact ⟨fun t ht => (cell3_iff hq (hc.1 t ht)).mp (hT t ht), hc.2⟩
  · rintro ⟨hlen, n, h2, h⟩
    have key : ∀ row ∈ rows, d ∈ row ∧ ∃ T : List Str, T.length = n ∧ (∀ s ∈ T, Cell3 d q s) ∧ splitRow row [d] [q] = T := by
      intro row hr
      obtain ⟨T, hl, hT, hrow⟩ := h row hr
      have hTne : T ≠ [] := by rintro rfl; simp at hl; omega
      have hd : d ∈ joinWith d T := mem_joinWith_delim (by omega)
      refine ⟨?_, T, hl, hT, ?_⟩
      · rcases hrow with ⟨e, _⟩ | ⟨e, _⟩
        · rw [e]; exact hd
        · rw [e]; exact List.mem_append_left _ hd
      · exact (splitRow_iff hdq hTne (fun t ht => Spec.Cell3.ne (hT t ht)) row).mpr
          ⟨fun t ht => Cell3.uncut (hT t ht), hrow⟩
    refine ⟨⟨⟨by rintro rfl; simp at hlen, n, fun row hr => ?_⟩, hlen⟩, fun row hr => ?_⟩ <;>
      obtain ⟨hd, T, hl, hT, e⟩ := key row hr
    · exact ⟨hd, by rw [e, hl]⟩
    · refine ⟨by rw [e, hl]; omega, fun t ht => ?_⟩
      rw [e] at ht
      exact (cell3_iff hq (Cell3.uncut (hT t ht))).mpr (hT t ht)

theorem isForm4_iff_quoted (q : Char) (rows : List Str) : isForm4 rows [q] = true ↔ Form4 (some q) rows := by
  unfold isForm4 Form4
  simp only [Bool.and_eq_true, decide_eq_true_eq, List.all_eq_true, List.isEmpty_cons, Bool.false_eq_true, if_false]
  refine and_congr Iff.rfl (forall₂_congr fun row _ => ?_)
  constructor
  · rintro ⟨h1, h2⟩
    obtain ⟨s, rfl⟩ := (isQuotedCell_iff _ _).mp h1
    rw [inner_withQuotes] at h2
    refine ⟨s, rfl, fun c hc => ?_⟩
    have := h2 c hc
    rw [Bool.or_eq_true, form4Char_iff, decide_eq_true_eq] at this
    exact this
  · rintro ⟨s, rfl, h⟩
    rw [inner_withQuotes]
    refine ⟨(isQuotedCell_iff _ _).mpr ⟨s, rfl⟩, fun c hc => ?_⟩
    rw [Bool.or_eq_true, form4Char_iff, decide_eq_true_eq]
    exact h c hc

theorem isForm4_iff_plain (rows : List Str) : isForm4 rows [] = true ↔ Form4 none rows := by
  unfold isForm4 Form4
  simp only [Bool.and_eq_true, decide_eq_true_eq, List.all_eq_true, List.isEmpty_nil, if_true, form4Char_iff,
    Bool.not_eq_true']
  refine and_congr Iff.rfl (forall₂_congr fun row _ => ⟨fun h => h.2, fun h => ⟨?_, h⟩⟩)
  have hq : ∀ q ∈ ['"', '\''], q ∉ wordText := by decide +kernel
  rw [isAnyQuotedCell, Bool.or_eq_false_iff, Bool.eq_false_iff, Bool.eq_false_iff]
  constructor
  · intro e
    obtain ⟨s, rfl⟩ := (isQuotedCell_iff _ _).mp e
    exact hq '\'' (by simp) (h _ (by simp [withQuotes]))
  · intro e
    obtain ⟨s, rfl⟩ := (isQuotedCell_iff _ _).mp e
    exact hq '"' (by simp) (h _ (by simp [withQuotes]))

theorem isForm5_iff {d q : Char} (hq : PlainQuote q) (hdq : d ≠ q) (rows : List Str) :
    isForm5 rows [d] [q] = true ↔ Form5 d q rows := by
  unfold isForm5 Form5 everyRowHasDelim
  simp only [Bool.and_eq_true, decide_eq_true_eq, List.all_eq_true]
  constructor
  · rintro ⟨⟨⟨_, h1⟩, h2⟩, h3⟩
    have hmap : (rows.map inner).map (withQuotes q) = rows := by
      rw [List.map_map]
      conv => rhs; rw [← List.map_id rows]
      refine List.map_congr_left fun t ht => ?_
      obtain ⟨s, hs⟩ := (isQuotedCell_iff _ _).mp (h2 t ht).2
      show withQuotes q (inner t) = t
      rw [hs, inner_withQuotes]
    have hno : ∀ r ∈ rows.map inner, q ∉ r := by
      intro r hr hm
      obtain ⟨cell, hc, hqc⟩ := mem_splitRow hdq hm (Ne.symm hdq)
      have := (form2_cell h3 hr cell hc).2
      rcases this with rfl | he
      · cases hqc
      · simp only [isElementary, Bool.and_eq_true, List.all_eq_true] at he
        exact quote_not_elementary hq ((elementaryChar_iff q).mp (he.2 q hqc))
    rw [isForm2_quote hno] at h3
    exact ⟨h1, rows.map inner, (isForm2_iff d _).mp h3, hmap.symm⟩
  · rintro ⟨h1, R, hR, rfl⟩
    have hinner : (R.map (withQuotes q)).map inner = R := by
      rw [List.map_map]
      conv => rhs; rw [← List.map_id R]
      exact List.map_congr_left fun t _ => inner_withQuotes q t
    have hd : ∀ r ∈ R, d ∈ r ∧ q ∉ r := by
      intro r hr
      obtain ⟨_, n, h2, h⟩ := hR
      obtain ⟨T, rfl, hT, rfl⟩ := h r hr
      refine ⟨mem_joinWith_delim h2, fun hm => ?_⟩
      rcases mem_joinWith hm with e | ⟨t, ht, hqt⟩
      · exact hdq e.symm
      · exact quote_not_elementary hq ((hT t ht).2 q hqt)
    refine ⟨⟨⟨fun row hr => ?_, h1⟩, fun row hr => ?_⟩, ?_⟩
    · obtain ⟨r, hr', rfl⟩ := List.mem_map.mp hr
      exact isInfixOf_of_mem (by simp [withQuotes, (hd r hr').1])
    · obtain ⟨r, hr', rfl⟩ := List.mem_map.mp hr
      refine ⟨?_, (isQuotedCell_iff _ _).mpr ⟨r, rfl⟩⟩
      have := List.length_pos_of_mem (hd r hr').1
      simp only [withQuotes, List.length_cons, List.length_append, List.length_nil]
      omega
    · rw [hinner, isForm2_quote (fun r hr => (hd r hr).2)]
      exact (isForm2_iff d R).mpr hR

/-! ## The first candidate -/

/-- The dialect of the first test that holds. -/
def firstForm (rows : List Str) (l : List FormTest) : Option SimpleDialect :=
  (l.find? (fun t => t.holds rows)).map (·.dialect)

open Classical in
/-- The dialect of the first candidate whose condition holds. -/
noncomputable def firstCandidate (rows : List Str) (l : List (SimpleDialect × (List Str → Prop))) : Option SimpleDialect :=
  (l.find? (fun p => decide (p.2 rows))).map (·.1)

theorem firstForm_append (rows : List Str) (a b : List FormTest) :
    firstForm rows (a ++ b) = (firstForm rows a).or (firstForm rows b) := by
  unfold firstForm
  rw [List.find?_append]
  cases List.find? _ a <;> rfl

theorem firstCandidate_append (rows : List Str) (a b : List (SimpleDialect × (List Str → Prop))) :
    firstCandidate rows (a ++ b) = (firstCandidate rows a).or (firstCandidate rows b) := by
  unfold firstCandidate
  rw [List.find?_append]
  cases List.find? _ a <;> rfl

theorem first_flatMap {α : Type} (rows : List Str) (l : List α) {f : α → List FormTest}
    {g : α → List (SimpleDialect × (List Str → Prop))} (h : ∀ x ∈ l, firstForm rows (f x) = firstCandidate rows (g x)) :
    firstForm rows (l.flatMap f) = firstCandidate rows (l.flatMap g) := by
  induction l with
  | nil => rfl
  | cons x l ih =>
    rw [List.flatMap_cons, List.flatMap_cons, firstForm_append, firstCandidate_append, h x (by simp),
      ih fun y hy => h y (List.mem_cons_of_mem _ hy)]

open Classical in
theorem first_one {rows : List Str} {n : Nat} {dia : SimpleDialect} {f : List Str → Bool} {P : List Str → Prop}
    (h : f rows = true ↔ P rows) : firstForm rows [⟨n, dia, f⟩] = firstCandidate rows [(dia, P)] := by
  unfold firstForm firstCandidate
  simp only [List.find?_cons, List.find?_nil]
  by_cases hp : P rows
  · rw [h.mpr hp, show decide (P rows) = true from decide_eq_true hp]; rfl
  · rw [Bool.eq_false_iff.mpr (fun e => hp (h.mp e)), show decide (P rows) = false from decide_eq_false hp]; rfl

theorem first_three {rows : List Str} {n₁ n₂ n₃ : Nat} {dia : SimpleDialect} {f₁ f₂ f₃ : List Str → Bool}
    {P₁ P₂ P₃ : List Str → Prop} (h₁ : f₁ rows = true ↔ P₁ rows) (h₂ : f₂ rows = true ↔ P₂ rows)
    (h₃ : f₃ rows = true ↔ P₃ rows) : firstForm rows [⟨n₁, dia, f₁⟩, ⟨n₂, dia, f₂⟩, ⟨n₃, dia, f₃⟩] =
      firstCandidate rows [(dia, fun rows => P₁ rows ∨ P₂ rows ∨ P₃ rows)] := by
  unfold firstForm firstCandidate
  simp only [List.find?_cons, List.find?_nil, ← h₁, ← h₂, ← h₃]
  cases f₁ rows <;> cases f₂ rows <;> cases f₃ rows <;> simp

theorem map_flatMap_single {α β : Type} (l : List α) (f : α → β) : l.map f = l.flatMap (fun x => [f x]) := by
  induction l with
  | nil => rfl
  | cons x l ih => rw [List.map_cons, List.flatMap_cons, ih]; rfl

theorem formTests_first (rows : List Str) : firstForm rows (formTests nfDelims) = firstCandidate rows normalCandidates := by
  have e : formTests nfDelims =
      ([',', ';', '|', '\t'].flatMap fun d => [⟨2, mkDialect [d] [] [], fun rows => isForm2 rows [d] []⟩]) ++
      ([',', ';', '|', '\t'].flatMap fun d => ['\'', '"'].flatMap fun q =>
        [⟨1, mkDialect [d] [q] [], fun rows => isForm1 rows [d] [q]⟩,
         ⟨3, mkDialect [d] [q] [], fun rows => isForm3 rows [d] [q]⟩,
         ⟨5, mkDialect [d] [q] [], fun rows => isForm5 rows [d] [q]⟩]) ++
      (['\'', '"'].flatMap fun q => [⟨4, mkDialect [] [q] [], fun rows => isForm4 rows [q]⟩]) ++
      [⟨4, mkDialect [] [] [], fun rows => isForm4 rows []⟩] := rfl
  rw [e, normalCandidates]
  simp only [map_flatMap_single, firstForm_append, firstCandidate_append]
  have hne : ∀ d ∈ [',', ';', '|', '\t'], ∀ q ∈ ['\'', '"'], d ≠ q ∧ PlainQuote q := by
    intro d hd q hq
    refine ⟨?_, ?_⟩
    · rintro rfl
      have : ∀ d ∈ [',', ';', '|', '\t'], d ∉ ['\'', '"'] := by decide
      exact this d hd hq
    · simp only [List.mem_cons, List.not_mem_nil, or_false] at hq
      exact hq.symm
  rw [first_flatMap rows _ (fun d _ => first_one (isForm2_iff d rows)),
    first_flatMap rows [',', ';', '|', '\t'] (fun d hd => first_flatMap rows ['\'', '"'] (fun q hq =>
      first_three (isForm1_iff (hne d hd q hq).1 rows) (isForm3_iff (hne d hd q hq).2 (hne d hd q hq).1 rows)
        (isForm5_iff (hne d hd q hq).2 (hne d hd q hq).1 rows))),
    first_flatMap rows ['\'', '"'] (fun q _ => first_one (isForm4_iff_quoted q rows)),
    first_one (isForm4_iff_plain rows)]

/-! ## The lines -/

theorem joinStr_intercalate (sep : Str) : ∀ L : List Str, joinStr sep L = sep.intercalate L
  | [] => rfl
  | [x] => by simp [joinStr, List.intercalate]
  | x :: y :: L => by
    rw [joinStr, joinStr_intercalate sep (y :: L)]
    simp [List.intercalate, List.intersperse]

theorem isInfixOf_infix (sep s : Str) : isInfixOf sep s = true ↔ sep <:+: s := by
  induction s with
  | nil => simp [isInfixOf]
  | cons c s ih =>
    rw [isInfixOf, Bool.or_eq_true, ih, List.isPrefixOf_iff_prefix, List.infix_cons_iff]

theorem pySplit_no_sep {sep : Str} (h0 : sep ≠ []) (s : Str) : ∀ k, ∀ row ∈ pySplit sep k s, ¬ sep <:+: row := by
  induction s with
  | nil =>
    intro k row hr
    have : row = [] := by cases k <;> simpa [pySplit] using hr
    rw [this, List.infix_nil]
    exact h0
  | cons c s ih =>
    intro k row hr
    cases k with
    | succ k => rw [pySplit] at hr; exact ih k row hr
    | zero =>
      rw [pySplit] at hr
      split at hr
      · rcases List.mem_cons.mp hr with rfl | hr
        · rw [List.infix_nil]; exact h0
        · exact ih _ row hr
      · rename_i hp
        cases h : pySplit sep 0 s with
        | nil => exact absurd h (pySplit_ne_nil _ _ _)
        | cons x xs =>
          rw [h] at hr
          rcases List.mem_cons.mp hr with rfl | hr
          · rw [List.infix_cons_iff]
            rintro (hpre | hin)
            · have hx : x <+: s := by
                have := joinStr_pySplit h0 s 0
                rw [h, List.drop_zero] at this
                rw [← this]
                cases xs with
                | nil => exact List.prefix_rfl
                | cons y ys => rw [joinStr, List.append_assoc]; exact List.prefix_append _ _
              exact hp (List.isPrefixOf_iff_prefix.mpr (hpre.trans (List.cons_prefix_cons.mpr ⟨rfl, hx⟩)))
            · exact ih 0 x (by rw [h]; simp) hin
          · exact ih 0 row (by rw [h]; exact List.mem_cons_of_mem _ hr)

theorem pySplit_pieces {sep : Str} (h0 : sep ≠ []) (s : Str) : PiecesOf sep s (pySplit sep 0 s) :=
  ⟨pySplit_ne_nil _ _ _, by rw [← joinStr_intercalate, joinStr_pySplit h0 s 0]; rfl, pySplit_no_sep h0 s 0⟩

theorem takeWhile_eq_replicate (c : Char) (l : Str) : ∃ n, l.takeWhile (· = c) = List.replicate n c :=
  ⟨(l.takeWhile (· = c)).length, List.eq_replicate_of_mem fun x hx => by
    simpa using List.all_eq_true.mp (List.all_takeWhile (p := fun x => decide (x = c)) (l := l)) x hx⟩

theorem form_dropWhile_head (c : Char) (l : Str) : (l.dropWhile (· = c)).head? ≠ some c := by
  intro h
  have := List.head?_dropWhile_not (fun x => decide (x = c)) l
  rw [h] at this
  simp at this

theorem linesOf_splitFile (data : Str) : LinesOf data (splitFile data) := by
  obtain ⟨j, hj⟩ := takeWhile_eq_replicate '\n' data.reverse
  obtain ⟨i, hi⟩ := takeWhile_eq_replicate '\r' (data.reverse.dropWhile (· = '\n'))
  refine ⟨stripTrailingCrnl data, i, j, ?_, ?_, ?_, ?_⟩
  · have e1 := List.takeWhile_append_dropWhile (p := fun c => decide (c = '\n')) (l := data.reverse)
    have e2 := List.takeWhile_append_dropWhile (p := fun c => decide (c = '\r')) (l := data.reverse.dropWhile (· = '\n'))
    rw [hi] at e2
    rw [hj, ← e2] at e1
    have := congrArg List.reverse e1
    rw [List.reverse_reverse] at this
    refine this.symm.trans ?_
    simp [stripTrailingCrnl]
  · rw [stripTrailingCrnl, List.getLast?_reverse]
    exact form_dropWhile_head _ _
  · rintro rfl
    have e2 := List.takeWhile_append_dropWhile (p := fun c => decide (c = '\r')) (l := data.reverse.dropWhile (· = '\n'))
    rw [hi, List.replicate_zero, List.nil_append] at e2
    rw [stripTrailingCrnl, List.getLast?_reverse, e2]
    exact form_dropWhile_head _ _
  · unfold splitFile
    simp only
    by_cases h1 : ['\r', '\n'] <:+: stripTrailingCrnl data
    · rw [if_pos h1, if_pos ((isInfixOf_infix _ _).mpr h1)]
      exact pySplit_pieces (by simp) _
    · rw [if_neg h1, if_neg (fun h => h1 ((isInfixOf_infix _ _).mp h))]
      by_cases h2 : '\n' ∈ stripTrailingCrnl data
      · rw [if_pos h2, if_pos (isInfixOf_of_mem h2)]
        exact pySplit_pieces (by simp) _
      · rw [if_neg h2, if_neg (by rw [isInfixOf_single h2]; simp)]
        by_cases h3 : '\r' ∈ stripTrailingCrnl data
        · rw [if_pos (isInfixOf_of_mem h3)]
          exact pySplit_pieces (by simp) _
        · rw [if_neg (by rw [isInfixOf_single h3]; simp)]
          refine ⟨by simp, by simp [List.intercalate], fun row hr hin => h3 ?_⟩
          rw [List.mem_singleton] at hr
          subst hr
          exact hin.subset (by simp)

/-! ## Escapes -/

theorem escape_iff (env : PyEnv) (data : Str) :
    (nfDelims.any fun d => nfQuotechars.any fun q => maybeHasEscapechar env data d q) = true ↔ EscapeBefore env.category data := by
  have hpo : ∀ c, isPotentialEscapechar env c = true ↔ env.category c = "Po" ∧ c ∉ "!?\"'.,;:%*&#".toList := by
    intro c
    rw [isPotentialEscapechar, Bool.and_eq_true, decide_eq_true_eq, Bool.not_eq_true', ← Bool.not_eq_true,
      List.contains_iff_mem]
    rfl
  simp only [List.any_eq_true, maybeHasEscapechar]
  constructor
  · rintro ⟨d, hd, q, hq, h⟩
    split at h
    · cases h
    · obtain ⟨⟨c, n⟩, hp, h⟩ := List.any_eq_true.mp h
      obtain ⟨u, v, e⟩ := pairwise_mem.mp hp
      simp only [Bool.and_eq_true, Bool.or_eq_true, decide_eq_true_eq] at h
      refine ⟨u, c, n, v, e, ((hpo c).mp h.2).1, ((hpo c).mp h.2).2, ?_⟩
      rcases h.1 with rfl | rfl
      · have : ∀ d ∈ nfDelims, ∀ x ∈ d, x ∈ ",;|\t'\"".toList := by decide
        exact this _ hd n (by simp)
      · have : ∀ d ∈ nfQuotechars, ∀ x ∈ d, x ∈ ",;|\t'\"".toList := by decide
        exact this _ hq n (by simp)
  · rintro ⟨u, c, n, v, rfl, h1, h2, h3⟩
    have hp := (hpo c).mpr ⟨h1, h2⟩
    have hpair : (c, n) ∈ pairwise (u ++ c :: n :: v) := pairwise_mem.mpr ⟨u, v, rfl⟩
    have hinf : isInfixOf [n] (u ++ c :: n :: v) = true := isInfixOf_of_mem (by simp)
    have : ∃ d ∈ nfDelims, ∃ q ∈ nfQuotechars, [n] = d ∨ [n] = q := by
      revert h3
      generalize n = n
      have : ∀ n ∈ ",;|\t'\"".toList, ∃ d ∈ nfDelims, ∃ q ∈ nfQuotechars, [n] = d ∨ [n] = q := by decide
      exact this n
    obtain ⟨d, hd, q, hq, hn⟩ := this
    refine ⟨d, hd, q, hq, ?_⟩
    rw [if_neg (by rcases hn with rfl | rfl <;> simp [hinf]), List.any_eq_true]
    exact ⟨(c, n), hpair, by rcases hn with rfl | rfl <;> simp [hp]⟩

end Clever
