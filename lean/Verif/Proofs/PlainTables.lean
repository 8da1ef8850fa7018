import Verif.Proofs.NormalForm
import Verif.Proofs.Potential
import Verif.Spec.Table

/-! # Plain tables: what the normal forms and the parser make of them -/

namespace Clever

open Spec

theorem plain_elementary {c : Char} (h : PlainChar c) : elementaryChar c = true := by
  unfold PlainChar at h
  unfold elementaryChar isLow isUpp isDig
  rcases h with h | h | h | h
  · simp [h.1, h.2]
  · simp [h.1, h.2]
  · simp [h.1, h.2]
  · have : c ∈ ['.', '_', '&', '-', '@', '+', '%', '(', ')', ' ', '/'] := h
    simp only [Bool.or_eq_true, List.contains_eq_mem, decide_eq_true_eq]
    exact .inr this

theorem elementary_ne {c x : Char} (h : elementaryChar c = true) (hx : elementaryChar x = false) : c ≠ x := by
  rintro rfl
  rw [h] at hx
  cases hx

/-- The potential escape characters among the ASCII characters. -/
theorem ascii_escape {env : PyEnv} (h : env.Ascii) {c : Char} (hc : c.toNat < 128)
    (hp : isPotentialEscapechar env c = true) : c = '/' ∨ c = '@' ∨ c = '\\' := by
  simp only [isPotentialEscapechar, Bool.and_eq_true, decide_eq_true_eq, Bool.not_eq_true',
    List.contains_eq_mem, decide_eq_false_iff_not] at hp
  obtain ⟨hcat, hb⟩ := hp
  rw [h.category c hc] at hcat
  have key : ∀ n : Nat, n < 128 → asciiCategory (Char.ofNat n) = "Po" → Char.ofNat n ∉ escBlockChars →
      Char.ofNat n = '/' ∨ Char.ofNat n = '@' ∨ Char.ofNat n = '\\' := by decide
  have := key c.toNat hc
  rw [Char.ofNat_toNat] at this
  exact this hcat hb

theorem elementary_ascii {c : Char} (h : elementaryChar c = true) : c.toNat < 128 := by
  unfold elementaryChar isLow isUpp isDig at h
  simp only [Bool.or_eq_true, Bool.and_eq_true, decide_eq_true_eq, List.contains_eq_mem, List.mem_cons,
    List.not_mem_nil, or_false] at h
  have le : ∀ x : Char, x.toNat < 128 → c ≤ x → c.toNat < 128 := fun x hx (h : c.toNat ≤ x.toNat) => by omega
  rcases h with ((h | h) | h) | h
  · exact le _ (by decide) h.2
  · exact le _ (by decide) h.2
  · exact le _ (by decide) h.2
  · rcases h with rfl | rfl | rfl | rfl | rfl | rfl | rfl | rfl | rfl | rfl | rfl <;> decide

/-! ## Splitting -/

theorem pySplit_append {x : Char} {sep' l t : Str} (hl : x ∉ l) :
    pySplit (x :: sep') 0 (l ++ (x :: sep') ++ t) = l :: pySplit (x :: sep') 0 t := by
  induction l with
  | nil =>
    have hskip : ∀ (a b : Str), pySplit (x :: sep') a.length (a ++ b) = pySplit (x :: sep') 0 b := by
      intro a b
      induction a with
      | nil => rfl
      | cons y a ih => simpa [pySplit] using ih
    rw [List.nil_append, List.cons_append, pySplit]
    rw [if_pos (by rw [List.isPrefixOf_iff_prefix]; exact ⟨t, by simp⟩)]
    simp [hskip]
  | cons c l ih =>
    simp only [List.mem_cons, not_or] at hl
    have hc : (x == c) = false := by simpa using hl.1
    rw [List.cons_append, List.cons_append, pySplit]
    rw [if_neg (by simp [List.isPrefixOf, hc])]
    rw [ih hl.2]

theorem pySplit_none {x : Char} {sep' l : Str} (hl : x ∉ l) : pySplit (x :: sep') 0 l = [l] := by
  induction l with
  | nil => rfl
  | cons c l ih =>
    simp only [List.mem_cons, not_or] at hl
    have hc : (x == c) = false := by simpa using hl.1
    rw [pySplit, if_neg (by simp [List.isPrefixOf, hc]), ih hl.2]

theorem pySplit_joinStr {x : Char} {sep' : Str} {L : List Str} (h0 : L ≠ []) (hL : ∀ l ∈ L, x ∉ l) :
    pySplit (x :: sep') 0 (joinStr (x :: sep') L) = L := by
  induction L with
  | nil => exact absurd rfl h0
  | cons l L ih =>
    cases L with
    | nil => exact pySplit_none (hL l (by simp))
    | cons m L =>
      rw [joinStr, pySplit_append (hL l (by simp)), ih (by simp) (fun z hz => hL z (List.mem_cons_of_mem _ hz))]

theorem mem_of_joinStr {sep : Str} {c : Char} : ∀ {L : List Str}, c ∈ joinStr sep L → c ∈ sep ∨ ∃ l ∈ L, c ∈ l
  | [], h => by simp [joinStr] at h
  | [x], h => .inr ⟨x, by simp, h⟩
  | x :: y :: L, h => by
    rw [joinStr] at h
    rcases List.mem_append.mp h with h | h
    · rcases List.mem_append.mp h with h | h
      · exact .inr ⟨x, by simp, h⟩
      · exact .inl h
    · rcases mem_of_joinStr h with h | ⟨l, hl, h⟩
      · exact .inl h
      · exact .inr ⟨l, List.mem_cons_of_mem _ hl, h⟩

theorem getLast_joinStr {sep : Str} {L : List Str} (h0 : L ≠ []) (h1 : ∀ l ∈ L, l ≠ []) :
    ∃ l ∈ L, (joinStr sep L).getLast? = l.getLast? ∧ l ≠ [] := by
  induction L with
  | nil => exact absurd rfl h0
  | cons x L ih =>
    cases L with
    | nil => exact ⟨x, by simp, rfl, h1 x (by simp)⟩
    | cons y L =>
      obtain ⟨l, hl, h2, h3⟩ := ih (by simp) (fun z hz => h1 z (List.mem_cons_of_mem _ hz))
      refine ⟨l, List.mem_cons_of_mem _ hl, ?_, h3⟩
      rw [joinStr, List.getLast?_append, h2]
      cases hlast : l.getLast? with
      | none => rw [List.getLast?_eq_none_iff] at hlast; exact absurd hlast h3
      | some c => simp

theorem stripTrailingCrnl_body {body nl tail : Str} {c : Char} (hb : body.getLast? = some c) (hc : isNL c = false)
    (hnl : IsLineEnd nl) (ht : tail = [] ∨ tail = nl) : stripTrailingCrnl (body ++ tail) = body := by
  obtain ⟨b, rfl⟩ : ∃ b, body = b ++ [c] := by
    refine ⟨body.dropLast, ?_⟩
    have := List.dropLast_append_getLast? c hb
    exact this.symm
  have h1 : c ≠ '\n' := by rintro rfl; revert hc; decide
  have h2 : c ≠ '\r' := by rintro rfl; revert hc; decide
  unfold stripTrailingCrnl
  rcases ht with rfl | rfl
  · simp [List.dropWhile, h1, h2]
  · rcases hnl with rfl | rfl | rfl <;> simp [List.dropWhile, h1, h2]

theorem isInfixOf_append (a b c : Str) : isInfixOf b (a ++ b ++ c) = true := by
  induction a with
  | nil =>
    cases b with
    | nil => cases c <;> simp [isInfixOf, List.isPrefixOf]
    | cons x b =>
      simp only [List.nil_append, List.cons_append, isInfixOf, Bool.or_eq_true]
      exact .inl (by rw [List.isPrefixOf_iff_prefix]; exact ⟨c, by simp⟩)
  | cons x a ih =>
    rw [List.cons_append, List.cons_append, isInfixOf, ih, Bool.or_true]

/-- `split_file` finds the lines. -/
theorem splitFile_lines {L : List Str} {nl tail : Str} (h0 : L ≠ []) (h1 : ∀ l ∈ L, l ≠ [])
    (h2 : ∀ l ∈ L, ∀ c ∈ l, isNL c = false) (hnl : IsLineEnd nl) (ht : tail = [] ∨ tail = nl) :
    splitFile (joinStr nl L ++ tail) = L := by
  obtain ⟨l, hl, h3, h4⟩ := getLast_joinStr (sep := nl) h0 h1
  obtain ⟨c, hc⟩ : ∃ c, l.getLast? = some c := by
    cases h : l.getLast? with
    | none => rw [List.getLast?_eq_none_iff] at h; exact absurd h h4
    | some c => exact ⟨c, rfl⟩
  have hcn : isNL c = false := h2 l hl c (List.mem_of_getLast? hc)
  unfold splitFile
  simp only [stripTrailingCrnl_body (h3.trans hc) hcn hnl ht]
  have hn : ∀ l ∈ L, '\n' ∉ l := fun l hl h => by have := h2 l hl _ h; revert this; decide
  have hr : ∀ l ∈ L, '\r' ∉ l := fun l hl h => by have := h2 l hl _ h; revert this; decide
  cases L with
  | nil => exact absurd rfl h0
  | cons x L =>
    cases L with
    | nil =>
      have e1 : isInfixOf ['\n'] x = false := isInfixOf_single (hn x (by simp))
      have e2 : isInfixOf ['\r'] x = false := isInfixOf_single (hr x (by simp))
      have e3 : isInfixOf ['\r', '\n'] x = false := by
        clear hc h3 h4 hl
        have hx := hr x (by simp)
        clear e1 e2 h1 h2 hn hr h0
        induction x with
        | nil => rfl
        | cons c x ih =>
          simp only [List.mem_cons, not_or] at hx
          have : ('\r' == c) = false := by simpa using hx.1
          simp [isInfixOf, List.isPrefixOf, this, ih hx.2]
      simp [joinStr, e1, e2, e3]
    | cons y L =>
      have hin : isInfixOf nl (joinStr nl (x :: y :: L)) = true := by
        rw [joinStr]; exact isInfixOf_append _ _ _
      rcases hnl with rfl | rfl | rfl
      · have e2 : '\r' ∉ joinStr ['\n'] (x :: y :: L) := by
          intro h
          rcases mem_of_joinStr h with h | ⟨l, hl, h⟩
          · revert h; decide
          · exact hr l hl h
        have e3 : isInfixOf ['\r', '\n'] (joinStr ['\n'] (x :: y :: L)) = false := by
          generalize joinStr ['\n'] (x :: y :: L) = s at e2
          induction s with
          | nil => rfl
          | cons c s ih =>
            simp only [List.mem_cons, not_or] at e2
            have : ('\r' == c) = false := by simpa using e2.1
            simp [isInfixOf, List.isPrefixOf, this, ih e2.2]
        rw [e3, hin]
        simp only [Bool.false_eq_true, if_false, if_true]
        exact pySplit_joinStr (by simp) hn
      · rw [hin]
        simp only [if_true]
        exact pySplit_joinStr (by simp) hr
      · have e2 : '\n' ∉ joinStr ['\r'] (x :: y :: L) := by
          intro h
          rcases mem_of_joinStr h with h | ⟨l, hl, h⟩
          · revert h; decide
          · exact hn l hl h
        have e3 : isInfixOf ['\r', '\n'] (joinStr ['\r'] (x :: y :: L)) = false := by
          generalize joinStr ['\r'] (x :: y :: L) = s at e2
          induction s with
          | nil => rfl
          | cons c s ih =>
            simp only [List.mem_cons, not_or] at e2
            have hs : List.isPrefixOf ['\n'] s = false := by
              cases s with
              | nil => rfl
              | cons z s =>
                have : ('\n' == z) = false := by
                  have := e2.2; simp only [List.mem_cons, not_or] at this; simpa using this.1
                simp [List.isPrefixOf, this]
            have : List.isPrefixOf ['\r', '\n'] (c :: s) = false := by
              rw [List.isPrefixOf, hs, Bool.and_false]
            rw [isInfixOf, this, ih e2.2]
            rfl
        rw [e3, hin, isInfixOf_single e2]
        simp only [Bool.false_eq_true, if_false, if_true]
        exact pySplit_joinStr (by simp) hr

/-- The parser finds the lines. -/
theorem textLines_lines {L : List Str} {nl tail : Str} (h0 : L ≠ []) (h1 : ∀ l ∈ L, l ≠ [])
    (h2 : ∀ l ∈ L, ∀ c ∈ l, isNL c = false) (hnl : IsLineEnd nl) (ht : tail = [] ∨ tail = nl) :
    textLines (joinStr nl L ++ tail) = L := by
  -- a line and what follows it
  have step : ∀ (l t : Str), (∀ c ∈ l, isNL c = false) → (L' : List Str) → (textLines t = [] :: L') →
      textLines (l ++ t) = l :: L' := by
    intro l t hl L' ht
    induction l with
    | nil => simpa using ht
    | cons c l ih =>
      have hc := hl c (by simp)
      have hn : c ≠ '\n' := by rintro rfl; revert hc; decide
      have hr : c ≠ '\r' := by rintro rfl; revert hc; decide
      rw [List.cons_append, textLines, if_neg (by simp [hr]), if_neg (by simp [hn, hr]),
        ih (fun c hc => hl c (List.mem_cons_of_mem _ hc))]
      rfl
  have last : ∀ (l : Str), l ≠ [] → (∀ c ∈ l, isNL c = false) → textLines l = [l] := by
    intro l
    induction l with
    | nil => intro h; exact absurd rfl h
    | cons c l ih =>
      intro _ hl
      have hc := hl c (by simp)
      have hn : c ≠ '\n' := by rintro rfl; revert hc; decide
      have hr : c ≠ '\r' := by rintro rfl; revert hc; decide
      rw [textLines, if_neg (by simp [hr]), if_neg (by simp [hn, hr])]
      cases l with
      | nil => rfl
      | cons y l => rw [ih (by simp) (fun c hc => hl c (List.mem_cons_of_mem _ hc))]; rfl
  have ends : ∀ t : Str, t.head? ≠ some '\n' → textLines (nl ++ t) = [] :: textLines t := by
    intro t h
    rcases hnl with rfl | rfl | rfl
    · simp [textLines]
    · simp [textLines]
    · simp [textLines, h]
  induction L with
  | nil => exact absurd rfl h0
  | cons x L ih =>
    cases L with
    | nil =>
      rw [joinStr]
      rcases ht with rfl | rfl
      · rw [List.append_nil]
        exact last x (h1 x (by simp)) (h2 x (by simp))
      · have := ends [] (by simp)
        rw [List.append_nil] at this
        exact step x tail (h2 x (by simp)) [] this
    | cons y L =>
      have ih := ih (by simp) (fun z hz => h1 z (List.mem_cons_of_mem _ hz))
        (fun z hz => h2 z (List.mem_cons_of_mem _ hz))
      rw [joinStr, List.append_assoc, List.append_assoc]
      refine step x _ (h2 x (by simp)) _ ?_
      rw [ends _ ?_, ih]
      have hy : y ≠ [] := h1 y (by simp)
      cases y with
      | nil => exact absurd rfl hy
      | cons c y =>
        have hc := h2 (c :: y) (by simp) c (by simp)
        have hn : c ≠ '\n' := by rintro rfl; revert hc; decide
        cases L <;> simp [joinStr, hn]

/-! ## The lines of a plain table -/

/-- The delimiters that the normal forms know. -/
def PlainDelim (d : Char) : Prop := d = ',' ∨ d = ';' ∨ d = '|' ∨ d = '\t'

theorem plainDelim_elementary {d : Char} (h : PlainDelim d) : elementaryChar d = false := by
  rcases h with rfl | rfl | rfl | rfl <;> decide

theorem plainDelim_nl {d : Char} (h : PlainDelim d) : isNL d = false := by
  rcases h with rfl | rfl | rfl | rfl <;> decide

theorem elementary_nl {c : Char} (h : elementaryChar c = true) : isNL c = false := by
  cases hn : isNL c with
  | false => rfl
  | true =>
    unfold isNL at hn
    simp only [Bool.or_eq_true, decide_eq_true_eq, beq_iff_eq] at hn
    rcases hn with rfl | rfl <;> revert h <;> decide

theorem delim_mem_joinWith {d : Char} : ∀ {r : List Str}, 2 ≤ r.length → d ∈ joinWith d r
  | [], h => by simp at h
  | [x], h => by simp at h
  | x :: y :: r, _ => by rw [joinWith]; simp

/-- `tableText` in terms of joined lines. -/
theorem tableText_eq {d : Char} {nl : Str} : ∀ {T : List (List Str)}, T ≠ [] →
    tableText d nl T = joinStr nl (T.map (joinWith d)) ++ nl
  | [], h => absurd rfl h
  | [r], _ => by simp [tableText, joinStr]
  | r :: r' :: T, _ => by
    have ih := tableText_eq (d := d) (nl := nl) (T := r' :: T) (by simp)
    simp only [tableText, List.flatMap_cons] at ih ⊢
    rw [ih]
    simp [joinStr]

variable {T : List (List Str)}

theorem _root_.Clever.Spec.PlainTable.elementary (h : PlainTable T) {r : List Str} (hr : r ∈ T) {s : Str} (hs : s ∈ r) {c : Char}
    (hc : c ∈ s) : elementaryChar c = true := plain_elementary (h.chars r hr s hs c hc)

theorem _root_.Clever.Spec.PlainTable.line_ne (h : PlainTable T) {d : Char} {l : Str} (hl : l ∈ T.map (joinWith d)) : l ≠ [] := by
  obtain ⟨r, hr, rfl⟩ := List.mem_map.mp hl
  have := delim_mem_joinWith (d := d) (h.columns r hr)
  intro h0
  rw [h0] at this
  simp at this

theorem _root_.Clever.Spec.PlainTable.line_char (h : PlainTable T) {d : Char} {l : Str} (hl : l ∈ T.map (joinWith d)) {c : Char}
    (hc : c ∈ l) : c = d ∨ elementaryChar c = true := by
  obtain ⟨r, hr, rfl⟩ := List.mem_map.mp hl
  rcases mem_joinWith hc with h' | ⟨s, hs, h'⟩
  · exact .inl h'
  · exact .inr (h.elementary hr hs h')

theorem _root_.Clever.Spec.PlainTable.line_nl (h : PlainTable T) {d : Char} (hd : PlainDelim d) {l : Str}
    (hl : l ∈ T.map (joinWith d)) {c : Char} (hc : c ∈ l) : isNL c = false := by
  rcases h.line_char hl hc with rfl | h
  · exact plainDelim_nl hd
  · exact elementary_nl h

/-! ## No escape characters -/

/-- Neighbours of which the second would not be escaped by the first. -/
def CalmPair (env : PyEnv) (a b : Char) : Prop :=
  b ∈ [',', ';', '|', '\t', '\'', '"'] → isPotentialEscapechar env a = false

theorem calm_of_right {env : PyEnv} {a b : Char} (h : b ∉ [',', ';', '|', '\t', '\'', '"']) : CalmPair env a b :=
  fun h' => absurd h' h

theorem elementary_calm {c : Char} (h : elementaryChar c = true) : c ∉ [',', ';', '|', '\t', '\'', '"'] := by
  intro hc
  simp only [List.mem_cons, List.not_mem_nil, or_false] at hc
  rcases hc with rfl | rfl | rfl | rfl | rfl | rfl <;> revert h <;> decide

theorem calm_chars {env : PyEnv} {s : Str} (h : ∀ c ∈ s, c ∉ [',', ';', '|', '\t', '\'', '"']) :
    s.IsChain (CalmPair env) := by
  induction s with
  | nil => exact .nil
  | cons c s ih =>
    cases s with
    | nil => exact .singleton c
    | cons y s =>
      exact .cons_cons (calm_of_right (h y (by simp))) (ih fun c hc => h c (List.mem_cons_of_mem _ hc))

/-- The characters that may stand before a delimiter. -/
theorem calm_row {env : PyEnv} (ha : env.Ascii) {d : Char} (hd : PlainDelim d) : ∀ {r : List Str},
    (∀ s ∈ r, ∀ c ∈ s, elementaryChar c = true) →
    (∀ s ∈ r.dropLast, s.getLast? ≠ some '/' ∧ s.getLast? ≠ some '@') →
    (joinWith d r).IsChain (CalmPair env)
  | [], _, _ => .nil
  | [x], h, _ => by
    rw [joinWith]
    exact calm_chars fun c hc => elementary_calm (h x (by simp) c hc)
  | x :: y :: r, h, he => by
    have ih := calm_row ha hd (r := y :: r) (fun s hs => h s (List.mem_cons_of_mem _ hs))
      (fun s hs => he s (by simp [List.dropLast, hs]))
    have hdesc : isPotentialEscapechar env d = false := by
      cases hp : isPotentialEscapechar env d with
      | false => rfl
      | true =>
        have := ascii_escape ha (by rcases hd with rfl | rfl | rfl | rfl <;> decide) hp
        rcases hd with rfl | rfl | rfl | rfl <;> revert this <;> decide
    rw [joinWith, List.isChain_append]
    refine ⟨calm_chars fun c hc => elementary_calm (h x (by simp) c hc), ?_, ?_⟩
    · rw [List.isChain_cons]
      exact ⟨fun y _ _ => hdesc, ih⟩
    · intro a hax b _ _
      have hmem : a ∈ x := List.mem_of_getLast? hax
      have hel := h x (by simp) a hmem
      cases hp : isPotentialEscapechar env a with
      | false => rfl
      | true =>
        have h2 := he x (by simp [List.dropLast])
        rcases ascii_escape ha (elementary_ascii hel) hp with rfl | rfl | rfl
        · exact absurd hax h2.1
        · exact absurd hax h2.2
        · revert hel; decide

theorem calm_lines {env : PyEnv} (ha : env.Ascii) {nl tail : Str} (hnl : IsLineEnd nl) (ht : tail = [] ∨ tail = nl) :
    ∀ {L : List Str}, (∀ l ∈ L, l.IsChain (CalmPair env)) → (joinStr nl L ++ tail).IsChain (CalmPair env) := by
  have hbad : ∀ c ∈ nl, c ∉ [',', ';', '|', '\t', '\'', '"'] ∧ isPotentialEscapechar env c = false := by
    intro c hc
    have hc' : c = '\n' ∨ c = '\r' := by
      rcases hnl with rfl | rfl | rfl
      · simp only [List.mem_singleton] at hc; exact .inl hc
      · simp only [List.mem_cons, List.not_mem_nil, or_false] at hc; exact hc.symm
      · simp only [List.mem_singleton] at hc; exact .inr hc
    refine ⟨by rcases hc' with rfl | rfl <;> decide, ?_⟩
    cases hp : isPotentialEscapechar env c with
    | false => rfl
    | true =>
      have := ascii_escape ha (by rcases hc' with rfl | rfl <;> decide) hp
      rcases hc' with rfl | rfl <;> revert this <;> decide
  have happ : ∀ {a b s : Str}, (∀ c ∈ s, c ∈ nl) → a.IsChain (CalmPair env) → b.IsChain (CalmPair env) →
      (s ≠ [] ∨ b = []) → (a ++ s ++ b).IsChain (CalmPair env) := by
    intro a b s hs hca hcb hor
    rw [List.isChain_append, List.isChain_append]
    refine ⟨⟨hca, calm_chars fun c hc => (hbad c (hs c hc)).1, ?_⟩, hcb, ?_⟩
    · intro x _ y hy
      exact calm_of_right (hbad y (hs y (List.mem_of_mem_head? hy))).1
    · intro x hx y hy _
      rcases hor with h | h
      · rw [List.getLast?_append] at hx
        cases hl : s.getLast? with
        | none => rw [List.getLast?_eq_none_iff] at hl; exact absurd hl h
        | some z =>
          rw [hl] at hx
          simp only [Option.some_or, Option.mem_def, Option.some.injEq] at hx
          subst hx
          exact (hbad _ (hs _ (List.mem_of_getLast? hl))).2
      · rw [h] at hy; simp at hy
  have htail : ∀ c ∈ tail, c ∈ nl := by
    rcases ht with rfl | rfl
    · simp
    · exact fun _ h => h
  intro L
  induction L with
  | nil =>
    intro _
    simpa [joinStr] using happ (a := []) (b := []) (s := tail) htail .nil .nil (.inr rfl)
  | cons x L ih =>
    intro h
    cases L with
    | nil => simpa [joinStr] using happ (a := x) (b := []) (s := tail) htail (h x (by simp)) .nil (.inr rfl)
    | cons y L =>
      rw [joinStr, List.append_assoc]
      refine happ (fun _ h => h) (h x (by simp)) (ih fun l hl => h l (List.mem_cons_of_mem _ hl)) (.inl ?_)
      rcases hnl with rfl | rfl | rfl <;> simp

theorem calm_maybe {env : PyEnv} {s : Str} (h : s.IsChain (CalmPair env)) {d q : Str} (hd : d ∈ nfDelims)
    (hq : q ∈ nfQuotechars) : maybeHasEscapechar env s d q = false := by
  unfold maybeHasEscapechar
  split
  · rfl
  · rw [Bool.eq_false_iff]
    intro hany
    obtain ⟨⟨a, b⟩, hp, hb⟩ := List.any_eq_true.mp hany
    obtain ⟨u, v, rfl⟩ := pairwise_mem.mp hp
    rw [List.isChain_append] at h
    have hcalm : CalmPair env a b := (List.isChain_cons.mp h.2.1).1 b (by simp)
    simp only [Bool.and_eq_true, Bool.or_eq_true, decide_eq_true_eq] at hb
    have hmem : b ∈ [',', ';', '|', '\t', '\'', '"'] := by
      unfold nfDelims at hd
      unfold nfQuotechars at hq
      simp only [List.mem_cons, List.not_mem_nil, or_false] at hd hq
      rcases hb.1 with h | h
      · rcases hd with rfl | rfl | rfl | rfl <;> simp at h <;> subst h <;> decide
      · rcases hq with rfl | rfl <;> simp at h <;> subst h <;> decide
    rw [hcalm hmem] at hb
    exact absurd hb.2 (by simp)

/-! ## Form 2 -/

theorem _root_.Clever.Spec.PlainTable.form2 (h : PlainTable T) {d : Char} (hd : PlainDelim d) :
    isForm2 (T.map (joinWith d)) [d] [] = true := by
  have hsplit : ∀ r ∈ T, splitRow (joinWith d r) [d] [] = r := by
    intro r hr
    rw [splitRow_nil]
    refine splitOn_joinWith d r ?_ ?_
    · intro h0
      have := h.columns r hr
      rw [h0] at this
      simp at this
    · intro s hs hds
      have := h.elementary hr hs hds
      rw [plainDelim_elementary hd] at this
      cases this
  unfold isForm2
  rw [Bool.and_eq_true]
  constructor
  · unfold everyRowSameLength
    cases hT : T with
    | nil => exact absurd hT h.rows
    | cons r0 T' =>
      simp only [List.map_cons]
      rw [List.all_eq_true]
      intro l hl
      rw [← List.map_cons, ← hT] at hl
      obtain ⟨r, hr, rfl⟩ := List.mem_map.mp hl
      rw [Bool.and_eq_true]
      have hr0 : r0 ∈ T := by rw [hT]; simp
      refine ⟨isInfixOf_of_mem (delim_mem_joinWith (h.columns r hr)), ?_⟩
      rw [hsplit r hr, hsplit r0 hr0]
      simpa using h.rect r hr r0 hr0
  · rw [List.all_eq_true]
    intro l hl
    obtain ⟨r, hr, rfl⟩ := List.mem_map.mp hl
    simp only [hsplit r hr, Bool.and_eq_true, decide_eq_true_eq, List.all_eq_true]
    refine ⟨by have := h.columns r hr; simp; omega, ?_⟩
    intro s hs
    have hel : ∀ c ∈ s, elementaryChar c = true := fun c hc => h.elementary hr hs hc
    have hhead : ∀ x, elementaryChar x = false → s.head? ≠ some x := by
      intro x hx h'
      rw [hel x (List.mem_of_mem_head? h')] at hx
      cases hx
    have hlast : ∀ x, elementaryChar x = false → s.getLast? ≠ some x := by
      intro x hx h'
      rw [hel x (List.mem_of_getLast? h')] at hx
      cases hx
    refine ⟨⟨?_, ?_⟩, ?_⟩
    · have key : ∀ x, elementaryChar x = false → isQuotedCell s [x] = false := by
        intro x hx
        unfold isQuotedCell
        have := hhead x hx
        cases hs' : s.head? with
        | none => simp
        | some c =>
          rw [hs'] at this
          have : c ≠ x := fun h => this (by rw [h])
          simp [this]
      unfold isAnyQuotedCell
      rw [key _ (by decide), key _ (by decide)]
      rfl
    · unfold isAnyPartialQuotedCell
      simp [hhead '"' (by decide), hhead '\'' (by decide), hlast '"' (by decide), hlast '\'' (by decide)]
    · unfold isElementary
      cases s with
      | nil => rfl
      | cons c s => simpa using hel

theorem _root_.Clever.Spec.PlainTable.not_form2 (h : PlainTable T) {d d' : Char} (hd : PlainDelim d) (hd' : PlainDelim d')
    (hne : d' ≠ d) : isForm2 (T.map (joinWith d)) [d'] [] = false := by
  unfold isForm2 everyRowSameLength
  cases hT : T with
  | nil => exact absurd hT h.rows
  | cons r T' =>
    have hr : r ∈ T := by rw [hT]; simp
    have : isInfixOf [d'] (joinWith d r) = false := by
      refine isInfixOf_single fun hm => ?_
      rcases h.line_char (List.mem_map_of_mem hr) hm with h | h
      · exact hne h
      · rw [plainDelim_elementary hd'] at h; cases h
    simp [this]

/-- The normal forms recognise a plain table. -/
theorem _root_.Clever.Spec.PlainTable.normal (h : PlainTable T) {env : PyEnv} (ha : env.Ascii) {d : Char} (hd : PlainDelim d) {nl tail : Str}
    (hnl : IsLineEnd nl) (ht : tail = [] ∨ tail = nl) :
    detectDialectNormal env (joinStr nl (T.map (joinWith d)) ++ tail) = some (mkDialect [d] [] []) := by
  have hsplit := splitFile_lines (L := T.map (joinWith d)) (by simpa using h.rows) (fun l hl => h.line_ne hl)
    (fun l hl c hc => h.line_nl hd hl hc) hnl ht
  have hcalm : (joinStr nl (T.map (joinWith d)) ++ tail).IsChain (CalmPair env) := by
    refine calm_lines ha hnl ht fun l hl => ?_
    obtain ⟨r, hr, rfl⟩ := List.mem_map.mp hl
    exact calm_row ha hd (fun s hs c hc => h.elementary hr hs hc) (h.ends r hr)
  unfold detectDialectNormal
  simp only [Option.getD_none]
  rw [if_neg ?_]
  · rw [hsplit]
    have hyes := h.form2 hd
    have hno : ∀ d', PlainDelim d' → d' ≠ d → isForm2 (T.map (joinWith d)) [d'] [] = false :=
      fun d' h1 h2 => h.not_form2 hd h1 h2
    unfold formTests nfDelims
    simp only [List.map_cons, List.cons_append, List.find?_cons]
    rcases hd with rfl | rfl | rfl | rfl
    · rw [hyes]; rfl
    · rw [hno ',' (.inl rfl) (by decide), hyes]; rfl
    · rw [hno ',' (.inl rfl) (by decide), hno ';' (.inr (.inl rfl)) (by decide), hyes]; rfl
    · rw [hno ',' (.inl rfl) (by decide), hno ';' (.inr (.inl rfl)) (by decide),
        hno '|' (.inr (.inr (.inl rfl))) (by decide), hyes]; rfl
  · rw [Bool.not_eq_true, List.any_eq_false]
    intro d' hd'
    rw [Bool.not_eq_true, List.any_eq_false]
    intro q hq
    rw [calm_maybe hcalm hd' hq]
    simp

end Clever
