import Verif.Spec.Streams

/-!
# Reading in chunks: helper lemmas
-/

namespace Clever

open Spec

/-! ## Decoders -/

theorem Decoder.feed_append (d : Decoder) : ∀ (a : Bytes) (s : Nat) (b : Bytes),
    d.feed s (a ++ b) = (d.feed s a).bind fun x => (d.feed x.1 b).map fun y => (y.1, x.2 ++ y.2)
  | [], s, b => by
    simp only [List.nil_append, Decoder.feed, Option.bind_some]
    cases d.feed s b <;> simp
  | x :: a, s, b => by
    simp only [List.cons_append, Decoder.feed]
    cases d.step s x with
    | none => rfl
    | some y =>
      obtain ⟨s', t⟩ := y
      simp only
      rw [d.feed_append a s' b]
      cases d.feed s' a with
      | none => rfl
      | some z =>
        obtain ⟨s2, t2⟩ := z
        simp only [Option.bind_some]
        cases d.feed s2 b with
        | none => rfl
        | some u => simp

/-- The characters that the chunks still give, and the error that ends them. -/
def remText (d : Decoder) (fails : Bool) : Nat → List Bytes → Str × Option PyExc
  | s, [] => ([], if fails then some .osError else if d.atEnd s then none else some .unicodeError)
  | s, c :: cs =>
    match d.feed s c with
    | none => ([], some .unicodeError)
    | some (s', t) => (t ++ (remText d fails s' cs).1, (remText d fails s' cs).2)

theorem remText_good {d : Decoder} {fails : Bool} : ∀ {good : List Bytes} {s s' : Nat} {t : Str} {cs : List Bytes},
    d.feed s good.flatten = some (s', t) →
    remText d fails s (good ++ cs) = (t ++ (remText d fails s' cs).1, (remText d fails s' cs).2)
  | [], s, s', t, cs, h => by
    simp only [List.flatten_nil, Decoder.feed, Option.some.injEq, Prod.mk.injEq] at h
    obtain ⟨rfl, rfl⟩ := h
    rfl
  | g :: good, s, s', t, cs, h => by
    rw [List.flatten_cons, Decoder.feed_append] at h
    cases hg : d.feed s g with
    | none => rw [hg] at h; cases h
    | some x =>
      obtain ⟨s1, t1⟩ := x
      rw [hg, Option.bind_some] at h
      simp only at h
      cases hr : d.feed s1 good.flatten with
      | none => rw [hr] at h; cases h
      | some y =>
        obtain ⟨s2, t2⟩ := y
        rw [hr] at h
        simp only [Option.map_some, Option.some.injEq, Prod.mk.injEq] at h
        obtain ⟨rfl, rfl⟩ := h
        have ih := remText_good (fails := fails) (cs := cs) hr
        simp only [List.cons_append, remText, hg, ih, List.append_assoc]

theorem remText_length (d : Decoder) (fails : Bool) : ∀ (cs : List Bytes) (s : Nat),
    (remText d fails s cs).1.length ≤ d.count s cs.flatten := by
  have happ : ∀ (a : Bytes) (s : Nat) (b : Bytes) (s' : Nat) (t : Str), d.feed s a = some (s', t) →
      d.count s (a ++ b) = t.length + d.count s' b := by
    intro a
    induction a with
    | nil =>
      intro s b s' t h
      simp only [Decoder.feed, Option.some.injEq, Prod.mk.injEq] at h
      obtain ⟨rfl, rfl⟩ := h
      simp
    | cons x a ih =>
      intro s b s' t h
      simp only [Decoder.feed] at h
      cases hx : d.step s x with
      | none => rw [hx] at h; cases h
      | some y =>
        obtain ⟨s1, t1⟩ := y
        rw [hx] at h
        simp only at h
        cases hr : d.feed s1 a with
        | none => rw [hr] at h; cases h
        | some z =>
          obtain ⟨s2, t2⟩ := z
          rw [hr] at h
          simp only [Option.some.injEq, Prod.mk.injEq] at h
          obtain ⟨rfl, rfl⟩ := h
          simp only [List.cons_append, Decoder.count, hx, ih s1 b s2 t2 hr, List.length_append]
          omega
  intro cs
  induction cs with
  | nil => intro s; simp [remText]
  | cons c cs ih =>
    intro s
    simp only [remText]
    cases hc : d.feed s c with
    | none => simp
    | some x =>
      obtain ⟨s', t⟩ := x
      simp only [List.flatten_cons, happ c s cs.flatten s' t hc, List.length_append]
      have := ih s'
      omega

/-! ## Carriage returns -/

/-- The CR that waits. -/
def crText (cr : Bool) : Str := if cr then ['\r'] else []

theorem crDecode_more (cr : Bool) (t : Str) :
    (crDecode cr t false).2 ++ crText (crDecode cr t false).1 = crText cr ++ t ∧
    ((crDecode cr t false).2.getLast? = some '\r' → (crDecode cr t false).1 = true) := by
  have hout : (if cr && (!t.isEmpty || false) then '\r' :: t else t) ++ crText (cr && !(!t.isEmpty || false)) =
      crText cr ++ t := by
    cases cr <;> cases t <;> simp [crText]
  unfold crDecode
  simp only
  by_cases h : (if cr && (!t.isEmpty || false) then '\r' :: t else t).getLast? = some '\r'
  · rw [if_pos (by simp only [h, decide_true, Bool.not_false, Bool.and_true])]
    refine ⟨?_, fun _ => rfl⟩
    have hne : ¬ (cr && !(!t.isEmpty || false)) = true := by
      intro hc
      cases cr <;> cases t <;> simp_all
    rw [← hout, show crText (cr && !(!t.isEmpty || false)) = [] from by unfold crText; rw [if_neg hne], List.append_nil]
    obtain ⟨x, hx⟩ := List.getLast?_eq_some_iff.mp h
    rw [hx]
    simp [crText]
  · rw [if_neg (by simp only [h, decide_false, Bool.false_and]; simp)]
    exact ⟨hout, fun h' => absurd h' h⟩

theorem crDecode_final (cr : Bool) (t : Str) : crDecode cr t true = (false, crText cr ++ t) := by
  cases cr <;> simp [crDecode, crText]

/-! ## The state of a file -/

/-- What a file still has to deliver. -/
def TextIn.rest (f : TextIn) : Str := f.chars ++ (crText f.cr ++ (remText f.dec f.fails f.state f.chunks).1)

/-- The error at the end of a file. -/
def TextIn.ending (f : TextIn) : Option PyExc := (remText f.dec f.fails f.state f.chunks).2

/-- A CR at the end of the decoded characters is not followed by LF. -/
structure TextIn.Inv (f : TextIn) : Prop where
  nonempty : [] ∉ f.chunks
  last : f.chars.getLast? = some '\r' → f.cr = true ∨ (f.rest = f.chars ∧ f.ending = none)

/-- `_read_chunk`. -/
theorem readChunk_spec {f : TextIn} (hf : f.Inv) (h0 : f.chars = []) :
    (∃ e, f.readChunk = .error e ∧ f.ending = some e ∧ f.rest = crText f.cr) ∨
    (∃ f', f.readChunk = .ok (true, f') ∧ f'.Inv ∧ f'.rest = f.rest ∧ f'.ending = f.ending ∧
      f'.chunks.length + 1 = f.chunks.length ∧ (f'.chars.getLast? = some '\r' → f'.cr = true)) ∨
    (∃ f', f.readChunk = .ok (false, f') ∧ f'.Inv ∧ f'.chars = f.rest ∧ f'.rest = f.rest ∧ f.ending = none ∧ f'.ending = none ∧
      f'.chunks = [] ∧ f.rest = crText f.cr) := by
  obtain ⟨d, chunks, fails, s, cr, chars⟩ := f
  simp only at h0
  subst h0
  cases chunks with
  | nil =>
    cases fails with
    | true =>
      left
      exact ⟨.osError, by simp [TextIn.readChunk, TextIn.read1], by simp [TextIn.ending, remText],
        by simp [TextIn.rest, remText]⟩
    | false =>
      cases hs : d.atEnd s with
      | false =>
        left
        exact ⟨.unicodeError, by simp [TextIn.readChunk, TextIn.read1, Decoder.decode, Decoder.feed, hs],
          by simp [TextIn.ending, remText, hs], by simp [TextIn.rest, remText]⟩
      | true =>
        right; right
        refine ⟨⟨d, [], false, s, false, crText cr⟩, ?_, ⟨by simp, fun _ => Or.inr ⟨?_, ?_⟩⟩, ?_, ?_, ?_, ?_, rfl, ?_⟩
        · simp [TextIn.readChunk, TextIn.read1, Decoder.decode, Decoder.feed, hs, crDecode_final]
        · simp [TextIn.rest, remText, crText]
        · simp [TextIn.ending, remText, hs]
        · simp [TextIn.rest, remText]
        · simp [TextIn.rest, remText, crText]
        · simp [TextIn.ending, remText, hs]
        · simp [TextIn.ending, remText, hs]
        · simp [TextIn.rest, remText]
  | cons c cs =>
    have hc : c ≠ [] := fun e => hf.nonempty (by simp [e])
    have hc' : c.isEmpty = false := by cases c <;> simp_all
    cases hfeed : d.feed s c with
    | none =>
      left
      exact ⟨.unicodeError, by simp [TextIn.readChunk, TextIn.read1, Decoder.decode, hfeed],
        by simp [TextIn.ending, remText, hfeed], by simp [TextIn.rest, remText, hfeed]⟩
    | some x =>
      obtain ⟨s', t⟩ := x
      right; left
      obtain ⟨h1, h2⟩ := crDecode_more cr t
      refine ⟨⟨d, cs, fails, s', (crDecode cr t false).1, (crDecode cr t false).2⟩, ?_, ⟨?_, fun h => Or.inl (h2 h)⟩, ?_, ?_, ?_, h2⟩
      · simp [TextIn.readChunk, TextIn.read1, Decoder.decode, hfeed, hc']
      · intro h; exact hf.nonempty (List.mem_cons_of_mem _ h)
      · simp only [TextIn.rest, remText, hfeed]
        rw [← List.append_assoc, h1]
        simp
      · simp only [TextIn.ending, remText, hfeed]
      · simp

/-- The inner loop of `readline`. -/
theorem fill_spec : ∀ (k : Nat) {f : TextIn}, f.Inv → f.chars = [] → f.chunks.length + 1 ≤ k →
    (∃ e, f.fill k = .error e ∧ f.ending = some e ∧ (f.rest = [] ∨ f.rest = ['\r'])) ∨
    (∃ f', f.fill k = .ok f' ∧ f'.Inv ∧ f'.rest = f.rest ∧ f'.ending = f.ending ∧
      (f'.chars = [] → f.rest = [] ∧ f.ending = none) ∧
      (f'.chunks.length + 1 ≤ f.chunks.length ∨ (f'.chunks = [] ∧ f'.ending = none ∧ f'.rest = f'.chars ∧ (f.rest = [] ∨ f.rest = ['\r']))))
  | 0, f, _, _, hk => by omega
  | k + 1, f, hf, h0, hk => by
    have hcr : crText f.cr = [] ∨ crText f.cr = ['\r'] := by cases f.cr <;> simp [crText]
    rcases readChunk_spec hf h0 with ⟨e, h1, h2, h3⟩ | ⟨f', h1, h2, h3, h4, h5, h6⟩ | ⟨f', h1, h2, h3, h4, h5, h6, h7, h8⟩
    · left
      exact ⟨e, by simp [TextIn.fill, h1], h2, by rw [h3]; exact hcr⟩
    · cases hc : f'.chars with
      | nil =>
        rcases fill_spec k h2 hc (by omega) with ⟨e, g1, g2, g3⟩ | ⟨f2, g1, g2, g3, g4, g5, g6⟩
        · left
          exact ⟨e, by simp [TextIn.fill, h1, hc, g1], by rw [← h4]; exact g2, by rw [← h3]; exact g3⟩
        · right
          refine ⟨f2, by simp [TextIn.fill, h1, hc, g1], g2, g3.trans h3, g4.trans h4, ?_, ?_⟩
          · intro h; rw [← h3, ← h4]; exact g5 h
          · rcases g6 with g6 | g6
            · left; omega
            · right; rw [← h3]; exact g6
      | cons x xs =>
        right
        refine ⟨f', by simp [TextIn.fill, h1, hc], h2, h3, h4, ?_, Or.inl (by omega)⟩
        intro h; simp [hc] at h
    · right
      refine ⟨f', by simp [TextIn.fill, h1], h2, h4, by rw [h6, h5], ?_, Or.inr ⟨h7, h6, by rw [h3, h4], by rw [h8]; exact hcr⟩⟩
      intro h; rw [← h3]; exact ⟨h, h5⟩

/-! ## Lines -/

/-- Where the first line of a text ends, if that is certain; `closed`: nothing comes after the text. -/
def firstEnd (closed : Bool) : Str → Option Nat
  | [] => none
  | '\n' :: _ => some 1
  | '\r' :: '\n' :: _ => some 2
  | ['\r'] => if closed then some 1 else none
  | '\r' :: _ => some 1
  | _ :: r => (firstEnd closed r).map (· + 1)

theorem firstEnd_other (closed : Bool) {c : Char} (h1 : c ≠ '\n') (h2 : c ≠ '\r') (r : Str) :
    firstEnd closed (c :: r) = (firstEnd closed r).map (· + 1) := by
  rw [firstEnd]
  all_goals grind

theorem lineEnd_other {c : Char} (h1 : c ≠ '\n') (h2 : c ≠ '\r') (r : Str) :
    lineEnd (c :: r) = (lineEnd r).map (· + 1) := by
  rw [lineEnd]
  all_goals grind

theorem firstEnd_none_app (closed : Bool) : ∀ {line : Str} (X : Str), lineEnd line = none →
    firstEnd closed (line ++ X) = (firstEnd closed X).map (· + line.length)
  | [], X, _ => by simp
  | c :: r, X, h => by
    have h1 : c ≠ '\n' := by rintro rfl; simp [lineEnd] at h
    have h2 : c ≠ '\r' := by
      rintro rfl
      cases r with
      | nil => simp [lineEnd] at h
      | cons a r =>
        by_cases ha : a = '\n'
        · subst ha; simp [lineEnd] at h
        · rw [lineEnd] at h <;> grind
    rw [lineEnd_other h1 h2, Option.map_eq_none_iff] at h
    rw [List.cons_append, firstEnd_other closed h1 h2, firstEnd_none_app closed X h]
    cases firstEnd closed X <;> simp [Nat.add_assoc]

theorem firstEnd_some_app (closed : Bool) : ∀ {line : Str} {X : Str} {n : Nat}, lineEnd line = some n →
    (line.getLast? = some '\r' → X.head? = some '\r' ∨ (X = [] ∧ closed = true)) →
    firstEnd closed (line ++ X) = some n ∧ n ≤ line.length ∧ 0 < n
  | [], X, n, h, _ => by simp [lineEnd] at h
  | c :: r, X, n, h, hl => by
    by_cases h1 : c = '\n'
    · subst h1
      simp only [lineEnd, Option.some.injEq] at h
      subst h
      simp [firstEnd]
    · by_cases h2 : c = '\r'
      · subst h2
        cases r with
        | nil =>
          simp only [lineEnd, Option.some.injEq] at h
          subst h
          rcases hl rfl with h | ⟨rfl, rfl⟩
          · cases X with
            | nil => simp at h
            | cons x X =>
              have : x = '\r' := by simpa using h
              subst this
              simp [firstEnd]
          · simp [firstEnd]
        | cons a r =>
          by_cases ha : a = '\n'
          · subst ha
            simp only [lineEnd, Option.some.injEq] at h
            subst h
            simp [firstEnd]
          · have e1 : lineEnd ('\r' :: a :: r) = some 1 := by rw [lineEnd] <;> grind
            have e2 : firstEnd closed ('\r' :: a :: (r ++ X)) = some 1 := by rw [firstEnd] <;> grind
            rw [e1] at h
            cases h
            simp [e2]
      · rw [lineEnd_other h1 h2] at h
        cases hr : lineEnd r with
        | none => rw [hr] at h; cases h
        | some m =>
          rw [hr] at h
          simp only [Option.map_some, Option.some.injEq] at h
          subst h
          have hrne : r ≠ [] := by rintro rfl; simp [lineEnd] at hr
          obtain ⟨g1, g2, g3⟩ := firstEnd_some_app closed (X := X) hr (by
            intro hx
            apply hl
            rw [List.getLast?_cons_of_ne_nil hrne]
            exact hx)
          rw [List.cons_append, firstEnd_other closed h1 h2, g1]
          simp [g2]

/-- What `readline` has to do, from `line` read already and the file `f`. -/
def LineResult (line : Str) (f : TextIn) (r : Except PyExc (Str × TextIn)) : Prop :=
  match firstEnd f.ending.isNone (line ++ f.rest) with
  | some n => ∃ f', r = .ok ((line ++ f.rest).take n, f') ∧ f'.Inv ∧ f'.rest = (line ++ f.rest).drop n ∧ f'.ending = f.ending ∧ 0 < n ∧
      n ≤ (line ++ f.rest).length
  | none =>
    match f.ending with
    | none => ∃ f', r = .ok (line ++ f.rest, f') ∧ f'.Inv ∧ f'.rest = [] ∧ f'.ending = none
    | some e => r = .error e

theorem lineLoop_found {k : Nat} {line : Str} {f : TextIn} {n : Nat} (hf : f.Inv) (h0 : f.chars = [])
    (hl : line.getLast? = some '\r' → f.cr = true ∨ (f.rest = [] ∧ f.ending = none)) (hn : lineEnd line = some n) :
    LineResult line f (TextIn.lineLoop (k + 1) line f) := by
  have hx : line.getLast? = some '\r' → f.rest.head? = some '\r' ∨ (f.rest = [] ∧ f.ending.isNone = true) := by
    intro h
    rcases hl h with h | ⟨h, h'⟩
    · left; simp [TextIn.rest, h0, h, crText]
    · right; exact ⟨h, by simp [h']⟩
  obtain ⟨g1, g2, g3⟩ := firstEnd_some_app f.ending.isNone hn hx
  unfold LineResult
  rw [g1]
  refine ⟨{ f with chars := line.drop n }, ?_, ⟨hf.nonempty, ?_⟩, ?_, rfl, g3, by rw [List.length_append]; omega⟩
  · simp only [TextIn.lineLoop, hn]
    rw [List.take_append_of_le_length g2]
  · intro h
    have hlast : line.getLast? = some '\r' := by
      simp only at h
      obtain ⟨a, ha⟩ := List.getLast?_eq_some_iff.mp h
      rw [← List.take_append_drop n line, ha, ← List.append_assoc]
      simp
    rcases hl hlast with h | ⟨h, h'⟩
    · exact Or.inl h
    · right
      refine ⟨?_, h'⟩
      simp only [TextIn.rest, h0, List.nil_append] at h ⊢
      rw [h, List.append_nil]
  · simp only [TextIn.rest, h0, List.nil_append]
    rw [List.drop_append_of_le_length g2]

theorem lineLoop_spec : ∀ (k : Nat) {line : Str} {f : TextIn}, f.Inv → f.chars = [] →
    (line.getLast? = some '\r' → f.cr = true ∨ (f.rest = [] ∧ f.ending = none)) →
    (f.chunks.length + 2 ≤ k ∨ (lineEnd line ≠ none ∧ 1 ≤ k)) →
    LineResult line f (TextIn.lineLoop k line f)
  | 0, line, f, _, _, _, hk => by omega
  | k + 1, line, f, hf, h0, hl, hk => by
    cases hn : lineEnd line with
    | some n => exact lineLoop_found hf h0 hl hn
    | none =>
      have hk' : f.chunks.length + 2 ≤ k + 1 := by
        rcases hk with hk | hk
        · exact hk
        · exact absurd hn hk.1
      rcases fill_spec (f.chunks.length + 1) hf h0 (Nat.le_refl _) with ⟨e, h1, h2, h3⟩ | ⟨f', h1, h2, h3, h4, h5, h6⟩
      · unfold LineResult
        rw [firstEnd_none_app _ _ hn, h2]
        have : firstEnd (some e : Option PyExc).isNone f.rest = none := by
          rcases h3 with h3 | h3 <;> rw [h3] <;> simp [firstEnd]
        rw [this]
        simp [TextIn.lineLoop, hn, h1]
      · cases hc : f'.chars with
        | nil =>
          obtain ⟨g1, g2⟩ := h5 hc
          unfold LineResult
          rw [g1, List.append_nil]
          have : firstEnd f.ending.isNone line = none := by
            have := firstEnd_none_app f.ending.isNone [] hn
            simpa [firstEnd] using this
          rw [this, g2]
          refine ⟨f', ?_, h2, by rw [h3, g1], by rw [h4, g2]⟩
          simp [TextIn.lineLoop, hn, h1, hc]
        | cons x xs =>
          have hstep : TextIn.lineLoop (k + 1) line f = TextIn.lineLoop k (line ++ f'.chars) { f' with chars := [] } := by
            simp [TextIn.lineLoop, hn, h1, hc]
          have hne : f'.chars ≠ [] := by simp [hc]
          have hrest : f'.chars ++ ({ f' with chars := [] } : TextIn).rest = f.rest := by
            rw [← h3]; simp [TextIn.rest]
          have hend : ({ f' with chars := [] } : TextIn).ending = f.ending := by rw [← h4]; rfl
          have hinv : ({ f' with chars := [] } : TextIn).Inv := ⟨h2.nonempty, by simp⟩
          have hl' : (line ++ f'.chars).getLast? = some '\r' → ({ f' with chars := [] } : TextIn).cr = true ∨
              (({ f' with chars := [] } : TextIn).rest = [] ∧ ({ f' with chars := [] } : TextIn).ending = none) := by
            intro h
            rw [List.getLast?_append_of_ne_nil _ hne] at h
            rcases h2.last h with h | ⟨h, h'⟩
            · exact Or.inl h
            · right
              refine ⟨?_, h'⟩
              have : f'.chars ++ ({ f' with chars := [] } : TextIn).rest = f'.chars ++ [] := by
                rw [hrest, ← h3, h, List.append_nil]
              exact List.append_cancel_left this
          have hfuel : ({ f' with chars := [] } : TextIn).chunks.length + 2 ≤ k ∨ (lineEnd (line ++ f'.chars) ≠ none ∧ 1 ≤ k) := by
            rcases h6 with h6 | ⟨g1, g2, g3, g4⟩
            · left
              show f'.chunks.length + 2 ≤ k
              omega
            · right
              refine ⟨?_, by omega⟩
              have : f'.chars = ['\r'] := by
                rw [← g3, h3]
                rcases g4 with g4 | g4
                · exact absurd (by rw [← g3, h3, g4]) hne
                · exact g4
              rw [this]
              intro hnone
              have := firstEnd_none_app true (line := line ++ ['\r']) [] hnone
              rw [List.append_nil, firstEnd_none_app true _ hn] at this
              simp [firstEnd] at this
          have ih := lineLoop_spec k hinv rfl hl' hfuel
          rw [hstep]
          unfold LineResult at ih ⊢
          rw [List.append_assoc, hrest, hend] at ih
          exact ih

theorem readline_spec {f : TextIn} (hf : f.Inv) : LineResult [] f f.readline := by
  have hinv : ({ f with chars := [] } : TextIn).Inv := ⟨hf.nonempty, by simp⟩
  have hrest : f.chars ++ ({ f with chars := [] } : TextIn).rest = f.rest := by simp [TextIn.rest]
  have h := lineLoop_spec (f.chunks.length + 3) (line := f.chars) hinv rfl (by
    intro h
    rcases hf.last h with h | ⟨h, h'⟩
    · exact Or.inl h
    · right
      refine ⟨?_, h'⟩
      have : f.chars ++ ({ f with chars := [] } : TextIn).rest = f.chars ++ [] := by rw [hrest, h, List.append_nil]
      exact List.append_cancel_left this) (Or.inl (by show f.chunks.length + 2 ≤ _; omega))
  unfold LineResult at h ⊢
  rw [hrest] at h
  rw [List.nil_append]
  exact h

/-! ## All lines -/

theorem linesUniv_first : ∀ {T : Str} {n : Nat}, firstEnd true T = some n →
    linesUniv T = T.take n :: linesUniv (T.drop n)
  | [], n, h => by simp [firstEnd] at h
  | c :: r, n, h => by
    by_cases h1 : c = '\n'
    · subst h1
      simp only [firstEnd, Option.some.injEq] at h
      subst h
      simp [linesUniv, lineEndAfter]
    · by_cases h2 : c = '\r'
      · subst h2
        cases r with
        | nil =>
          simp only [firstEnd, if_true, Option.some.injEq] at h
          subst h
          rfl
        | cons a r =>
          by_cases ha : a = '\n'
          · subst ha
            simp only [firstEnd, Option.some.injEq] at h
            subst h
            simp [linesUniv, lineEndAfter]
          · have e2 : firstEnd true ('\r' :: a :: r) = some 1 := by rw [firstEnd] <;> grind
            rw [e2] at h
            cases h
            simp [linesUniv, lineEndAfter, ha]
      · rw [firstEnd_other true h1 h2] at h
        cases hr : firstEnd true r with
        | none => rw [hr] at h; cases h
        | some m =>
          rw [hr] at h
          simp only [Option.map_some, Option.some.injEq] at h
          subst h
          rw [linesUniv, if_neg (by simp [lineEndAfter, h1, h2]), linesUniv_first hr]
          simp

theorem linesUniv_unended : ∀ {T : Str}, firstEnd true T = none → linesUniv T = if T = [] then [] else [T]
  | [], _ => rfl
  | c :: r, h => by
    have h1 : c ≠ '\n' := by rintro rfl; simp [firstEnd] at h
    have h2 : c ≠ '\r' := by
      rintro rfl
      cases r with
      | nil => simp [firstEnd] at h
      | cons a r =>
        by_cases ha : a = '\n'
        · subst ha; simp [firstEnd] at h
        · rw [firstEnd] at h <;> grind
    rw [firstEnd_other true h1 h2, Option.map_eq_none_iff] at h
    rw [linesUniv, if_neg (by simp [lineEndAfter, h1, h2]), linesUniv_unended h]
    cases r <;> simp

theorem firstEnd_open : ∀ {T : Str} {n : Nat}, firstEnd false T = some n →
    firstEnd true T = some n ∧ n ≤ T.length ∧ (T.drop n = [] → T.getLast? = some '\n')
  | [], n, h => by simp [firstEnd] at h
  | c :: r, n, h => by
    by_cases h1 : c = '\n'
    · subst h1
      simp only [firstEnd, Option.some.injEq] at h
      subst h
      refine ⟨by simp [firstEnd], by simp, ?_⟩
      intro h
      have : r = [] := by simpa using h
      subst this; rfl
    · by_cases h2 : c = '\r'
      · subst h2
        cases r with
        | nil => simp [firstEnd] at h
        | cons a r =>
          by_cases ha : a = '\n'
          · subst ha
            simp only [firstEnd, Option.some.injEq] at h
            subst h
            refine ⟨by simp [firstEnd], by simp, ?_⟩
            intro h
            have : r = [] := by simpa using h
            subst this; rfl
          · have e1 : firstEnd false ('\r' :: a :: r) = some 1 := by rw [firstEnd] <;> grind
            have e2 : firstEnd true ('\r' :: a :: r) = some 1 := by rw [firstEnd] <;> grind
            rw [e1] at h
            cases h
            exact ⟨e2, by simp, by simp⟩
      · rw [firstEnd_other false h1 h2] at h
        cases hr : firstEnd false r with
        | none => rw [hr] at h; cases h
        | some m =>
          rw [hr] at h
          simp only [Option.map_some, Option.some.injEq] at h
          subst h
          obtain ⟨g1, g2, g3⟩ := firstEnd_open hr
          refine ⟨by rw [firstEnd_other true h1 h2, g1]; rfl, by simp [g2], ?_⟩
          intro h
          have hrne : r ≠ [] := by rintro rfl; simp [firstEnd] at hr
          rw [List.getLast?_cons_of_ne_nil hrne]
          exact g3 (by simpa using h)

theorem endedLines_first {T : Str} {n : Nat} (h : firstEnd false T = some n) :
    endedLines T = T.take n :: endedLines (T.drop n) := by
  obtain ⟨h1, h2, h3⟩ := firstEnd_open h
  unfold endedLines
  rw [linesUniv_first h1]
  cases hd : T.drop n with
  | nil => rw [h3 hd]; simp [linesUniv]
  | cons x xs =>
    have hlast : T.getLast? = (x :: xs).getLast? := by
      rw [← List.take_append_drop n T, hd, List.getLast?_append_of_ne_nil _ (by simp)]
    rw [hlast]
    split
    · rfl
    · have hne : linesUniv (x :: xs) ≠ [] := by
        unfold linesUniv
        split
        · simp
        · split <;> simp
      rw [List.dropLast_cons_of_ne_nil hne]

theorem endedLines_unended : ∀ {T : Str}, firstEnd false T = none → endedLines T = []
  | [], _ => rfl
  | c :: r, h => by
    have key : ∀ T : Str, firstEnd false T = none → T.getLast? ≠ some '\n' ∧ (linesUniv T).length ≤ 1 := by
      intro T
      induction T with
      | nil => intro _; simp [linesUniv]
      | cons c r ih =>
        intro h
        have h1 : c ≠ '\n' := by rintro rfl; simp [firstEnd] at h
        by_cases h2 : c = '\r'
        · subst h2
          cases r with
          | nil => exact ⟨by decide, by decide⟩
          | cons a r =>
            by_cases ha : a = '\n'
            · subst ha; simp [firstEnd] at h
            · rw [firstEnd] at h <;> grind
        · rw [firstEnd_other false h1 h2, Option.map_eq_none_iff] at h
          obtain ⟨g1, g2⟩ := ih h
          constructor
          · cases r with
            | nil => simpa using h1
            | cons a r => rw [List.getLast?_cons_of_ne_nil (by simp)]; exact g1
          · rw [linesUniv, if_neg (by simp [lineEndAfter, h1, h2])]
            cases hl : linesUniv r with
            | nil => simp
            | cons l ls => rw [hl] at g2; simpa using g2
    obtain ⟨h1, h2⟩ := key _ h
    unfold endedLines
    rw [if_neg h1]
    match hl : linesUniv (c :: r), h2 with
    | [], _ => rfl
    | [_], _ => rfl
    | _ :: _ :: _, h2 => simp at h2

theorem linesLoop_spec : ∀ (k : Nat) {f : TextIn}, f.Inv → f.rest.length + 1 ≤ k →
    f.linesLoop k = match f.ending with
      | none => (linesUniv f.rest, none)
      | some e => (endedLines f.rest, some e)
  | 0, f, _, hk => by omega
  | k + 1, f, hf, hk => by
    have h := readline_spec hf
    unfold LineResult at h
    simp only [List.nil_append] at h
    cases he : f.ending with
    | none =>
      rw [he] at h
      simp only [Option.isNone_none] at h
      cases hn : firstEnd true f.rest with
      | some n =>
        rw [hn] at h
        obtain ⟨f', h1, h2, h3, h4, h5, h6⟩ := h
        have hne : (f.rest.take n).isEmpty = false := by
          cases hr : f.rest with
          | nil => rw [hr] at h6; simp at h6; omega
          | cons x xs => cases n <;> simp_all
        have ih := linesLoop_spec k h2 (by rw [h3, List.length_drop]; omega)
        rw [h4, h3] at ih
        simp only at ih
        simp only [TextIn.linesLoop, h1, hne, ih, linesUniv_first hn, Bool.false_eq_true, if_false]
      | none =>
        rw [hn] at h
        obtain ⟨f', h1, h2, h3, h4⟩ := h
        rw [linesUniv_unended hn]
        by_cases hr : f.rest = []
        · simp [TextIn.linesLoop, h1, hr]
        · have hne : f.rest.isEmpty = false := by cases hx : f.rest <;> simp_all
          have ih := linesLoop_spec k h2 (by
            rw [h3]
            have : 0 < f.rest.length := List.length_pos_iff.mpr hr
            simp; omega)
          rw [h4, h3] at ih
          simp only at ih
          simp only [TextIn.linesLoop, h1, hne, ih, hr, linesUniv, Bool.false_eq_true, if_false]
    | some e =>
      rw [he] at h
      simp only [Option.isNone_some] at h
      cases hn : firstEnd false f.rest with
      | some n =>
        rw [hn] at h
        obtain ⟨f', h1, h2, h3, h4, h5, h6⟩ := h
        have hne : (f.rest.take n).isEmpty = false := by
          cases hr : f.rest with
          | nil => rw [hr] at h6; simp at h6; omega
          | cons x xs => cases n <;> simp_all
        have ih := linesLoop_spec k h2 (by rw [h3, List.length_drop]; omega)
        rw [h4, h3] at ih
        simp only at ih
        simp only [TextIn.linesLoop, h1, hne, ih, endedLines_first hn, Bool.false_eq_true, if_false]
      | none =>
        rw [hn] at h
        simp only at h
        simp only [TextIn.linesLoop, h, endedLines_unended hn]

theorem lines_spec {f : TextIn} (hf : f.Inv) :
    f.lines = match f.ending with
      | none => (linesUniv f.rest, none)
      | some e => (endedLines f.rest, some e) := by
  refine linesLoop_spec _ hf ?_
  have h1 := remText_length f.dec f.fails f.chunks f.state
  have h2 : (crText f.cr).length ≤ 1 := by cases f.cr <;> simp [crText]
  simp only [TextIn.rest, List.length_append]
  omega

/-! ## Prefixes -/

theorem settled_app {A X : Str} (h : X = [] → A.getLast? ≠ some '\r') : settled (A ++ X) = A ++ settled X := by
  by_cases hX : X = []
  · subst hX
    simp [settled, h rfl]
  · unfold settled
    rw [List.getLast?_append_of_ne_nil _ hX]
    split
    · rw [List.dropLast_append_of_ne_nil hX]
    · rfl

theorem readLoop_done {n k : Nat} {result : Str} {f : TextIn} (h : result.length = n) :
    TextIn.readLoop n k result f = .ok result := by
  cases k with
  | zero => rfl
  | succ k => simp [TextIn.readLoop, h]

theorem readLoop_spec (n : Nat) : ∀ (k : Nat) {result : Str} {f : TextIn}, f.Inv → f.chars = [] → result.length ≤ n →
    f.chunks.length + 1 ≤ k →
    TextIn.readLoop n k result f = match f.ending with
      | none => .ok ((result ++ f.rest).take n)
      | some e => if n ≤ result.length + (settled f.rest).length then .ok ((result ++ f.rest).take n) else .error e
  | 0, result, f, _, _, _, hk => by omega
  | k + 1, result, f, hf, h0, hn, hk => by
    by_cases hlen : result.length < n
    · have hcr : settled (crText f.cr) = [] := by cases f.cr <;> simp [crText, settled]
      rcases readChunk_spec hf h0 with ⟨e, h1, h2, h3⟩ | ⟨f', h1, h2, h3, h4, h5, h6⟩ | ⟨f', h1, h2, h3, h4, h5, h6, h7, h8⟩
      · rw [h2]
        simp only
        rw [h3, hcr, if_neg (by simp; omega)]
        simp [TextIn.readLoop, hlen, h1]
      · have hstep : TextIn.readLoop n (k + 1) result f =
            TextIn.readLoop n k (result ++ f'.chars.take (n - result.length)) { f' with chars := f'.chars.drop (n - result.length) } := by
          simp [TextIn.readLoop, hlen, h1]
        rw [hstep]
        by_cases hfit : f'.chars.length ≤ n - result.length
        · have hX : f'.chars ++ ({ f' with chars := [] } : TextIn).rest = f.rest := by rw [← h3]; simp [TextIn.rest]
          have hend : ({ f' with chars := [] } : TextIn).ending = f.ending := by rw [← h4]; rfl
          have ih := readLoop_spec n k (result := result ++ f'.chars) (f := { f' with chars := [] }) ⟨h2.nonempty, by simp⟩ rfl
            (by rw [List.length_append]; omega) (by show f'.chunks.length + 1 ≤ k; omega)
          rw [List.take_of_length_le hfit, List.drop_eq_nil_of_le hfit, ih, hend, List.append_assoc, hX]
          cases hE : f.ending with
          | none => rfl
          | some e =>
            have hs : settled f.rest = f'.chars ++ settled ({ f' with chars := [] } : TextIn).rest := by
              rw [← hX]
              apply settled_app
              intro hnil hl
              have := h6 hl
              simp [TextIn.rest, this, crText] at hnil
            rw [hs, List.length_append, List.length_append]
            simp only [Nat.add_assoc]
        · have hlong : n - result.length ≤ f'.chars.length := by omega
          have hlen2 : (result ++ f'.chars.take (n - result.length)).length = n := by
            rw [List.length_append, List.length_take]; omega
          have hrest : f.rest = f'.chars ++ ({ f' with chars := [] } : TextIn).rest := by rw [← h3]; simp [TextIn.rest]
          have htake : (result ++ f.rest).take n = result ++ f'.chars.take (n - result.length) := by
            rw [List.take_append, List.take_of_length_le (by omega), hrest, List.take_append_of_le_length hlong]
          rw [readLoop_done hlen2, htake]
          cases hE : f.ending with
          | none => rfl
          | some e =>
            simp only
            rw [if_pos]
            have : (settled f.rest).length + 1 ≥ f.rest.length := by
              unfold settled; split <;> simp <;> omega
            have h3 : f.rest.length ≥ f'.chars.length := by rw [hrest, List.length_append]; omega
            omega
      · rw [h5]
        simp only [TextIn.readLoop, hlen, h1, if_true, Bool.false_eq_true, if_false]
        rw [h3, List.take_append, List.take_of_length_le (by omega : result.length ≤ n)]
    · have hl : result.length = n := by omega
      rw [readLoop_done hl]
      have htake : (result ++ f.rest).take n = result := by rw [← hl]; simp
      rw [htake]
      cases f.ending with
      | none => rfl
      | some e => simp only; rw [if_pos (by omega)]

/-! ## Files that have just been opened -/

theorem inv_fresh {f : TextIn} (h : Fresh f) : f.Inv := ⟨h.2.2.2, by simp [h.2.2.1]⟩

theorem readable_spec {f : TextIn} {t : Str} (h : Fresh f) (hr : Readable f t) : f.rest = t ∧ f.ending = none := by
  obtain ⟨h1, s, h2, h3⟩ := hr
  have := remText_good (fails := f.fails) (cs := []) h2
  rw [List.append_nil, h1] at this
  simp [TextIn.rest, TextIn.ending, h.1, h.2.1, h.2.2.1, this, crText, remText, h1, h3]

theorem breaks_spec {f : TextIn} {t : Str} {e : PyExc} (h : Fresh f) (hr : Breaks f t e) : f.rest = t ∧ f.ending = some e := by
  obtain ⟨good, s, h2, ⟨c, bad, h3, h4, rfl⟩ | ⟨h3, h4, rfl⟩ | ⟨h3, h4, h5, rfl⟩⟩ := hr
  · have := remText_good (fails := f.fails) (cs := c :: bad) h2
    simp [TextIn.rest, TextIn.ending, h.1, h.2.1, h.2.2.1, this, crText, remText, h3, h4]
  · have := remText_good (fails := f.fails) (cs := []) h2
    rw [List.append_nil, h4] at this
    simp [TextIn.rest, TextIn.ending, h.1, h.2.1, h.2.2.1, this, crText, remText, h3, h4]
  · have := remText_good (fails := f.fails) (cs := []) h2
    rw [List.append_nil] at this
    rw [h4] at this
    simp [TextIn.rest, TextIn.ending, h.1, h.2.1, h.2.2.1, this, crText, remText, h3, h4, h5]

theorem readN_spec {f : TextIn} (h : Fresh f) (n : Nat) :
    f.readN n = match f.ending with
      | none => .ok (f.rest.take n)
      | some e => if n ≤ (settled f.rest).length then .ok (f.rest.take n) else .error e := by
  have hf := readLoop_spec n (f.chunks.length + 1) (result := []) (inv_fresh h) h.2.2.1 (by simp) (Nat.le_refl _)
  obtain ⟨d, chunks, fails, s, cr, chars⟩ := f
  obtain ⟨h1, h2, h3, h4⟩ := h
  simp only at h3
  subst h3
  simp only [List.nil_append, List.length_nil, Nat.zero_add] at hf
  unfold TextIn.readN
  simpa using hf

/-- The file can be read to its end, or there is an error. -/
theorem readable_or_breaks (f : TextIn) : (∃ t, Readable f t) ∨ ∃ t e, Breaks f t e := by
  have key : ∀ (rest good : List Bytes) (s : Nat) (t : Str), f.chunks = good ++ rest → f.dec.feed 0 good.flatten = some (s, t) →
      (∃ t, Readable f t) ∨ ∃ t e, Breaks f t e := by
    intro rest
    induction rest with
    | nil =>
      intro good s t hc hg
      rw [List.append_nil] at hc
      cases hf : f.fails with
      | true => exact Or.inr ⟨t, _, good, s, hg, Or.inr (Or.inl ⟨hc, hf, rfl⟩)⟩
      | false =>
        cases hs : f.dec.atEnd s with
        | true => exact Or.inl ⟨t, hf, s, by rw [hc]; exact hg, hs⟩
        | false => exact Or.inr ⟨t, _, good, s, hg, Or.inr (Or.inr ⟨hc, hf, hs, rfl⟩)⟩
    | cons c rest ih =>
      intro good s t hc hg
      cases hx : f.dec.feed s c with
      | none => exact Or.inr ⟨t, _, good, s, hg, Or.inl ⟨c, rest, hc, hx, rfl⟩⟩
      | some x =>
        refine ih (good ++ [c]) x.1 (t ++ x.2) (by rw [hc]; simp) ?_
        rw [List.flatten_append, Decoder.feed_append, hg]
        simp [hx]
  exact key f.chunks [] 0 [] rfl rfl

theorem firstEnd_append : ∀ {T : Str} {n : Nat} (u : Str), firstEnd false T = some n → firstEnd true (T ++ u) = some n
  | [], n, _, h => by simp [firstEnd] at h
  | c :: r, n, u, h => by
    by_cases h1 : c = '\n'
    · subst h1
      simpa [firstEnd] using h
    · by_cases h2 : c = '\r'
      · subst h2
        cases r with
        | nil => simp [firstEnd] at h
        | cons a r =>
          by_cases ha : a = '\n'
          · subst ha
            simpa [firstEnd] using h
          · have e1 : firstEnd false ('\r' :: a :: r) = some 1 := by rw [firstEnd] <;> grind
            have e2 : firstEnd true ('\r' :: a :: (r ++ u)) = some 1 := by rw [firstEnd] <;> grind
            rw [e1] at h
            exact e2.trans h
      · rw [firstEnd_other false h1 h2] at h
        rw [List.cons_append, firstEnd_other true h1 h2]
        cases hr : firstEnd false r with
        | none => rw [hr] at h; cases h
        | some m =>
          rw [hr] at h
          rw [firstEnd_append u hr]
          exact h

theorem firstEnd_newline : ∀ {T : Str}, firstEnd false T = none → firstEnd true (T ++ ['\n']) = some (T.length + 1)
  | [], _ => rfl
  | c :: r, h => by
    have h1 : c ≠ '\n' := by rintro rfl; simp [firstEnd] at h
    by_cases h2 : c = '\r'
    · subst h2
      cases r with
      | nil => rfl
      | cons a r =>
        by_cases ha : a = '\n'
        · subst ha; simp [firstEnd] at h
        · rw [firstEnd] at h <;> grind
    · rw [firstEnd_other false h1 h2, Option.map_eq_none_iff] at h
      rw [List.cons_append, firstEnd_other true h1 h2, firstEnd_newline h]
      simp

/-- The ended lines, and what is left of the text. -/
theorem ended_split : ∀ (k : Nat) (T : Str), T.length ≤ k → ∃ left, firstEnd false left = none ∧ T = (endedLines T).flatten ++ left ∧
    ∀ u, linesUniv (T ++ u) = endedLines T ++ linesUniv (left ++ u)
  | k, T, hk => by
    cases hn : firstEnd false T with
    | none => exact ⟨T, hn, by simp [endedLines_unended hn], by simp [endedLines_unended hn]⟩
    | some n =>
      obtain ⟨-, h2, -⟩ := firstEnd_open hn
      have hpos : 0 < n := by
        rcases Nat.eq_zero_or_pos n with rfl | h
        · have := linesUniv_first (firstEnd_open hn).1
          simp only [List.take_zero, List.drop_zero] at this
          exact absurd this (by simp)
        · exact h
      cases k with
      | zero => omega
      | succ k =>
        obtain ⟨left, g1, g2, g3⟩ := ended_split k (T.drop n) (by rw [List.length_drop]; omega)
        refine ⟨left, g1, ?_, fun u => ?_⟩
        · rw [endedLines_first hn, List.flatten_cons, List.append_assoc, ← g2, List.take_append_drop]
        · rw [linesUniv_first (firstEnd_append u hn), endedLines_first hn, List.take_append_of_le_length h2,
            List.drop_append_of_le_length h2, g3 u]
          rfl

end Clever
