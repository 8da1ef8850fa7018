import Verif.Props.Header

/-!
# Exactly which samples `has_header` rejects, for dialects without quotechar and escapechar (C45)
-/

namespace Clever.Spec

open Clever

/-- A line in which a carriage return is followed by a character that does not end lines. -/
def LoneCR (l : Str) : Prop := ∃ u c w, l = u ++ '\r' :: c :: w ∧ isNL c = false

end Clever.Spec

namespace Clever.Props

open Clever

/-- What the lines of a text are made of. -/
theorem linesLF_mem : ∀ {t l : Str}, l ∈ linesLF t →
    (∀ x ∈ l, x ∈ t) ∧ l.length ≤ t.length ∧ ∀ u c w, l ≠ u ++ '\n' :: c :: w
  | [], l, h => by simp [linesLF] at h
  | z :: t, l, h => by
    rw [linesLF] at h
    split at h
    · rename_i hz
      rcases List.mem_cons.mp h with rfl | h
      · refine ⟨by simp, by simp, ?_⟩
        intro u c w hh
        have := congrArg List.length hh
        simp at this
        omega
      · obtain ⟨h1, h2, h3⟩ := linesLF_mem h
        exact ⟨fun x hx => List.mem_cons_of_mem _ (h1 x hx), by simp; omega, h3⟩
    · rename_i hz
      cases hll : linesLF t with
      | nil =>
        rw [hll] at h
        simp only [List.mem_singleton] at h
        subst h
        refine ⟨by simp, by simp, ?_⟩
        intro u c w hh
        have := congrArg List.length hh
        simp at this
        omega
      | cons a b =>
        rw [hll] at h
        rcases List.mem_cons.mp h with rfl | h
        · obtain ⟨h1, h2, h3⟩ := linesLF_mem (t := t) (l := a) (by rw [hll]; simp)
          refine ⟨?_, by simp; omega, ?_⟩
          · intro x hx
            rcases List.mem_cons.mp hx with rfl | hx
            · simp
            · exact List.mem_cons_of_mem _ (h1 x hx)
          · intro u c w hh
            cases u with
            | nil => simp at hh; exact hz hh.1
            | cons y u => simp at hh; exact h3 u c w hh.2
        · obtain ⟨h1, h2, h3⟩ := linesLF_mem (t := t) (l := l) (by rw [hll]; exact List.mem_cons_of_mem _ h)
          exact ⟨fun x hx => List.mem_cons_of_mem _ (h1 x hx), by simp; omega, h3⟩

/-- A parser without quotechar and escapechar makes a record of a line in which nothing follows the line end. -/
theorem feedLine_clean {α : Type} {cfg : Cfg} (hq : cfg.quotechar = NUL) (he : cfg.escapechar = NUL)
    (mk : Str → Bool → α) :
    ∀ (l : Str) (o : PObj α), NUL ∉ l → ¬ Spec.LoneCR l → (∀ u c w, l ≠ u ++ '\n' :: c :: w) →
    (o.state = .startField ∨ o.state = .inField ∨ (o.state = .eatCRNL ∧ ∀ x ∈ l.head?, isNL x = true) ∨
      o.state = .startRecord) →
    (o.field.length + l.length : Int) ≤ cfg.fieldLimit →
    ∃ o', feedLine cfg mk o l = .ok o' ∧ o'.state = .startRecord := by
  intro l
  induction l with
  | nil =>
    intro o _ _ _ hs _
    rw [feedLine, processChar]
    rcases hs with hs | hs | ⟨hs, -⟩ | hs <;> rw [hs]
    · simp [stepStartField, PObj.to]
    · simp [stepInField, PObj.to]
    · simp [PObj.to, show isNL NUL = false from by decide]
    · simp [hs]
  | cons x l ih =>
    intro o hn hc hlf hs hl
    simp only [List.mem_cons, not_or] at hn
    have hx : x ≠ NUL := Ne.symm hn.1
    have hc' : ¬ Spec.LoneCR l := fun ⟨u, c, w, h, hh⟩ => hc ⟨x :: u, c, w, by rw [h]; rfl, hh⟩
    have hlf' : ∀ u c w, l ≠ u ++ '\n' :: c :: w := fun u c w h => hlf (x :: u) c w (by rw [h]; rfl)
    have hnext : isNL x = true → ∀ y ∈ l.head?, isNL y = true := by
      intro hxn y hy
      cases l with
      | nil => simp at hy
      | cons z l =>
        simp only [List.head?_cons, Option.mem_def, Option.some.injEq] at hy
        subst hy
        cases hz : isNL z with
        | true => rfl
        | false =>
          exfalso
          have : x = '\n' ∨ x = '\r' := by rw [or_comm]; simpa [isNL] using hxn
          rcases this with rfl | rfl
          · exact hlf [] z l rfl
          · exact hc ⟨[], z, l, rfl, hz⟩
    have step : ∃ o', processChar cfg mk o x (l.headD NUL) = .ok o' ∧ o'.field.length ≤ o.field.length + 1 ∧
        (o'.state = .startField ∨ o'.state = .inField ∨ (o'.state = .eatCRNL ∧ ∀ x ∈ l.head?, isNL x = true) ∨
          o'.state = .startRecord) := by
      have hadd : ∀ o1 : PObj α, o1.field = o.field → addChar cfg o1 x = .ok { o1 with field := o1.field ++ [x] } := by
        intro o1 h1
        rw [addChar, if_neg (by rw [h1]; simp at hl; omega)]
      rcases hs with hs | hs | ⟨hs, hx'⟩ | hs
      · rw [processChar, hs]
        cases hn : isNL x with
        | true =>
          simp only [stepStartField, hn, Bool.true_or, if_true, hx, if_false]
          exact ⟨_, rfl, by simp [PObj.to, saveField], .inr (.inr (.inl ⟨rfl, hnext hn⟩))⟩
        | false =>
          simp only [stepStartField, hn, hx, decide_false, Bool.or_self, Bool.false_eq_true, if_false, hq, he]
          split
          · exact ⟨_, rfl, by simp [saveField], .inl (by simp [saveField, hs])⟩
          · rw [hadd _ rfl]
            exact ⟨_, rfl, by simp [PObj.to], .inr (.inl rfl)⟩
      · rw [processChar, hs]
        cases hn : isNL x with
        | true =>
          simp only [stepInField, hn, Bool.true_or, if_true, hx, if_false]
          exact ⟨_, rfl, by simp [PObj.to, saveField], .inr (.inr (.inl ⟨rfl, hnext hn⟩))⟩
        | false =>
          simp only [stepInField, hn, hx, decide_false, Bool.or_self, Bool.false_eq_true, if_false, hq, he]
          split
          · exact ⟨_, rfl, by simp [PObj.to, saveField], .inl rfl⟩
          · rw [hadd _ rfl]
            exact ⟨_, rfl, by simp, .inr (.inl hs)⟩
      · have hxn := hx' x (by simp)
        rw [processChar, hs]
        simp only [hxn, if_true]
        exact ⟨_, rfl, by simp, .inr (.inr (.inl ⟨hs, hnext hxn⟩))⟩
      · rw [processChar, hs]
        simp only [hx, if_false]
        cases hn : isNL x with
        | true => exact ⟨_, rfl, by simp [PObj.to], .inr (.inr (.inl ⟨rfl, hnext hn⟩))⟩
        | false =>
          simp only [Bool.false_eq_true, if_false, stepStartField, hn, hx, decide_false, Bool.or_self, hq, he]
          split
          · exact ⟨_, rfl, by simp [PObj.to, saveField], .inl rfl⟩
          · rw [hadd (o.to .startField) rfl]
            exact ⟨_, rfl, by simp [PObj.to], .inr (.inl rfl)⟩
    obtain ⟨o', h1, h2, h3⟩ := step
    rw [feedLine, if_neg hx, h1]
    simp only
    exact ih o' hn.2 hc' hlf' h3 (by simp at hl; omega)

/-- The records of lines: one for each, up to the first line with a lone carriage return. -/
theorem parseRows_lines {cfg : Cfg} (hq : cfg.quotechar = NUL) (he : cfg.escapechar = NUL) :
    ∀ ls : List Str, (∀ l ∈ ls, NUL ∉ l ∧ (l.length : Int) ≤ cfg.fieldLimit ∧ ∀ u c w, l ≠ u ++ '\n' :: c :: w) →
    ((∀ l ∈ ls, ¬ Spec.LoneCR l) ∧ (parseRows cfg mkPlain (strItems ls)).1.length = ls.length ∧
      (parseRows cfg mkPlain (strItems ls)).2 = none) ∨
    ∃ pre l post, ls = pre ++ l :: post ∧ (∀ l ∈ pre, ¬ Spec.LoneCR l) ∧ Spec.LoneCR l ∧
      (parseRows cfg mkPlain (strItems ls)).1.length = pre.length ∧
      (parseRows cfg mkPlain (strItems ls)).2 = some .newlineInUnquoted
  | [], _ => by
    left
    refine ⟨by simp, ?_, ?_⟩ <;> rw [parseRows_eq] <;> simp [strItems, nextRow_nil]
  | l :: ls, h => by
    obtain ⟨hn, hl, hlf⟩ := h l (by simp)
    by_cases hc : Spec.LoneCR l
    · right
      refine ⟨[], l, ls, rfl, by simp, hc, ?_⟩
      obtain ⟨u, c, w, rfl, hcc⟩ := hc
      have hf := feedLine_lone_cr (cfg := cfg) hq he mkPlain hcc u PObj.init hn (.inl rfl) (by
        simp only [PObj.init, List.length_append, List.length_cons, List.length_nil] at hl ⊢
        push_cast at hl ⊢
        omega)
      have hnr : ∃ rest, nextRow cfg mkPlain (strItems ((u ++ '\r' :: c :: w) :: ls)) = (.error .newlineInUnquoted, rest) := by
        rw [strItems, List.map_cons, nextRow, nextRowFrom, hf]
        exact ⟨_, rfl⟩
      obtain ⟨rest, hnr⟩ := hnr
      rw [parseRows_eq, hnr]
      simp
    · obtain ⟨o', h1, h2⟩ := feedLine_clean (cfg := cfg) hq he mkPlain l PObj.init hn hc hlf
        (.inr (.inr (.inr rfl))) (by simpa [PObj.init] using hl)
      have hnr : nextRow cfg mkPlain (strItems (l :: ls)) = (.row o'.fields, strItems ls) := by
        rw [strItems, List.map_cons, nextRow, nextRowFrom, h1]
        simp only [h2, if_true]
        rfl
      rw [parseRows_eq, hnr]
      simp only
      rcases parseRows_lines hq he ls (fun x hx => h x (by simp [hx])) with ⟨h3, h4, h5⟩ | ⟨pre, x, post, h3, h4, h5, h6, h7⟩
      · left
        refine ⟨?_, by simp [h4], h5⟩
        intro x hx
        rcases List.mem_cons.mp hx with rfl | hx
        · exact hc
        · exact h3 x hx
      · right
        refine ⟨l :: pre, x, post, by rw [h3]; rfl, ?_, h5, by simp [h6], h7⟩
        intro y hy
        rcases List.mem_cons.mp hy with rfl | hy
        · exact hc
        · exact h4 y hy

/-- **C45**, exactly for dialects without quotechar and escapechar: on a sample that is not empty, has no NUL and no cell
over the limit, `has_header` raises if and only if a carriage return is followed by a character that does not end lines,
in one of the first lines (the header, the lines that are checked, and one more). -/
theorem C45_iff (casts : Casts) {limit : Int} (hl : InLong limit) (d : Option Char) (sample : Str) (maxRows : Int)
    (hne : sample ≠ []) (hnul : NUL ∉ sample) (hlim : (sample.length : Int) ≤ limit) :
    (∃ x, hasHeaderWith casts limit (dialectOf d none none) sample maxRows = .error x) ↔
      ∃ l ∈ (linesLF sample).take (Spec.window maxRows + 2), Spec.LoneCR l := by
  rw [hasHeaderWith_eq casts (validate_dialectOf d none none false) (dialectOf_cfg d none none false hl)]
  have hne' : linesLF sample ≠ [] := fun h => hne ((linesLF_eq_nil sample).mp h)
  have hall : ∀ l ∈ linesLF sample, NUL ∉ l ∧ (l.length : Int) ≤ (cfgOf d none none limit false).fieldLimit ∧
      ∀ u c w, l ≠ u ++ '\n' :: c :: w := by
    intro l hm
    obtain ⟨h1, h2, h3⟩ := linesLF_mem hm
    refine ⟨fun h => hnul (h1 _ h), ?_, h3⟩
    simp only [cfgOf]
    omega
  rcases parseRows_lines (cfg := cfgOf d none none limit false) rfl rfl _ hall with
    ⟨h1, h2, h3⟩ | ⟨pre, l, post, h1, h2, h3, h4, h5⟩
  · rw [h3]
    cases hr : (parseRows (cfgOf d none none limit false) mkPlain (strItems (linesLF sample))).1 with
    | nil =>
      rw [hr] at h2
      exact absurd (List.length_eq_zero_iff.mp h2.symm) hne'
    | cons r rs =>
      simp only [Spec.hasHeader, Option.map_none, reduceCtorEq, exists_false, false_iff]
      rintro ⟨l, hm, hlc⟩
      exact h1 l (List.mem_of_mem_take hm) hlc
  · rw [h5, h1]
    have hright : (∃ x ∈ (pre ++ l :: post).take (Spec.window maxRows + 2), Spec.LoneCR x) ↔ pre.length ≤ Spec.window maxRows + 1 := by
      rw [List.take_append]
      constructor
      · rintro ⟨x, hm, hx⟩
        rcases List.mem_append.mp hm with hm | hm
        · exact absurd hx (h2 x (List.mem_of_mem_take hm))
        · by_cases hle : pre.length ≤ Spec.window maxRows + 1
          · exact hle
          · rw [show Spec.window maxRows + 2 - pre.length = 0 by omega] at hm
            simp at hm
      · intro hle
        refine ⟨l, ?_, h3⟩
        rw [show Spec.window maxRows + 2 - pre.length = (Spec.window maxRows + 1 - pre.length) + 1 by omega]
        simp
    rw [hright, ← h4, h1]
    cases (parseRows (cfgOf d none none limit false) mkPlain (strItems (pre ++ l :: post))).1 with
    | nil => simp [Spec.hasHeader]
    | cons r rs =>
      simp only [Spec.hasHeader, Option.map_some, List.length_cons]
      split
      · simp; omega
      · simp; omega

/-- The same for `has_header` itself, if the detected dialect has no quotechar and no escapechar. -/
theorem C45_detected (casts : Casts) (env : PyEnv) (ord : SetOrder) {limit : Int} (hl : InLong limit) (d : Option Char)
    (sample : Str) (maxRows : Int) (hne : sample ≠ []) (hnul : NUL ∉ sample) (hlim : (sample.length : Int) ≤ limit)
    (h : (detect env ord limit sample).result = .ok (some (dialectOf d none none))) :
    (∃ x, hasHeader casts env ord limit sample maxRows = .error x) ↔
      ∃ l ∈ (linesLF sample).take (Spec.window maxRows + 2), Spec.LoneCR l := by
  rw [← C45_iff casts hl d sample maxRows hne hnul hlim]
  unfold hasHeader sniff
  simp only [h, C37_restored_partial env ord limit sample none .auto true _ h]

example : (detect asciiEnv .forward 99 "a,b\r1,2".toList).result = .ok (some (dialectOf (some ',') none none)) := by
  decide +kernel

/-- The fourth line is beyond those that are read with `max_rows_to_check=0`; the third is not. -/
example : hasHeaderWith digitCasts 99 (dialectOf (some ',') none none) "a,b\n1,2\r\n3,4\n5\r6,7".toList 0 = .ok true ∧
    hasHeaderWith digitCasts 99 (dialectOf (some ',') none none) "a,b\n1,2\n3\r6,7\n".toList 0 =
      .error (.parse .newlineInUnquoted) := by decide +kernel

end Clever.Props
