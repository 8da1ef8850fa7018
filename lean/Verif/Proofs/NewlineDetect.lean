import Verif.Proofs.NewlineRegex
import Verif.Proofs.ReadBack
import Verif.Proofs.RowOrder
import Verif.Proofs.DetectErrors
import Verif.Proofs.NormalForm
import Verif.Proofs.Ties

/-!
# The detector and the newline convention
-/

namespace Clever

open Spec Props

variable {α : Type}

/-! ### The parser -/

theorem parseText_limitError {cfg : Cfg} {mk : Str → Bool → α} {t : Str} {L : Int}
    (h : (parseText cfg mk t).2 = some (.fieldLimit L)) : cfg.fieldLimit < t.length := by
  have := textRun_errors (cfg := cfg) (mk := mk) t PObj.init 0 (Inv.init _ _)
    (by simp [PObj.init]) (by simp [PObj.init, pending]) (e := .fieldLimit L)
    (by rw [← parseText_eq_textRun]; exact h)
  rcases this with ⟨h, -⟩ | ⟨-, h⟩ | ⟨-, h | h⟩
  · cases h
  · simpa using h
  · cases h
  · cases h

theorem parseText_recode {nl : Str} {f : α → α} {cfg : Cfg} {mk : Str → Bool → α} (hn : IsNewline nl)
    (hd : isNL cfg.delimiter = false) (hq : isNL cfg.quotechar = false) (hesc : isNL cfg.escapechar = false)
    (hf : ∀ s b, mk (recode nl s) b = f (mk s b)) (t : Str) (hr : '\r' ∉ t)
    (he : ¬ LineEndsWith cfg.escapechar t) (hl : nl = ['\r'] ∨ ((recode nl t).length : Int) ≤ cfg.fieldLimit) :
    parseText cfg mk (recode nl t) = recodeRows f (parseText cfg mk t) := by
  rcases hl with hl | hl
  · have S : NlSim nl f False cfg mk := ⟨hn, hd, hq, hesc, hf, .inr hl⟩
    rcases S.text t hr he with h | ⟨h, -⟩
    · exact h
    · exact h.elim
  · have S : NlSim nl f True cfg mk := ⟨hn, hd, hq, hesc, hf, .inl trivial⟩
    rcases S.text t hr he with h | ⟨-, L, h | h⟩
    · exact h
    · have := parseText_limitError h
      have := le_recode_length hn t
      omega
    · have := parseText_limitError h
      omega

theorem parseText_two {nl : Str} {f : α → α} {mk : Str → Bool → α} (hn : IsNewline nl) (d q e : Option Char)
    (hd : isNL (d.getD NUL) = false) (hq : isNL (q.getD NUL) = false) (hesc : isNL (e.getD NUL) = false)
    (hf : ∀ s b, mk (recode nl s) b = f (mk s b)) (t : Str) (hr : '\r' ∉ t)
    (he : ¬ LineEndsWith (e.getD NUL) t) :
    parseText (cfgOf d q e ((recode nl t).length + 1) false) mk (recode nl t) =
      recodeRows f (parseText (cfgOf d q e (t.length + 1) false) mk t) := by
  rw [parseText_recode (f := f) hn hd hq hesc hf t hr he (.inr (by simp only [cfgOf]; omega))]
  have hle := le_recode_length hn t
  rcases parseText_lim (cfg := cfgOf d q e (t.length + 1) false) (L := (recode nl t).length + 1)
    (by simp only [cfgOf]; omega) mk t with h | ⟨h, -⟩
  · rw [h]; rfl
  · have := parseText_limitError h
    simp only [cfgOf] at this
    omega

/-! ### Candidates -/

theorem pairwise_cons {β : Type} (a : β) (l : List β) :
    pairwise (a :: l) = (l.head?.toList.map fun b => (a, b)) ++ pairwise l := by
  cases l <;> simp [pairwise]

theorem recode_head? {nl t : Str} (hn : IsNewline nl) :
    (recode nl t).head? = t.head?.map fun c => if c = '\n' then '\r' else c := by
  cases t with
  | nil => rfl
  | cons c t =>
    simp only [recode]
    split
    · rcases hn with rfl | rfl <;> simp_all
    · simp_all

theorem pairwise_recode {nl : Str} (hn : IsNewline nl) {p : Char × Char → Bool}
    (hp : ∀ a b, isNL a = true ∨ isNL b = true → p (a, b) = false) (t : Str) :
    (pairwise (recode nl t)).filter p = (pairwise t).filter p := by
  induction t with
  | nil => rfl
  | cons c t ih =>
    rw [pairwise_cons, List.filter_append, ← ih]
    by_cases hc : c = '\n'
    · subst hc
      have h0 : ∀ a, isNL a = true → ∀ l : List Char, (l.map fun b => (a, b)).filter p = [] := by
        intro a ha l
        rw [List.filter_eq_nil_iff]
        intro x hx
        obtain ⟨b, -, rfl⟩ := List.mem_map.1 hx
        simp [hp a b (.inl ha)]
      rw [h0 _ (by decide), recode, if_pos rfl]
      rcases hn with rfl | rfl
      · rw [List.singleton_append, pairwise_cons, List.filter_append, h0 _ (by decide)]
      · show (pairwise ('\r' :: '\n' :: recode _ t)).filter p = _
        rw [pairwise_cons, List.filter_append, h0 _ (by decide), pairwise_cons, List.filter_append,
          h0 _ (by decide)]
        rfl
    · rw [recode, if_neg hc, List.singleton_append, pairwise_cons, List.filter_append, recode_head? hn]
      congr 1
      cases t with
      | nil => rfl
      | cons x t =>
        by_cases hx : x = '\n'
        · subst hx
          simp [hp c _ (.inr (by decide : isNL '\n' = true)), hp c _ (.inr (by decide : isNL '\r' = true))]
        · simp [hx]

theorem potential_notNl {env : PyEnv} (h : env.Ascii) {c : Char} (hc : isNL c = true) :
    isPotentialEscapechar env c = false := by
  have hc' : c = '\r' ∨ c = '\n' := by simpa [isNL] using hc
  unfold isPotentialEscapechar
  rcases hc' with rfl | rfl
  · rw [h.category _ (by decide)]; decide
  · rw [h.category _ (by decide)]; decide

/-- No custom delimiter is a newline. -/
def NoNlDelims (ds : Option (List Str)) : Prop := ∀ l, ds = some l → ['\n'] ∉ l ∧ ['\r'] ∉ l

theorem isDelimiter_notNl {env : PyEnv} {ds : Option (List Str)} (hds : NoNlDelims ds) {c : Char}
    (h : isDelimiter env ds c = true) : isNL c = false := by
  cases hc : isNL c with
  | false => rfl
  | true =>
    have hc' : c = '\r' ∨ c = '\n' := by simpa [isNL] using hc
    unfold isDelimiter at h
    cases ds with
    | none => rcases hc' with rfl | rfl <;> simp [defaultBlockChar] at h
    | some l =>
      have := hds l rfl
      rcases hc' with rfl | rfl
      · simp [this.2] at h
      · simp [this.1] at h

theorem quoteChar_notNl {c : Char} (h : c ∈ defaultQuoteChars) : isNL c = false := by
  simp only [defaultQuoteChars, List.mem_cons, List.not_mem_nil, or_false] at h
  rcases h with rfl | rfl | rfl | rfl <;> decide

theorem escapeInsertions_recode {env : PyEnv} (h : env.Ascii) {nl : Str} (hn : IsNewline nl) (t d q : Str)
    (hd : ∀ c, isNL c = true → [c] ≠ d) (hq : ∀ c, isNL c = true → [c] ≠ q) :
    escapeInsertions env (recode nl t) d q = escapeInsertions env t d q := by
  unfold escapeInsertions
  rw [pairwise_recode hn]
  intro a b hab
  rcases hab with ha | hb
  · simp [potential_notNl h ha]
  · simp [hd b hb, hq b hb]

theorem getDialects_recode {env : PyEnv} (h : env.Ascii) {nl : Str} (hn : IsNewline nl) {ord : SetOrder}
    {ds : Option (List Str)} (hds : NoNlDelims ds) (t : Str) (x : SimpleDialect) :
    x ∈ getDialects env ord (recode nl t) ds ↔ x ∈ getDialects env ord t ds := by
  rw [mem_getDialects, mem_getDialects, filterUrls_recode h hn]
  have e1 : ∀ d, d ∈ getDelimiters env ord (recode nl (filterUrls env t)) ds ↔
      d ∈ getDelimiters env ord (filterUrls env t) ds := by
    intro d
    rw [mem_getDelimiters, mem_getDelimiters]
    constructor
    · rintro (rfl | ⟨c, h1, h2, rfl⟩)
      · exact .inl rfl
      · exact .inr ⟨c, (mem_recode hn (isDelimiter_notNl hds h2)).1 h1, h2, rfl⟩
    · rintro (rfl | ⟨c, h1, h2, rfl⟩)
      · exact .inl rfl
      · exact .inr ⟨c, (mem_recode hn (isDelimiter_notNl hds h2)).2 h1, h2, rfl⟩
  have e2 : ∀ q, q ∈ getQuotechars ord (recode nl (filterUrls env t)) ↔
      q ∈ getQuotechars ord (filterUrls env t) := by
    intro d
    rw [mem_getQuotechars, mem_getQuotechars]
    constructor
    · rintro (rfl | ⟨c, h1, h2, rfl⟩)
      · exact .inl rfl
      · exact .inr ⟨c, (mem_recode hn (quoteChar_notNl h2)).1 h1, h2, rfl⟩
    · rintro (rfl | ⟨c, h1, h2, rfl⟩)
      · exact .inl rfl
      · exact .inr ⟨c, (mem_recode hn (quoteChar_notNl h2)).2 h1, h2, rfl⟩
  have e3 : ∀ d q e, d ∈ getDelimiters env ord (filterUrls env t) ds → q ∈ getQuotechars ord (filterUrls env t) →
      (e ∈ escapeInsertions env (recode nl t) d q ↔ e ∈ escapeInsertions env t d q) := by
    intro d q e hd hq
    rw [escapeInsertions_recode h hn]
    · rintro c hc rfl
      rcases mem_getDelimiters.1 hd with h0 | ⟨c', -, h1, h2⟩
      · cases h0
      · cases h2; rw [isDelimiter_notNl hds h1] at hc; cases hc
    · rintro c hc rfl
      rcases mem_getQuotechars.1 hq with h0 | ⟨c', -, h1, h2⟩
      · cases h0
      · cases h2; rw [quoteChar_notNl h1] at hc; cases hc
  simp only [Bool.false_and]
  constructor
  · rintro ⟨d, q, e, rfl, h1, h2, h3, -⟩
    have h1' := (e1 d).1 h1
    have h2' := (e2 q).1 h2
    exact ⟨d, q, e, rfl, h1', h2', (e3 d q e h1' h2').1 h3, trivial⟩
  · rintro ⟨d, q, e, rfl, h1, h2, h3, -⟩
    exact ⟨d, q, e, rfl, (e1 d).2 h1, (e2 q).2 h2, (e3 d q e h1 h2).2 h3, trivial⟩

/-- The characters of a candidate are not newlines. -/
theorem getDialects_notNl {env : PyEnv} (h : env.Ascii) {ord : SetOrder} {ds : Option (List Str)}
    (hds : NoNlDelims ds) {t : Str} {x : SimpleDialect} (hx : x ∈ getDialects env ord t ds) :
    ∃ d q e : Option Char, x = dialectOf d q e ∧ isNL (d.getD NUL) = false ∧ isNL (q.getD NUL) = false ∧
      isNL (e.getD NUL) = false := by
  obtain ⟨d, q, e, rfl, h1, h2, h3, -⟩ := mem_getDialects.1 hx
  have hd : ∃ d' : Option Char, d = d'.toList ∧ isNL (d'.getD NUL) = false := by
    rcases mem_getDelimiters.1 h1 with rfl | ⟨c, -, hc, rfl⟩
    · exact ⟨none, rfl, by decide⟩
    · exact ⟨some c, rfl, isDelimiter_notNl hds hc⟩
  have hq : ∃ d' : Option Char, q = d'.toList ∧ isNL (d'.getD NUL) = false := by
    rcases mem_getQuotechars.1 h2 with rfl | ⟨c, -, hc, rfl⟩
    · exact ⟨none, rfl, by decide⟩
    · exact ⟨some c, rfl, quoteChar_notNl hc⟩
  have he : ∃ d' : Option Char, e = d'.toList ∧ isNL (d'.getD NUL) = false := by
    rcases mem_escapeInsertions.1 h3 with rfl | ⟨u, c, n, v, -, rfl, hc, -⟩
    · exact ⟨none, rfl, by decide⟩
    · refine ⟨some c, rfl, ?_⟩
      cases hn : isNL c with
      | false => exact hn
      | true => rw [potential_notNl h hn] at hc; cases hc
  obtain ⟨d', rfl, hd⟩ := hd
  obtain ⟨q', rfl, hq⟩ := hq
  obtain ⟨e', rfl, he⟩ := he
  exact ⟨d', q', e', rfl, hd, hq, he⟩

/-! ### Scores -/

theorem foldl_recode {nl : Str} (hn : IsNewline nl) (d q e : Char) : ∀ (t : Str) (st : AbsState),
    (recode nl t).foldl (absStep d q e) st = t.foldl (absStep d q e) st
  | [], _ => rfl
  | c :: t, st => by
    rw [recode, List.foldl_append, foldl_recode hn d q e t, List.foldl_cons]
    congr 1
    by_cases hc : c = '\n'
    · subst hc
      rw [if_pos rfl]
      have h1 : ∀ c ∈ nl, isNL c = true := by rcases hn with rfl | rfl <;> decide
      have h2 : nl ≠ [] := by rcases hn with rfl | rfl <;> simp
      rw [foldl_run d q e nl h1, if_neg h2, absStep_nl _ _ _ _ _ (by decide)]
    · rw [if_neg hc]; rfl

theorem patternScore_recode {nl : Str} (hn : IsNewline nl) (t : Str) (x : SimpleDialect) (eps : ℚ) :
    patternScore (recode nl t) x eps = patternScore t x eps := by
  unfold patternScore makeAbstraction baseAbstractionPy baseAbstraction
  simp only [foldl_recode hn]

theorem countKnown_map {known : Str × Bool → Except PyExc Bool} {g : Str × Bool → Str × Bool} :
    ∀ cs : List (Str × Bool), (∀ c ∈ cs, known (g c) = known c) → countKnown known (cs.map g) = countKnown known cs
  | [], _ => rfl
  | c :: cs, h => by
    rw [List.map_cons, countKnown, countKnown, h c (by simp), countKnown_map cs fun c hc => h c (by simp [hc])]

theorem pureLoop_congr_eq {pat pat' typ typ' : SimpleDialect → Except PyExc ℚ} {skip : Bool} :
    ∀ (S : List SimpleDialect) (inc : Option ℚ), (∀ d ∈ S, pat d = pat' d) → (∀ d ∈ S, typ d = typ' d) →
      pureLoop pat typ skip S inc = pureLoop pat' typ' skip S inc
  | [], _, _, _ => rfl
  | d :: S, inc, hp, ht => by
    have ih := fun inc => pureLoop_congr_eq (skip := skip) S inc (fun x hx => hp x (by simp [hx]))
      (fun x hx => ht x (by simp [hx]))
    rw [pureLoop, pureLoop, ← hp d (by simp), ← ht d (by simp)]
    simp only [ih]

/-! ### Ties -/

theorem recode_inj {nl : Str} (hn : IsNewline nl) : ∀ {s t : Str}, '\r' ∉ s → '\r' ∉ t →
    recode nl s = recode nl t → s = t
  | [], t, _, _, h => ((recode_eq_nil hn).1 h.symm).symm
  | c :: s, [], _, _, h => (recode_eq_nil hn).1 h
  | c :: s, x :: t, hs, ht, h => by
    simp only [List.mem_cons, not_or] at hs ht
    rw [recode, recode] at h
    by_cases hc : c = '\n'
    · by_cases hx : x = '\n'
      · subst hc hx
        rw [if_pos rfl] at h
        rw [recode_inj hn hs.2 ht.2 (List.append_cancel_left h)]
      · rw [if_pos hc, if_neg hx] at h
        exfalso
        rcases hn with rfl | rfl <;> (simp at h; exact ht.1 h.1)
    · by_cases hx : x = '\n'
      · rw [if_pos hx, if_neg hc] at h
        exfalso
        rcases hn with rfl | rfl <;> (simp at h; exact hs.1 h.1.symm)
      · rw [if_neg hc, if_neg hx] at h
        simp only [List.singleton_append, List.cons.injEq] at h
        rw [h.1, recode_inj hn hs.2 ht.2 h.2]

theorem map_inj_on {β γ : Type} {f : β → γ} {K : β → Prop} (hf : ∀ a b, K a → K b → f a = f b → a = b) :
    ∀ {l m : List β}, (∀ a ∈ l, K a) → (∀ a ∈ m, K a) → l.map f = m.map f → l = m
  | [], [], _, _, _ => rfl
  | [], _ :: _, _, _, h => by cases h
  | _ :: _, [], _, _, h => by cases h
  | a :: l, b :: m, hl, hm, h => by
    simp only [List.map_cons, List.cons.injEq] at h
    rw [hf a b (hl a (by simp)) (hm b (by simp)) h.1,
      map_inj_on hf (fun x hx => hl x (by simp [hx])) (fun x hx => hm x (by simp [hx])) h.2]

/-- A table with the line breaks of its cells converted. -/
def recodeTab (nl : Str) (X : List (List Str)) : List (List Str) := X.map (·.map (recode nl))

/-- No cell contains a carriage return. -/
def NoCR (X : List (List Str)) : Prop := ∀ r ∈ X, ∀ c ∈ r, '\r' ∉ c

theorem recodeTab_eq {nl : Str} (hn : IsNewline nl) {X Y : List (List Str)} (hX : NoCR X) (hY : NoCR Y) :
    recodeTab nl X = recodeTab nl Y ↔ X = Y := by
  constructor
  · intro h
    exact map_inj_on (K := fun r : List Str => ∀ c ∈ r, '\r' ∉ c)
      (fun a b ha hb hab => map_inj_on (K := fun c : Str => '\r' ∉ c)
        (fun x y hx hy hxy => recode_inj hn hx hy hxy) ha hb hab) hX hY h
  · rintro rfl; rfl

theorem sameShape_map (f g : Str → Str) : ∀ X Y : List (List Str),
    sameShape (X.map (·.map f)) (Y.map (·.map g)) = sameShape X Y
  | [], [] => rfl
  | [], _ :: _ => rfl
  | _ :: _, [] => rfl
  | x :: xs, y :: ys => by simp [sameShape, sameShape_map f g xs ys]

theorem zip_recode {nl : Str} (hn : IsNewline nl) : ∀ r s : List Str, (∀ c ∈ r, '\r' ∉ c) → (∀ c ∈ s, '\r' ∉ c) →
    ((r.map (recode nl)).zip (s.map (recode nl))).filter (fun p => p.1 ≠ p.2) =
      ((r.zip s).filter fun p => p.1 ≠ p.2).map (Prod.map (recode nl) (recode nl))
  | [], _, _, _ => by simp
  | _ :: _, [], _, _ => by simp
  | a :: r, b :: s, hr, hs => by
    have ih := zip_recode hn r s (fun c hc => hr c (by simp [hc])) (fun c hc => hs c (by simp [hc]))
    simp only [List.map_cons, List.zip_cons_cons]
    by_cases hab : a = b
    · subst hab
      rw [List.filter_cons_of_neg (by simp), List.filter_cons_of_neg (by simp), ih]
    · have : recode nl a ≠ recode nl b := fun h => hab (recode_inj hn (hr a (by simp)) (hs b (by simp)) h)
      rw [List.filter_cons_of_pos (by simpa using this), List.filter_cons_of_pos (by simpa using hab), ih]
      rfl

theorem diffCells_recode {nl : Str} (hn : IsNewline nl) : ∀ X Y : List (List Str), NoCR X → NoCR Y →
    diffCells (recodeTab nl X) (recodeTab nl Y) = (diffCells X Y).map (Prod.map (recode nl) (recode nl))
  | [], _, _, _ => by simp [diffCells, recodeTab]
  | _ :: _, [], _, _ => by simp [diffCells, recodeTab]
  | x :: xs, y :: ys, hx, hy => by
    have ih := diffCells_recode hn xs ys (fun r hr => hx r (by simp [hr])) (fun r hr => hy r (by simp [hr]))
    simp only [diffCells, recodeTab, List.map_cons, List.zip_cons_cons, List.flatMap_cons, List.map_append] at ih ⊢
    rw [ih, zip_recode hn x y (hx x (by simp)) (hy y (by simp))]

theorem isPrefixOf_recode {nl : Str} (hn : IsNewline nl) : ∀ w s : Str, (∀ c ∈ w, isNL c = false) →
    w.isPrefixOf (recode nl s) = w.isPrefixOf s
  | [], s, _ => by simp
  | a :: w, [], _ => by simp [recode]
  | a :: w, c :: s, hw => by
    have ha := hw a (by simp)
    rw [recode]
    by_cases hc : c = '\n'
    · subst hc
      have h1 : a ≠ '\n' := by rintro rfl; cases ha
      have h2 : a ≠ '\r' := by rintro rfl; cases ha
      have b1 : (a == '\n') = false := by simpa using h1
      have b2 : (a == '\r') = false := by simpa using h2
      rw [if_pos rfl]
      rcases hn with rfl | rfl <;> simp [List.isPrefixOf_cons₂, b1, b2]
    · rw [if_neg hc]
      simp only [List.singleton_append, List.isPrefixOf_cons₂]
      rw [isPrefixOf_recode hn w s fun c hc => hw c (by simp [hc])]

theorem isInfixOf_recode {nl : Str} (hn : IsNewline nl) (w : Str) (hw : ∀ c ∈ w, isNL c = false) : ∀ s : Str,
    isInfixOf w (recode nl s) = isInfixOf w s
  | [] => rfl
  | c :: s => by
    have ih := isInfixOf_recode hn w hw s
    have hp := isPrefixOf_recode hn w (c :: s) hw
    rw [recode] at hp ⊢
    by_cases hc : c = '\n'
    · subst hc
      rw [if_pos rfl] at hp ⊢
      rcases hn with rfl | rfl
      · simp only [List.singleton_append] at hp ⊢
        rw [isInfixOf, isInfixOf, hp, ih]
      · have e : ['\r', '\n'] ++ recode ['\r', '\n'] s = '\r' :: '\n' :: recode ['\r', '\n'] s := rfl
        rw [e] at hp ⊢
        rw [isInfixOf, isInfixOf, isInfixOf, hp, ih]
        cases w with
        | nil => simp
        | cons a w =>
          have h1 : a ≠ '\n' := by rintro rfl; exact absurd (hw '\n' (by simp)) (by decide)
          have b1 : (a == '\n') = false := by simpa using h1
          simp [List.isPrefixOf_cons₂, b1]
    · rw [if_neg hc] at hp ⊢
      simp only [List.singleton_append] at hp ⊢
      rw [isInfixOf, isInfixOf, hp, ih]

/-- The components of the dialect contain no newline. -/
def NoNlParts (x : SimpleDialect) : Prop :=
  (∀ q, x.quotechar = some q → ∀ c ∈ q, isNL c = false) ∧ ∀ e, x.escapechar = some e → ∀ c ∈ e, isNL c = false

theorem countEscaped_recode {nl : Str} (hn : IsNewline nl) {x : SimpleDialect} (hx : NoNlParts x) (u : Str) :
    countEscaped x (recode nl u) = countEscaped x u := by
  unfold countEscaped
  rw [pairwise_recode hn]
  intro a b hab
  rcases hab with ha | hb
  · have : some [a] ≠ x.escapechar := by
      intro h
      rw [hx.2 [a] h.symm a (by simp)] at ha; cases ha
    simp [this]
  · have : some [b] ≠ x.quotechar := by
      intro h
      rw [hx.1 [b] h.symm b (by simp)] at hb; cases hb
    simp [this]

/-- The parsing results for a dialect are the same up to the newline convention. -/
structure SameParse (nl : Str) (limit : Int) (data : Str) (limit' : Int) (data' : Str) (x : SimpleDialect) : Prop where
  parts : NoNlParts x
  res : (∃ X, NoCR X ∧ parseAll limit data x = .ok X ∧ parseAll limit' data' x = .ok (recodeTab nl X)) ∨
    ∃ e, parseAll limit data x = .error e ∧ parseAll limit' data' x = .error e

section
variable {nl : Str} {limit limit' : Int} {data data' : Str}

theorem tieQuote_recode (hn : IsNewline nl) {A B : SimpleDialect} (hA : SameParse nl limit data limit' data' A)
    (hB : SameParse nl limit data limit' data' B) : tieQuote limit' data' A B = tieQuote limit data A B := by
  unfold tieQuote
  split
  · generalize hno : (if A.quotechar = some [] then A else B) = dNo
    have h1 : SameParse nl limit data limit' data' dNo := by rw [← hno]; split <;> assumption
    simp only
    generalize hyes : (if dNo = A then B else A) = dYes
    have h2 : SameParse nl limit data limit' data' dYes := by rw [← hyes]; split <;> assumption
    rcases h1.res with ⟨X, k1, e1, e1'⟩ | ⟨e, e1, e1'⟩
    · rcases h2.res with ⟨Y, k2, e2, e2'⟩ | ⟨e, e2, e2'⟩
      · rw [e1, e1', e2, e2']
        simp only [recodeTab_eq hn k1 k2]
      · rw [e1, e1', e2, e2']
    · rw [e1, e1']
  · rfl

theorem tieEscape_recode (hn : IsNewline nl) {A B : SimpleDialect} (hA : SameParse nl limit data limit' data' A)
    (hB : SameParse nl limit data limit' data' B) : tieEscape limit' data' A B = tieEscape limit data A B := by
  unfold tieEscape
  simp only
  generalize hno : (if A.escapechar = some [] then A else B) = dNo
  have h1 : SameParse nl limit data limit' data' dNo := by rw [← hno]; split <;> assumption
  generalize hyes : (if A.escapechar = some [] then B else A) = dYes
  have h2 : SameParse nl limit data limit' data' dYes := by rw [← hyes]; split <;> assumption
  rcases h1.res with ⟨X, k1, e1, e1'⟩ | ⟨e, e1, e1'⟩
  · rcases h2.res with ⟨Y, k2, e2, e2'⟩ | ⟨e, e2, e2'⟩
    · rw [e1, e1', e2, e2']
      simp only
      rw [diffCells_recode hn X Y k1 k2]
      have hs : sameShape (recodeTab nl X) (recodeTab nl Y) = sameShape X Y := sameShape_map _ _ X Y
      rw [hs]
      cases diffCells X Y with
      | nil => rfl
      | cons p ps =>
        obtain ⟨u, v⟩ := p
        simp only [List.map_cons, Prod.map_apply, countEscaped_recode hn h2.parts]
    · rw [e1, e1', e2, e2']
  · rw [e1, e1']

theorem tieQuoteEscape_recode (hn : IsNewline nl) {A B : SimpleDialect} (hA : SameParse nl limit data limit' data' A)
    (hB : SameParse nl limit data limit' data' B) : tieQuoteEscape limit' data' A B = tieQuoteEscape limit data A B := by
  unfold tieQuoteEscape
  simp only
  split
  · generalize hno : (if (decide (A.quotechar = some []) && decide (A.escapechar = some [])) = true then A else B) = dNo
    have h1 : SameParse nl limit data limit' data' dNo := by rw [← hno]; split <;> assumption
    generalize hyes : (if dNo = A then B else A) = dYes
    have h2 : SameParse nl limit data limit' data' dYes := by rw [← hyes]; split <;> assumption
    rcases h1.res with ⟨X, k1, e1, e1'⟩ | ⟨e, e1, e1'⟩
    · rcases h2.res with ⟨Y, k2, e2, e2'⟩ | ⟨e, e2, e2'⟩
      · rw [e1, e1', e2, e2']
        simp only
        rw [diffCells_recode hn X Y k1 k2]
        have hs : sameShape (recodeTab nl X) (recodeTab nl Y) = sameShape X Y := sameShape_map _ _ X Y
        rw [hs]
        cases he : dYes.escapechar with
        | none => rfl
        | some e =>
          cases hq : dYes.quotechar with
          | none => rfl
          | some q =>
            have hw : ∀ c ∈ e ++ q, isNL c = false := by
              intro c hc
              rcases List.mem_append.1 hc with hc | hc
              · exact h2.parts.2 e he c hc
              · exact h2.parts.1 q hq c hc
            simp only [List.all_map, Function.comp_def, Prod.map_fst, isInfixOf_recode hn _ hw]
      · rw [e1, e1', e2, e2']
    · rw [e1, e1']
  · rfl

theorem breakTiesTwo_recode (hn : IsNewline nl) {A B : SimpleDialect} (hA : SameParse nl limit data limit' data' A)
    (hB : SameParse nl limit data limit' data' B) : breakTiesTwo limit' data' A B = breakTiesTwo limit data A B := by
  unfold breakTiesTwo
  rw [tieQuote_recode hn hA hB, tieEscape_recode hn hA hB, tieQuoteEscape_recode hn hA hB]

theorem equalPairs_recode (hn : IsNewline nl) : ∀ ps : List (SimpleDialect × SimpleDialect),
    (∀ p ∈ ps, SameParse nl limit data limit' data' p.1 ∧ SameParse nl limit data limit' data' p.2) →
    equalPairs limit' data' ps = equalPairs limit data ps
  | [], _ => rfl
  | (a, b) :: ps, h => by
    have ih := equalPairs_recode hn ps fun p hp => h p (by simp [hp])
    obtain ⟨h1, h2⟩ := h (a, b) (by simp)
    rw [equalPairs, equalPairs, ih]
    rcases h1.res with ⟨X, k1, e1, e1'⟩ | ⟨e, e1, e1'⟩
    · rcases h2.res with ⟨Y, k2, e2, e2'⟩ | ⟨e, e2, e2'⟩
      · simp only [e1, e1', e2, e2', recodeTab_eq hn k1 k2]
      · simp only [e1, e1', e2, e2']
    · simp only [e1, e1']

theorem pairAnswers_recode (hn : IsNewline nl) : ∀ ps : List (SimpleDialect × SimpleDialect),
    (∀ p ∈ ps, SameParse nl limit data limit' data' p.1 ∧ SameParse nl limit data limit' data' p.2) →
    pairAnswers limit' data' ps = pairAnswers limit data ps
  | [], _ => rfl
  | (a, b) :: ps, h => by
    have ih := pairAnswers_recode hn ps fun p hp => h p (by simp [hp])
    obtain ⟨h1, h2⟩ := h (a, b) (by simp)
    rw [pairAnswers, pairAnswers, ih, breakTiesTwo_recode hn h1 h2]

theorem pairwise_mem_both {l : List SimpleDialect} {p : SimpleDialect × SimpleDialect} (h : p ∈ pairwise l) :
    p.1 ∈ l ∧ p.2 ∈ l := by
  obtain ⟨u, v, rfl⟩ := pairwise_mem.1 (show (p.1, p.2) ∈ pairwise l from h)
  simp

theorem equalPairs_sub : ∀ {ps l : List (SimpleDialect × SimpleDialect)}, equalPairs limit data ps = .ok l → l ⊆ ps
  | [], l, h => by cases h; simp
  | (a, b) :: ps, l, h => by
    rw [equalPairs] at h
    split at h
    · cases h
    · split at h
      · cases h
      · split at h
        · cases h
        · rename_i r hr
          have ih := equalPairs_sub hr
          cases h
          split
          · intro x hx
            rcases List.mem_cons.1 hx with rfl | hx
            · simp
            · simp [ih hx]
          · intro x hx
            simp [ih hx]

theorem reducePairwise_recode (hn : IsNewline nl) (ord : SetOrder) {l : List SimpleDialect}
    (h : ∀ x ∈ l, SameParse nl limit data limit' data' x) :
    reducePairwise ord limit' data' l = reducePairwise ord limit data l := by
  have hp : ∀ p ∈ pairwise l, SameParse nl limit data limit' data' p.1 ∧ SameParse nl limit data limit' data' p.2 :=
    fun p hp => ⟨h _ (pairwise_mem_both hp).1, h _ (pairwise_mem_both hp).2⟩
  unfold reducePairwise
  rw [equalPairs_recode hn _ hp]
  cases he : equalPairs limit data (pairwise l) with
  | error e => rfl
  | ok ps =>
    simp only
    rw [pairAnswers_recode hn ps fun p hp' => hp p (equalPairs_sub he hp')]

theorem breakTiesThree_recode (hn : IsNewline nl) (ord : SetOrder) {A B C : SimpleDialect}
    (hA : SameParse nl limit data limit' data' A) (hB : SameParse nl limit data limit' data' B)
    (hC : SameParse nl limit data limit' data' C) :
    breakTiesThree ord limit' data' A B C = breakTiesThree ord limit data A B C := by
  have hr := reducePairwise_recode hn ord (l := [A, B, C]) (limit := limit) (data := data) (limit' := limit')
    (data' := data') (by
      intro x hx
      simp only [List.mem_cons, List.not_mem_nil, or_false] at hx
      rcases hx with rfl | rfl | rfl <;> assumption)
  unfold breakTiesThree
  simp only
  split
  · rcases hA.res with ⟨X, k1, e1, e1'⟩ | ⟨e, e1, e1'⟩
    · rcases hB.res with ⟨Y, k2, e2, e2'⟩ | ⟨e, e2, e2'⟩
      · rcases hC.res with ⟨Z, k3, e3, e3'⟩ | ⟨e, e3, e3'⟩
        · simp only [e1, e1', e2, e2', e3, e3']
          have len : ∀ X, (recodeTab nl X).length = X.length := fun X => by simp [recodeTab]
          simp only [len]
          split
          · rfl
          · have hall : ∀ p ∈ [(X, A), (Y, B), (Z, C)], NoCR p.1 ∧ SameParse nl limit data limit' data' p.2 := by
              intro p hp
              simp only [List.mem_cons, List.not_mem_nil, or_false] at hp
              rcases hp with rfl | rfl | rfl
              exacts [⟨k1, hA⟩, ⟨k2, hB⟩, ⟨k3, hC⟩]
            have hmap : [(recodeTab nl X, A), (recodeTab nl Y, B), (recodeTab nl Z, C)] =
                [(X, A), (Y, B), (Z, C)].map (Prod.map (recodeTab nl) id) := rfl
            rw [hmap, List.find?_map]
            generalize [(X, A), (Y, B), (Z, C)] = ps at hall
            have hfun : ((fun p : List (List Str) × SimpleDialect => decide (p.2.quotechar = some [])) ∘
                Prod.map (recodeTab nl) id) = fun p => decide (p.2.quotechar = some []) := rfl
            rw [hfun]
            cases hf : ps.find? (fun p => decide (p.2.quotechar = some [])) with
            | none => rfl
            | some p =>
              obtain ⟨pN, dN⟩ := p
              have hp := hall _ (List.mem_of_find?_eq_some hf)
              simp only [Option.map_some, Prod.map_apply, id_eq]
              have hfil : (ps.map (Prod.map (recodeTab nl) id)).filter (fun p => decide (p.1 ≠ recodeTab nl pN)) =
                  (ps.filter fun p => decide (p.1 ≠ pN)).map (Prod.map (recodeTab nl) id) := by
                rw [List.filter_map]
                congr 1
                apply List.filter_congr
                intro x hx
                simp [recodeTab_eq hn (hall x hx).1 hp.1]
              rw [hfil]
              have hrem : ∀ p ∈ ps.filter (fun p => decide (p.1 ≠ pN)), NoCR p.1 ∧ SameParse nl limit data limit' data' p.2 :=
                fun p hp => hall p (List.mem_filter.1 hp).1
              generalize ps.filter (fun p => decide (p.1 ≠ pN)) = rem at hrem
              rw [List.length_map]
              split
              · rw [hr]
              · match rem, hrem with
                | [], _ => rfl
                | [_], _ => rfl
                | (p0, d0) :: (p1, d1) :: _, hrem =>
                  have h0 := hrem (p0, d0) (by simp)
                  have h1 := hrem (p1, d1) (by simp)
                  simp only [List.map_cons, Prod.map_apply, id_eq, recodeTab_eq hn hp.1 h0.1,
                    recodeTab_eq hn hp.1 h1.1, breakTiesTwo_recode hn hp.2 h0.2, breakTiesTwo_recode hn hp.2 h1.2]
        · simp only [e1, e1', e2, e2', e3, e3']
      · simp only [e1, e1', e2, e2']
    · simp only [e1, e1']
  · split
    · have hall : ∀ x ∈ [A, B, C].filter (fun d => decide (d.quotechar ≠ some [])),
          SameParse nl limit data limit' data' x := by
        intro x hx
        have := (List.mem_filter.1 hx).1
        simp only [List.mem_cons, List.not_mem_nil, or_false] at this
        rcases this with rfl | rfl | rfl <;> assumption
      split
      · rename_i x y hxy
        rw [hxy] at hall
        exact breakTiesTwo_recode hn (hall x (by simp)) (hall y (by simp))
      · rfl
    · rfl

theorem breakTiesFour_recode (hn : IsNewline nl) (ord : SetOrder) {l : List SimpleDialect}
    (h : ∀ x ∈ l, SameParse nl limit data limit' data' x) :
    breakTiesFour ord limit' data' l = breakTiesFour ord limit data l := by
  unfold breakTiesFour
  split
  · rfl
  · rw [reducePairwise_recode hn ord h]
    split
    · rfl
    · rfl
    · rename_i x y hr
      have := reducePairwise_mem hr
      exact breakTiesTwo_recode hn (h x (this x (by simp))) (h y (this y (by simp)))
    · rename_i x y z hr
      have := reducePairwise_mem hr
      exact breakTiesThree_recode hn ord (h x (this x (by simp))) (h y (this y (by simp))) (h z (this z (by simp)))
    · rfl

theorem tieBreaker_recode (hn : IsNewline nl) (ord : SetOrder) {l : List SimpleDialect}
    (h : ∀ x ∈ l, SameParse nl limit data limit' data' x) :
    tieBreaker ord limit' data' l = tieBreaker ord limit data l := by
  unfold tieBreaker
  split
  · exact breakTiesTwo_recode hn (h _ (by simp)) (h _ (by simp))
  · exact breakTiesThree_recode hn ord (h _ (by simp)) (h _ (by simp)) (h _ (by simp))
  · exact breakTiesFour_recode hn ord h
  · rfl

end

/-! ### Normal forms -/

theorem any_filter {β : Type} (p : β → Bool) (l : List β) : l.any p = !(l.filter p).isEmpty := by
  induction l with
  | nil => rfl
  | cons a l ih =>
    by_cases h : p a = true
    · simp [h]
    · simp [h, ih]

theorem maybeHasEscapechar_any (env : PyEnv) (t d q : Str) : maybeHasEscapechar env t d q =
    (pairwise t).any (fun p => ([p.2] = d || [p.2] = q) && isPotentialEscapechar env p.1) := by
  unfold maybeHasEscapechar
  split
  · rename_i h
    symm
    rw [List.any_eq_false]
    rintro ⟨a, b⟩ hab
    obtain ⟨u, v, rfl⟩ := pairwise_mem.1 hab
    have hin : isInfixOf [b] (u ++ a :: b :: v) = true := isInfixOf_of_mem (by simp)
    simp only [Bool.and_eq_true, Bool.not_eq_true'] at h
    have h1 : [b] ≠ d := by rintro rfl; rw [h.1] at hin; cases hin
    have h2 : [b] ≠ q := by rintro rfl; rw [h.2] at hin; cases hin
    simp [h1, h2]
  · rfl

theorem maybeHasEscapechar_recode {env : PyEnv} (h : env.Ascii) {nl : Str} (hn : IsNewline nl) (t d q : Str)
    (hd : ∀ c, isNL c = true → [c] ≠ d) (hq : ∀ c, isNL c = true → [c] ≠ q) :
    maybeHasEscapechar env (recode nl t) d q = maybeHasEscapechar env t d q := by
  rw [maybeHasEscapechar_any, maybeHasEscapechar_any, any_filter, any_filter, pairwise_recode hn]
  intro a b hab
  rcases hab with ha | hb
  · simp [potential_notNl h ha]
  · simp [hd b hb, hq b hb]


theorem dropWhile_replicate (c : Char) (n : Nat) (s : Str) :
    (List.replicate n c ++ s).dropWhile (· = c) = s.dropWhile (· = c) := by
  induction n with
  | zero => rfl
  | succ n ih => rw [List.replicate_succ, List.cons_append, List.dropWhile_cons_of_pos (by simp), ih]

theorem dropWhile_head_ne {c : Char} {s : Str} (h : s.head? ≠ some c) : s.dropWhile (· = c) = s := by
  cases s with
  | nil => rfl
  | cons x s =>
    rw [List.dropWhile_cons_of_neg]
    simpa using h

theorem strip_tail {X : Str} (h : ∀ c, X.getLast? = some c → isNL c = false) (a b : Nat) :
    stripTrailingCrnl (X ++ List.replicate a '\r' ++ List.replicate b '\n') = X := by
  have hX : ∀ c, isNL c = true → X.reverse.head? ≠ some c := by
    intro c hc hh
    rw [List.head?_reverse] at hh
    rw [h c hh] at hc; cases hc
  unfold stripTrailingCrnl
  rw [List.reverse_append, List.reverse_append, List.reverse_replicate, List.reverse_replicate, dropWhile_replicate,
    dropWhile_head_ne (c := '\n'), dropWhile_replicate, dropWhile_head_ne (hX _ (by decide)), List.reverse_reverse]
  cases a with
  | zero => exact hX _ (by decide)
  | succ a => simp [List.replicate_succ]

theorem exists_trailing (t : Str) : ∃ s n, t = s ++ List.replicate n '\n' ∧ s.getLast? ≠ some '\n' := by
  induction t using List.reverseRecOn with
  | nil => exact ⟨[], 0, rfl, by simp⟩
  | append_singleton t c ih =>
    by_cases hc : c = '\n'
    · subst hc
      obtain ⟨s, n, rfl, h⟩ := ih
      exact ⟨s, n + 1, by rw [List.replicate_succ', List.append_assoc], h⟩
    · exact ⟨t ++ [c], 0, by simp, by simpa using hc⟩

theorem pySplit_crlf : ∀ s : Str, '\r' ∉ s →
    pySplit ['\r', '\n'] 0 (recode ['\r', '\n'] s) = pySplit ['\n'] 0 s
  | [], _ => rfl
  | c :: s, h => by
    simp only [List.mem_cons, not_or] at h
    have ih := pySplit_crlf s h.2
    by_cases hc : c = '\n'
    · subst hc
      have e : recode ['\r', '\n'] ('\n' :: s) = '\r' :: '\n' :: recode ['\r', '\n'] s := rfl
      rw [e, pySplit, if_pos (by simp [List.isPrefixOf_cons₂]), pySplit, if_pos (by simp [List.isPrefixOf_cons₂])]
      simp only [List.length_cons, List.length_nil]
      rw [pySplit, ih]
    · have e : recode ['\r', '\n'] (c :: s) = c :: recode ['\r', '\n'] s := by rw [recode, if_neg hc]; rfl
      have b1 : ('\r' == c) = false := by simpa using h.1
      have b2 : ('\n' == c) = false := by simpa using Ne.symm hc
      rw [e, pySplit, if_neg (by simp [List.isPrefixOf_cons₂, b1]), ih, pySplit.eq_def ['\n'] 0 (c :: s)]
      simp [List.isPrefixOf_cons₂, b2]

theorem pySplit_cr : ∀ s : Str, '\r' ∉ s →
    pySplit ['\r'] 0 (recode ['\r'] s) = pySplit ['\n'] 0 s
  | [], _ => rfl
  | c :: s, h => by
    simp only [List.mem_cons, not_or] at h
    have ih := pySplit_cr s h.2
    by_cases hc : c = '\n'
    · subst hc
      have e : recode ['\r'] ('\n' :: s) = '\r' :: recode ['\r'] s := rfl
      rw [e, pySplit, if_pos (by simp [List.isPrefixOf_cons₂]), pySplit, if_pos (by simp [List.isPrefixOf_cons₂])]
      simp only [List.length_cons, List.length_nil]
      rw [← ih]
    · have e : recode ['\r'] (c :: s) = c :: recode ['\r'] s := by rw [recode, if_neg hc]; rfl
      have b1 : ('\r' == c) = false := by simpa using h.1
      have b2 : ('\n' == c) = false := by simpa using Ne.symm hc
      rw [e, pySplit, if_neg (by simp [List.isPrefixOf_cons₂, b1]), ih, pySplit.eq_def ['\n'] 0 (c :: s)]
      simp [List.isPrefixOf_cons₂, b2]

theorem isInfixOf_notMem {w s : Str} {c : Char} (hc : c ∈ w) (h : c ∉ s) : isInfixOf w s = false := by
  cases hi : isInfixOf w s with
  | false => rfl
  | true =>
    obtain ⟨a, b, rfl⟩ := (isInfixOf_iff w s).1 hi
    exact absurd (by simp [hc]) h

theorem crlf_infix : ∀ {s : Str}, '\n' ∈ s → isInfixOf ['\r', '\n'] (recode ['\r', '\n'] s) = true
  | c :: s, h => by
    by_cases hc : c = '\n'
    · subst hc
      have e : recode ['\r', '\n'] ('\n' :: s) = '\r' :: '\n' :: recode ['\r', '\n'] s := rfl
      rw [e, isInfixOf]
      simp [List.isPrefixOf_cons₂]
    · have e : recode ['\r', '\n'] (c :: s) = c :: recode ['\r', '\n'] s := by rw [recode, if_neg hc]; rfl
      have : '\n' ∈ s := by
        rcases List.mem_cons.1 h with h | h
        · exact absurd h.symm hc
        · exact h
      rw [e, isInfixOf, crlf_infix this, Bool.or_true]

theorem mem_recode_cr {s : Str} : '\n' ∉ recode ['\r'] s := by
  induction s with
  | nil => simp [recode]
  | cons c s ih =>
    rw [recode]
    split
    · simpa using ih
    · rename_i h
      simp [ih, Ne.symm h]

/-- Some text ends with two line feeds. -/
theorem splitFile_recode {nl : Str} (hn : IsNewline nl) {t : Str} (hr : '\r' ∉ t)
    (hend : nl = ['\r'] ∨ ¬ ['\n', '\n'] <:+ t) : splitFile (recode nl t) = splitFile t := by
  obtain ⟨s, n, rfl, hs⟩ := exists_trailing t
  simp only [List.mem_append, not_or] at hr
  have hlast : ∀ c, s.getLast? = some c → isNL c = false := by
    intro c hc
    have h1 : c ≠ '\n' := by rintro rfl; exact hs hc
    have h2 : c ≠ '\r' := by rintro rfl; exact hr.1 (List.mem_of_getLast? hc)
    simp [isNL, h1, h2]
  have hlast' : ∀ c, (recode nl s).getLast? = some c → isNL c = false := by
    intro c hc
    rcases List.eq_nil_or_concat s with rfl | ⟨s', x, rfl⟩
    · simp [recode] at hc
    · rw [List.concat_eq_append] at hlast hc
      have hx := hlast x (by simp)
      have hx' : x ≠ '\n' := by rintro rfl; cases hx
      rw [recode_snoc hx'] at hc
      simp at hc
      rw [← hc]; exact hx
  have e1 : stripTrailingCrnl (s ++ List.replicate n '\n') = s := by
    have := strip_tail hlast 0 n
    simpa using this
  have e2 : stripTrailingCrnl (recode nl (s ++ List.replicate n '\n')) = recode nl s := by
    rw [recode_append]
    rcases hn with rfl | rfl
    · have : recode ['\r'] (List.replicate n '\n') = List.replicate n '\r' := by
        clear hr hend e1
        induction n with
        | zero => rfl
        | succ n ih => rw [List.replicate_succ, List.replicate_succ, recode, if_pos rfl, ih]; rfl
      rw [this]
      have := strip_tail hlast' n 0
      simpa using this
    · have hn1 : n = 0 ∨ n = 1 := by
        rcases hend with h | h
        · cases h
        · by_contra hcon
          obtain ⟨m, rfl⟩ : ∃ m, n = m + 2 := ⟨n - 2, by omega⟩
          exact h ⟨s ++ List.replicate m '\n', by
            rw [List.append_assoc]
            congr 1
            rw [← List.replicate_append_replicate]; rfl⟩
      rcases hn1 with rfl | rfl
      · have := strip_tail hlast' 0 0
        simpa [recode] using this
      · have := strip_tail hlast' 1 1
        simpa [recode] using this
  unfold splitFile
  simp only
  rw [e1, e2, isInfixOf_notMem (c := '\r') (by simp) hr.1]
  by_cases hm : '\n' ∈ s
  · rw [isInfixOf_of_mem hm]
    rcases hn with rfl | rfl
    · rw [isInfixOf_notMem (c := '\n') (by simp) mem_recode_cr, isInfixOf_notMem (c := '\n') (by simp) mem_recode_cr]
      have : isInfixOf ['\r'] (recode ['\r'] s) = true := by
        apply isInfixOf_of_mem
        obtain ⟨a, b, rfl⟩ := List.append_of_mem hm
        rw [recode_append, recode, if_pos rfl]
        simp
      rw [this]
      simp [pySplit_cr s hr.1]
    · rw [crlf_infix hm]
      simp [pySplit_crlf s hr.1]
  · rw [recode_id hm, isInfixOf_notMem (c := '\r') (by simp) hr.1, isInfixOf_notMem (c := '\n') (by simp) hm]

theorem detectDialectNormal_recode {env : PyEnv} (h : env.Ascii) {nl : Str} (hn : IsNewline nl) {t : Str}
    (hr : '\r' ∉ t) (hend : nl = ['\r'] ∨ ¬ ['\n', '\n'] <:+ t) {ds : Option (List Str)} (hds : NoNlDelims ds) :
    detectDialectNormal env (recode nl t) ds = detectDialectNormal env t ds := by
  unfold detectDialectNormal
  simp only
  rw [splitFile_recode hn hr hend]
  have : ((ds.getD nfDelims).any fun d => nfQuotechars.any fun q => maybeHasEscapechar env (recode nl t) d q) =
      (ds.getD nfDelims).any fun d => nfQuotechars.any fun q => maybeHasEscapechar env t d q := by
    rw [Bool.eq_iff_iff]
    simp only [List.any_eq_true]
    have key : ∀ d ∈ ds.getD nfDelims, ∀ q ∈ nfQuotechars,
        maybeHasEscapechar env (recode nl t) d q = maybeHasEscapechar env t d q := by
      intro d hd q hq
      apply maybeHasEscapechar_recode h hn
      · intro c hc
        have hc' : c = '\r' ∨ c = '\n' := by simpa [isNL] using hc
        rintro rfl
        cases ds with
        | none => rcases hc' with rfl | rfl <;> simp [nfDelims] at hd
        | some l =>
          have := hds l rfl
          rcases hc' with rfl | rfl
          · exact this.2 hd
          · exact this.1 hd
      · intro c hc
        have hc' : c = '\r' ∨ c = '\n' := by simpa [isNL] using hc
        rintro rfl
        rcases hc' with rfl | rfl <;> simp [nfQuotechars] at hq
    constructor
    · rintro ⟨d, h1, q, h2, h3⟩
      exact ⟨d, h1, q, h2, by rw [← key d h1 q h2]; exact h3⟩
    · rintro ⟨d, h1, q, h2, h3⟩
      exact ⟨d, h1, q, h2, by rw [key d h1 q h2]; exact h3⟩
  rw [this]

/-! ### The consistency measure -/

/-- What is asked of a candidate: no line ends with its escapechar (or with NUL, if there is none), and the cells that
contain line breaks are of a known type in both conventions, or in neither. -/
def NlCandidate (env : PyEnv) (nl t : Str) (x : SimpleDialect) : Prop :=
  (∀ e, x.escapechar = some e → ¬ LineEndsWith (e.head?.getD NUL) t) ∧
  ∀ row ∈ (parseStringQuoted (t.length + 1) x t).1, ∀ c ∈ row,
    isKnownType env (recode nl c.1) c.2 = isKnownType env c.1 c.2

section
variable {env : PyEnv} {nl : Str} {t : Str}

theorem typeScore_recode (hn : IsNewline nl) (hr : '\r' ∉ t) (hl : InLong ((recode nl t).length + 1))
    {d q e : Option Char} (hd : isNL (d.getD NUL) = false) (hq : isNL (q.getD NUL) = false)
    (he : isNL (e.getD NUL) = false) (h : NlCandidate env nl t (dialectOf d q e)) (eps : ℚ) :
    typeScore env ((recode nl t).length + 1) (recode nl t) (dialectOf d q e) eps =
      typeScore env (t.length + 1) t (dialectOf d q e) eps := by
  have hle := le_recode_length hn t
  have hl0 : InLong ((t.length : Int) + 1) := by unfold InLong at hl ⊢; omega
  have hesc : ¬ LineEndsWith (e.getD NUL) t := by
    have := h.1 e.toList rfl
    cases e <;> exact this
  have hp : parseStringQuoted ((recode nl t).length + 1) (dialectOf d q e) (recode nl t) =
      ((parseStringQuoted (t.length + 1) (dialectOf d q e) t).1.map (·.map (Prod.map (recode nl) id)),
        (parseStringQuoted (t.length + 1) (dialectOf d q e) t).2) := by
    rw [parseStringQuoted_eq d q e false hl, parseStringQuoted_eq d q e false hl0,
      parseText_two (f := Prod.map (recode nl) id) hn d q e hd hq he (fun s b => rfl) t hr hesc]
    rfl
  unfold typeScore typeScoreWith
  simp only
  rw [hp]
  simp only
  rw [← List.map_flatten, countKnown_map, List.length_map]
  intro c hc
  obtain ⟨row, hrow, hc⟩ := List.mem_flatten.1 hc
  exact h.2 row hrow c hc

theorem sameParse_recode (hn : IsNewline nl) (hr : '\r' ∉ t) (hl : InLong ((recode nl t).length + 1))
    {d q e : Option Char} (hd : isNL (d.getD NUL) = false) (hq : isNL (q.getD NUL) = false)
    (he : isNL (e.getD NUL) = false) (hesc : ¬ LineEndsWith (e.getD NUL) t) :
    SameParse nl (t.length + 1) t ((recode nl t).length + 1) (recode nl t) (dialectOf d q e) := by
  have hle := le_recode_length hn t
  have hl0 : InLong ((t.length : Int) + 1) := by unfold InLong at hl ⊢; omega
  refine ⟨⟨?_, ?_⟩, ?_⟩
  · intro x hx c hc
    cases q with
    | none => cases hx; cases hc
    | some q => cases hx; simp at hc; rw [hc]; exact hq
  · intro x hx c hc
    cases e with
    | none => cases hx; cases hc
    | some e => cases hx; simp at hc; rw [hc]; exact he
  · have hp : parseString ((recode nl t).length + 1) (dialectOf d q e) (recode nl t) =
        (recodeTab nl (parseString (t.length + 1) (dialectOf d q e) t).1,
          (parseString (t.length + 1) (dialectOf d q e) t).2) := by
      rw [parseString_eq d q e false hl, parseString_eq d q e false hl0,
        parseText_two (f := recode nl) hn d q e hd hq he (fun s b => rfl) t hr hesc]
      rfl
    unfold parseAll
    rw [hp]
    have hch := parseString_chars (t.length + 1) (dialectOf d q e) t
    generalize parseString (t.length + 1) (dialectOf d q e) t = r at hch
    obtain ⟨X, o⟩ := r
    cases o with
    | none =>
      refine .inl ⟨X, ?_, rfl, rfl⟩
      intro row hrow c hc hcr
      rcases hch row hrow c hc _ hcr with h | h
      · exact hr h.1
      · cases h
    | some x => exact .inr ⟨x, rfl, rfl⟩

theorem consistency_recode (h : env.Ascii) (hn : IsNewline nl) (hr : '\r' ∉ t)
    (hl : InLong ((recode nl t).length + 1)) {ds : Option (List Str)} (hds : NoNlDelims ds) (ord : SetOrder)
    (cap : Option Nat) (skip : Bool) (limit limit' : Int)
    (hc : ∀ x ∈ getDialects env ord t ds, NlCandidate env nl t x) :
    (consistencyDetect env ord cap skip limit' (recode nl t) ds).1 = (consistencyDetect env ord cap skip limit t ds).1 := by
  obtain ⟨S, hS, hlt, he⟩ := computeConsistencyScores_eq env cap skip (t.length + 1) t
    (getDialects env ord t ds) (fun x hx => getDialects_isStr hx) (getDialects_nodup ..)
  obtain ⟨S', hS', hlt', he'⟩ := computeConsistencyScores_eq env cap skip ((recode nl t).length + 1) (recode nl t)
    (getDialects env ord (recode nl t) ds) (fun x hx => getDialects_isStr hx) (getDialects_nodup ..)
  have hSS : S = S' := by
    refine sorted_ext (fun x hx => getDialects_isStr (hS.mem_iff.1 hx)) hlt hlt' fun x => ?_
    rw [hS.mem_iff, hS'.mem_iff, getDialects_recode h hn hds]
  subst hSS
  have hsc : ((computeConsistencyScores env cap skip [] ((recode nl t).length + 1) (recode nl t)
      (getDialects env ord (recode nl t) ds)).1) =
      (computeConsistencyScores env cap skip [] (t.length + 1) t (getDialects env ord t ds)).1 := by
    rw [he, he']
    refine pureLoop_congr_eq S none (fun x hx => patternScore_recode hn t x _) fun x hx => ?_
    have hx := hS.mem_iff.1 hx
    obtain ⟨d, q, e, rfl, h1, h2, h3⟩ := getDialects_notNl h hds hx
    exact typeScore_recode hn hr hl h1 h2 h3 (hc _ hx) _
  unfold consistencyDetect
  simp only
  rw [hsc]
  cases hs : (computeConsistencyScores env cap skip [] (t.length + 1) t (getDialects env ord t ds)).1 with
  | error e => rfl
  | ok scores =>
    simp only
    have hbest : ∀ x ∈ getBestDialects scores, x ∈ getDialects env ord t ds := by
      intro x hx
      rw [he] at hs
      have hk := pureLoop_keys _ _ _ hs
      apply hS.mem_iff.1
      rw [← hk]
      unfold getBestDialects at hx
      split at hx
      · cases hx
      · obtain ⟨p, hp, rfl⟩ := List.mem_map.1 hx
        exact List.mem_map_of_mem (List.mem_filter.1 hp).1
    have htie : tieBreaker ord ((recode nl t).length + 1) (recode nl t) (getBestDialects scores) =
        tieBreaker ord (t.length + 1) t (getBestDialects scores) := by
      refine tieBreaker_recode hn ord fun x hx => ?_
      have hx := hbest x hx
      obtain ⟨d, q, e, rfl, h1, h2, h3⟩ := getDialects_notNl h hds hx
      refine sameParse_recode hn hr hl h1 h2 h3 ?_
      have := (hc _ hx).1 e.toList rfl
      cases e <;> exact this
    split
    · rfl
    · rw [htie]
      split <;> rfl

end

end Clever
