import Verif.Proofs.Detect

/-!
# The consistency measure and tie breaking: C32 - C36
-/

namespace Clever.Spec

/-- The consistency score of a dialect, the double nearest to `P * T`, for the text `data`; the type score is computed with
the field size limit `limit`. -/
def HasScore (env : PyEnv) (limit : Int) (data : Str) (d : SimpleDialect) (Q : ℚ) : Prop :=
  ∃ P T, patternScore data d = .ok P ∧ typeScore env limit data d = .ok T ∧ Q = fl (P * T)

/-- `d` is one of the candidates with the highest score. -/
def IsBest (env : PyEnv) (ord : SetOrder) (data : Str) (delimiters : Option (List Str))
    (d : SimpleDialect) : Prop :=
  d ∈ getDialects env ord data delimiters ∧
  ∃ Q, HasScore env (data.length + 1) data d Q ∧
    ∀ d' ∈ getDialects env ord data delimiters, ∀ Q',
      HasScore env (data.length + 1) data d' Q' → Q' ≤ Q

end Clever.Spec

namespace Clever.Props

open Clever

/-! ## C33 -/

/-- The best dialects of a run of the scoring loop. -/
theorem best_of_run (env : PyEnv) (ord : SetOrder) (cap : Option Nat) (skip : Bool) (data : Str)
    (delimiters : Option (List Str)) (scores : List (SimpleDialect × ConsistencyScore))
    (h : (computeConsistencyScores env cap skip [] (data.length + 1) data
      (getDialects env ord data delimiters)).1 = .ok scores) :
    getBestDialects scores ≠ [] ∧ (getBestDialects scores).Pairwise DLt ∧
      ∀ d, d ∈ getBestDialects scores ↔ Spec.IsBest env ord data delimiters d := by
  obtain ⟨S, hS, hlt, he⟩ := computeConsistencyScores_eq env cap skip (data.length + 1) data
    (getDialects env ord data delimiters) (fun x hx => getDialects_isStr hx) (getDialects_nodup ..)
  rw [he] at h
  have hne : S ≠ [] := fun h0 => getDialects_ne_nil env ord data delimiters (by
    rw [h0] at hS; exact hS.nil_eq.symm)
  obtain ⟨h1, h2, h3⟩ := best_spec (fun d P T hP hT => score_le hP hT) hne h
  refine ⟨h2, hlt.sublist h1, fun d => ?_⟩
  rw [h3, hS.mem_iff]
  constructor
  · rintro ⟨hd, P, T, hP, hT, hm⟩
    refine ⟨hd, fl (P * T), ⟨P, T, hP, hT, rfl⟩, ?_⟩
    rintro d' hd' Q' ⟨P', T', hP', hT', rfl⟩
    exact hm d' (hS.mem_iff.mpr hd') P' T' hP' hT'
  · rintro ⟨hd, Q, ⟨P, T, hP, hT, rfl⟩, hm⟩
    exact ⟨hd, P, T, hP, hT, fun d' hd' P' T' hP' hT' =>
      hm d' (hS.mem_iff.mp hd') _ ⟨P', T', hP', hT', rfl⟩⟩

/-- **C33**: the dialects kept for tie breaking are the candidates with the highest score, there is at
least one, and they are listed in dialect order, with or without skipping and for any capacity of the
cache. -/
theorem C33_best (env : PyEnv) (ord : SetOrder) (cap : Option Nat) (skip : Bool) (data : Str)
    (delimiters : Option (List Str)) (scores : List (SimpleDialect × ConsistencyScore))
    (h : (computeConsistencyScores env cap skip [] (data.length + 1) data
      (getDialects env ord data delimiters)).1 = .ok scores) :
    getBestDialects scores ≠ [] ∧
    (getBestDialects scores).Pairwise (fun a b => a.lt b = .ok true) ∧
    ∀ d, d ∈ getBestDialects scores ↔ Spec.IsBest env ord data delimiters d :=
  best_of_run env ord cap skip data delimiters scores h

/-- The dialects that are scored are the candidates in dialect order. -/
theorem C33_scored_in_order (env : PyEnv) (ord : SetOrder) (cap : Option Nat) (skip : Bool) (data : Str)
    (delimiters : Option (List Str)) (scores : List (SimpleDialect × ConsistencyScore))
    (h : (computeConsistencyScores env cap skip [] (data.length + 1) data
      (getDialects env ord data delimiters)).1 = .ok scores) :
    (scores.map (·.1)).Perm (getDialects env ord data delimiters) ∧
    (scores.map (·.1)).Pairwise (fun a b => a.lt b = .ok true) := by
  obtain ⟨S, hS, hlt, he⟩ := computeConsistencyScores_eq env cap skip (data.length + 1) data
    (getDialects env ord data delimiters) (fun x hx => getDialects_isStr hx) (getDialects_nodup ..)
  rw [he] at h
  rw [pureLoop_keys _ _ _ h]
  exact ⟨hS, hlt⟩

/-- A case with a single best dialect among four candidates. -/
example : getBestDialects (match (computeConsistencyScores asciiEnv none true [] 20
    "a;b c\nd;e f".toList (getDialects asciiEnv .backward "a;b c\nd;e f".toList none)).1 with
    | .ok s => s | .error _ => []) = [mkDialect [';'] [] []] := by decide +kernel

/-! ## C32 -/

/-- The best dialects of two runs are the same list. -/
theorem best_unique (env : PyEnv) (ord ord' : SetOrder) (cap cap' : Option Nat) (skip skip' : Bool)
    (data : Str) (delimiters : Option (List Str)) (s s' : List (SimpleDialect × ConsistencyScore))
    (h : (computeConsistencyScores env cap skip [] (data.length + 1) data
      (getDialects env ord data delimiters)).1 = .ok s)
    (h' : (computeConsistencyScores env cap' skip' [] (data.length + 1) data
      (getDialects env ord' data delimiters)).1 = .ok s') :
    getBestDialects s = getBestDialects s' := by
  obtain ⟨-, h2, h3⟩ := best_of_run _ _ _ _ _ _ _ h
  obtain ⟨-, h2', h3'⟩ := best_of_run _ _ _ _ _ _ _ h'
  refine sorted_ext (fun x hx => getDialects_isStr ((h3 x).mp hx).1) h2 h2' (fun x => ?_)
  rw [h3, h3']
  unfold Spec.IsBest
  simp only [getDialects_order ord ord']

theorem noskip_ok (env : PyEnv) (ord : SetOrder) (cap cap' : Option Nat) (data : Str)
    (delimiters : Option (List Str)) (s : List (SimpleDialect × ConsistencyScore))
    (h : (computeConsistencyScores env cap false [] (data.length + 1) data
      (getDialects env ord data delimiters)).1 = .ok s) :
    ∃ s', (computeConsistencyScores env cap' true [] (data.length + 1) data
      (getDialects env ord data delimiters)).1 = .ok s' := by
  obtain ⟨S, hS, hlt, he⟩ := computeConsistencyScores_eq env cap false (data.length + 1) data
    (getDialects env ord data delimiters) (fun x hx => getDialects_isStr hx) (getDialects_nodup ..)
  obtain ⟨S', hS', hlt', he'⟩ := computeConsistencyScores_eq env cap' true (data.length + 1) data
    (getDialects env ord data delimiters) (fun x hx => getDialects_isStr hx) (getDialects_nodup ..)
  rw [he'] 
  rw [he] at h
  have := pureLoop_noskip _ _ _ h
  exact pureLoop_ok _ _ fun d hd => this d (hS.mem_iff.mpr (hS'.mem_iff.mp hd))

/-- **C32**: if detection without skipping returns (a dialect or None), then detection with skipping
returns the same; for every environment, set order and cache capacity.  (Without skipping more type
scores are computed, so that it may raise where detection with skipping does not.) -/
theorem C32_skip (env : PyEnv) (ord : SetOrder) (cap cap' : Option Nat) (limit : Int) (data : Str)
    (delimiters : Option (List Str)) (r : Option SimpleDialect) (l : Int)
    (h : consistencyDetect env ord cap false limit data delimiters = (.ok r, l)) :
    consistencyDetect env ord cap' true limit data delimiters = (.ok r, l) := by
  unfold consistencyDetect at h ⊢
  simp only at h ⊢
  cases hc : (computeConsistencyScores env cap false [] (data.length + 1) data
      (getDialects env ord data delimiters)).1 with
  | error e => rw [hc] at h; simp at h
  | ok s =>
    obtain ⟨s', hs'⟩ := noskip_ok env ord cap cap' data delimiters s hc
    rw [hc] at h
    rw [hs']
    simp only at h ⊢
    rw [← best_unique env ord ord cap cap' false true data delimiters s s' hc hs']
    exact h

/-- **C32** through `Detector.detect`. -/
theorem C32_detect (env : PyEnv) (ord : SetOrder) (limit : Int) (data : Str)
    (delimiters : Option (List Str)) (method : DetectionMethod) (r : Option SimpleDialect)
    (h : (detect env ord limit data delimiters method false).result = .ok r) :
    detect env ord limit data delimiters method true = detect env ord limit data delimiters method false := by
  have key : (consistencyDetect env ord (some 100000) false limit data delimiters).1 = .ok r →
      consistencyDetect env ord (some 100000) true limit data delimiters =
        consistencyDetect env ord (some 100000) false limit data delimiters := by
    intro hh
    have : consistencyDetect env ord (some 100000) false limit data delimiters =
        (.ok r, (consistencyDetect env ord (some 100000) false limit data delimiters).2) := by
      rw [← hh]
    rw [this, C32_skip env ord _ _ limit data delimiters r _ this]
  unfold detect at h ⊢
  simp only at h ⊢
  split
  · rename_i hm
    rw [if_pos hm] at h
    cases hn : detectDialectNormal env data delimiters with
    | some d => rfl
    | none =>
      rw [hn] at h
      simp only at h ⊢
      rw [key h]
  · rename_i hm
    rw [if_neg hm] at h
    rw [key h]

/-- **C32** for every way the scores can come out: `pat` and `typ` are arbitrary, except that type
scores are at most 1 and pattern scores are doubles and not negative. -/
theorem C32_scores (pat typ : SimpleDialect → Except PyExc ℚ)
    (hp : ∀ d P, pat d = .ok P → 0 ≤ P ∧ fl P = P) (ht : ∀ d T, typ d = .ok T → T ≤ 1)
    (ds : List SimpleDialect) (hn : ds.Nodup) (s : List (SimpleDialect × ConsistencyScore))
    (h : (scoreLoop pat (fun c d => (typ d, c)) false ds none [] []).1 = .ok s) :
    ∃ s', (scoreLoop pat (fun c d => (typ d, c)) true ds none [] []).1 = .ok s' ∧
      getBestDialects s' = getBestDialects s := by
  have hle : ∀ d P T, pat d = .ok P → typ d = .ok T → fl (P * T) ≤ P := by
    intro d P T hP hT
    rw [← (hp d P hP).2]
    apply fl_mono
    rw [(hp d P hP).2]
    nlinarith [(hp d P hP).1, ht d T hT]
  have e : ∀ sk, (scoreLoop pat (fun c d => (typ d, c)) sk ds none [] []).1 =
      pureLoop pat typ sk ds none := by
    intro sk
    rw [scoreLoop_eq (t := typ) (Inv := fun _ => True) (fun c d _ => ⟨rfl, trivial⟩) sk ds none [] []
      trivial hn (by simp)]
    cases pureLoop pat typ sk ds none <;> simp [Except.map]
  rw [e] at h
  rw [e]
  obtain ⟨s', hs'⟩ := pureLoop_ok (skip := true) ds none (pureLoop_noskip _ _ _ h)
  refine ⟨s', hs', ?_⟩
  cases ds with
  | nil =>
    simp [pureLoop] at h hs'
    rw [h, hs']
  | cons d0 ds0 =>
    obtain ⟨h1, -, h3⟩ := best_spec hle (by simp) h
    obtain ⟨h1', -, h3'⟩ := best_spec hle (by simp) hs'
    -- two sublists of a list without duplicates with the same members are equal
    have sub : ∀ {l a b : List SimpleDialect}, l.Nodup → a.Sublist l → b.Sublist l →
        (∀ x, x ∈ a ↔ x ∈ b) → a = b := by
      intro l
      induction l with
      | nil => intro a b _ ha hb _; simp at ha hb; rw [ha, hb]
      | cons x l ih =>
        intro a b hl ha hb hab
        simp only [List.nodup_cons] at hl
        have hx : ∀ {c : List SimpleDialect}, c.Sublist (x :: l) →
            (∃ c', c = x :: c' ∧ c'.Sublist l) ∨ (x ∉ c ∧ c.Sublist l) := by
          intro c hc
          cases hc with
          | cons _ h => exact .inr ⟨fun hh => hl.1 (h.subset hh), h⟩
          | cons_cons _ h => exact .inl ⟨_, rfl, h⟩
        rcases hx ha with ⟨a', rfl, ha'⟩ | ⟨hxa, ha'⟩ <;> rcases hx hb with ⟨b', rfl, hb'⟩ | ⟨hxb, hb'⟩
        · congr 1
          refine ih hl.2 ha' hb' (fun y => ?_)
          have := hab y
          simp only [List.mem_cons] at this
          constructor
          · intro hy
            rcases this.mp (.inr hy) with rfl | h
            · exact absurd (ha'.subset hy) hl.1
            · exact h
          · intro hy
            rcases this.mpr (.inr hy) with rfl | h
            · exact absurd (hb'.subset hy) hl.1
            · exact h
        · exact absurd ((hab x).mp (by simp)) hxb
        · exact absurd ((hab x).mpr (by simp)) hxa
        · exact ih hl.2 ha' hb' hab
    exact sub hn h1' h1 fun x => by rw [h3, h3']

/-- A case in which a dialect is skipped: the scores differ, the best dialect is the same. -/
example :
    let pat := fun d : SimpleDialect => (if d.delimiter = some [','] then .ok 1 else .ok (1/2) : Except PyExc ℚ)
    let typ := fun _ : SimpleDialect => (.ok 1 : Except PyExc ℚ)
    let ds := [mkDialect [','] [] [], mkDialect [';'] [] []]
    let a := (scoreLoop pat (fun c d => (typ d, c)) false ds none [] []).1
    let b := (scoreLoop pat (fun c d => (typ d, c)) true ds none [] []).1
    a.map getBestDialects = .ok [mkDialect [','] [] []] ∧
      b.map getBestDialects = .ok [mkDialect [','] [] []] ∧ a.map (·.map (·.2.T)) ≠ b.map (·.map (·.2.T)) := by
  decide +kernel

/-! ## C34 -/

/-- **C34**: the tie breaker returns None or one of the dialects it was given. -/
theorem C34_tie_breaker (ord : SetOrder) (limit : Int) (data : Str) (ds : List SimpleDialect)
    (d : SimpleDialect) (h : tieBreaker ord limit data ds = .ok (some d)) : d ∈ ds :=
  tieBreaker_mem h

/-- **C34**: the detected dialect is one of the candidates with the best score. -/
theorem C34_detected_is_best (env : PyEnv) (ord : SetOrder) (cap : Option Nat) (skip : Bool) (limit : Int)
    (data : Str) (delimiters : Option (List Str)) (d : SimpleDialect)
    (h : (consistencyDetect env ord cap skip limit data delimiters).1 = .ok (some d)) :
    Spec.IsBest env ord data delimiters d := by
  unfold consistencyDetect at h
  simp only at h
  cases hc : (computeConsistencyScores env cap skip [] (data.length + 1) data
      (getDialects env ord data delimiters)).1 with
  | error e => rw [hc] at h; simp at h
  | ok s =>
    rw [hc] at h
    simp only at h
    refine ((best_of_run _ _ _ _ _ _ _ hc).2.2 d).mp ?_
    split at h
    · rename_i x hx
      simp only [Except.ok.injEq, Option.some.injEq] at h
      rw [hx]
      simp [h]
    · cases ht : tieBreaker ord (data.length + 1) data (getBestDialects s) with
      | error e => rw [ht] at h; simp at h
      | ok r =>
        rw [ht] at h
        simp only [Except.ok.injEq] at h
        subst h
        exact tieBreaker_mem ht

/-- A tie that is broken in favour of the dialect without quotechar. -/
example : tieBreaker .forward 100 "a,b".toList [mkDialect [','] [] [], mkDialect [','] ['"'] []] =
    .ok (some (mkDialect [','] [] [])) := by decide +kernel

/-! ## C35 -/

/-- The best dialects can be parsed, so that tie breaking does not raise. -/
theorem best_parses {env : PyEnv} {ord : SetOrder} {data : Str} {delimiters : Option (List Str)}
    {d : SimpleDialect} (h : Spec.IsBest env ord data delimiters d) :
    Parses (data.length + 1) data d ∧ d.strict = false := by
  obtain ⟨hd, Q, ⟨P, T, -, hT, -⟩, -⟩ := h
  obtain ⟨d', q', e', rfl, -⟩ := mem_getDialects.mp hd
  refine ⟨⟨?_, ⟨q', rfl⟩, ⟨e', rfl⟩⟩, rfl⟩
  have h1 := typeScore_parses hT
  unfold parseAll parseString
  rw [C10_same_cells]
  unfold parseStringQuoted at h1
  simp only [Gen.toList, h1]
  exact ⟨_, rfl⟩

/-- The scores do not depend on the order of the sets. -/
theorem scores_order (env : PyEnv) (ord ord' : SetOrder) (cap : Option Nat) (skip : Bool)
    (data : Str) (delimiters : Option (List Str)) :
    (computeConsistencyScores env cap skip [] (data.length + 1) data
      (getDialects env ord data delimiters)).1 =
    (computeConsistencyScores env cap skip [] (data.length + 1) data
      (getDialects env ord' data delimiters)).1 := by
  obtain ⟨S, hS, hlt, he⟩ := computeConsistencyScores_eq env cap skip (data.length + 1) data
    (getDialects env ord data delimiters) (fun x hx => getDialects_isStr hx) (getDialects_nodup ..)
  obtain ⟨S', hS', hlt', he'⟩ := computeConsistencyScores_eq env cap skip (data.length + 1) data
    (getDialects env ord' data delimiters) (fun x hx => getDialects_isStr hx) (getDialects_nodup ..)
  rw [he, he', sorted_ext (fun x hx => getDialects_isStr (hS.mem_iff.mp hx)) hlt hlt' fun x => by
    rw [hS.mem_iff, hS'.mem_iff, getDialects_order ord ord']]

/-- Detection depends on the order of the sets only through the tie breaker. -/
theorem detect_order (env : PyEnv) (ord ord' : SetOrder) (cap : Option Nat) (skip : Bool) (limit : Int)
    (data : Str) (delimiters : Option (List Str))
    (h : ∀ best : List SimpleDialect, best.Pairwise DLt →
      (∀ d, d ∈ best ↔ Spec.IsBest env ord data delimiters d) →
      tieBreaker ord (data.length + 1) data best = tieBreaker ord' (data.length + 1) data best) :
    consistencyDetect env ord cap skip limit data delimiters =
      consistencyDetect env ord' cap skip limit data delimiters := by
  unfold consistencyDetect
  simp only
  rw [scores_order env ord ord']
  cases hc : (computeConsistencyScores env cap skip [] (data.length + 1) data
      (getDialects env ord' data delimiters)).1 with
  | error e => rfl
  | ok s =>
    simp only
    rw [← scores_order env ord ord'] at hc
    obtain ⟨-, h2, h3⟩ := best_of_run _ _ _ _ _ _ _ hc
    have ht := h _ h2 h3
    generalize getBestDialects s = best at ht
    split
    · rfl
    · rw [ht]

/-- **C35**, if at most one escapechar occurs among the best dialects: the result of detection
(dialect, None or exception) and the field size limit afterwards are the same for any two orders of
the sets.  Missing: best dialects with two different escapechars, see `C35_violated`. -/
theorem C35_one_escapechar_partial (env : PyEnv) (ord ord' : SetOrder) (cap : Option Nat) (skip : Bool)
    (limit : Int) (data : Str) (delimiters : Option (List Str))
    (h : ∀ a b, Spec.IsBest env ord data delimiters a → Spec.IsBest env ord data delimiters b →
      a.escapechar = b.escapechar ∨ a.escapechar = some [] ∨ b.escapechar = some []) :
    consistencyDetect env ord cap skip limit data delimiters =
      consistencyDetect env ord' cap skip limit data delimiters := by
  refine detect_order _ _ _ _ _ _ _ _ fun best hlt hb => tieBreaker_order ⟨?_, ?_, ?_, ?_⟩
  · exact fun d hd => (best_parses ((hb d).mp hd)).1
  · exact fun d hd => (best_parses ((hb d).mp hd)).2
  · exact fun a ha b hb' => h a b ((hb a).mp ha) ((hb b).mp hb')
  · refine hlt.imp_of_mem ?_
    intro a b ha _ hab he
    subst he
    have := C18_strict_total_order.1 a (getDialects_isStr ((hb a).mp ha).1)
    rw [DLt, this] at hab
    simp at hab

/-- **C35**: only the order in which the set of dialects in `reduce_pairwise` is enumerated matters;
the orders of the sets of characters and of escapechars do not. -/
theorem C35_only_reduce_partial (env : PyEnv) (ord ord' : SetOrder) (cap : Option Nat) (skip : Bool)
    (limit : Int) (data : Str) (delimiters : Option (List Str)) (h : ord.dialects = ord'.dialects) :
    consistencyDetect env ord cap skip limit data delimiters =
      consistencyDetect env ord' cap skip limit data delimiters := by
  refine detect_order _ _ _ _ _ _ _ _ fun best _ _ => ?_
  have hr : ∀ limit data ds, reducePairwise ord limit data ds = reducePairwise ord' limit data ds := by
    intro limit data ds
    unfold reducePairwise
    rw [h]
  have h3 : ∀ limit data A B C, breakTiesThree ord limit data A B C = breakTiesThree ord' limit data A B C := by
    intro limit data A B C
    unfold breakTiesThree
    simp only [hr]
  unfold tieBreaker breakTiesFour
  simp only [hr, h3]

theorem reducePairwise_singleton {ord ord' : SetOrder} {limit : Int} {data : Str} {ds : List SimpleDialect}
    {d : SimpleDialect} (h : reducePairwise ord limit data ds = .ok (some [d])) :
    reducePairwise ord' limit data ds = .ok (some [d]) := by
  unfold reducePairwise at h ⊢
  split at h
  · simp at h
  rename_i hd
  rw [if_neg hd]
  cases he : equalPairs limit data (pairwise ds) with
  | error e => rw [he] at h; simp at h
  | ok ps =>
    rw [he] at h
    simp only at h ⊢
    cases ha : pairAnswers limit data ps with
    | error e => rw [ha] at h; simp at h
    | ok ans =>
      rw [ha] at h
      simp only [Except.ok.injEq, Option.some.injEq] at h ⊢
      have h1 := ord.dialects_perm (ans ++ ds.filter (fun d => !(ps.flatMap (fun p => [p.1, p.2])).contains d))
      have h2 := ord'.dialects_perm (ans ++ ds.filter (fun d => !(ps.flatMap (fun p => [p.1, p.2])).contains d))
      rw [h] at h1
      exact List.perm_singleton.mp (h2.trans h1.symm)

/-- **C35**, unless exactly four dialects have the best score. -/
theorem C35_not_four_partial (env : PyEnv) (ord ord' : SetOrder) (cap : Option Nat) (skip : Bool)
    (limit : Int) (data : Str) (delimiters : Option (List Str))
    (h : ∀ l : List SimpleDialect, l.Nodup → (∀ d, d ∈ l ↔ Spec.IsBest env ord data delimiters d) →
      l.length ≠ 4) :
    consistencyDetect env ord cap skip limit data delimiters =
      consistencyDetect env ord' cap skip limit data delimiters := by
  refine detect_order _ _ _ _ _ _ _ _ fun best hlt hb => ?_
  have h4 : best.length ≠ 4 := by
    refine h best (hlt.imp_of_mem ?_) hb
    intro a b ha _ hab he
    subst he
    have := C18_strict_total_order.1 a (getDialects_isStr ((hb a).mp ha).1)
    rw [DLt, this] at hab
    simp at hab
  unfold tieBreaker
  split
  · rfl
  · rename_i A B C
    unfold breakTiesThree
    have key : (match reducePairwise ord (data.length + 1) data [A, B, C] with
        | .error e => (.error e : Except PyExc (Option SimpleDialect))
        | .ok (some [d]) => .ok (some d)
        | .ok _ => .ok none) =
        (match reducePairwise ord' (data.length + 1) data [A, B, C] with
        | .error e => .error e
        | .ok (some [d]) => .ok (some d)
        | .ok _ => .ok none) := by
      have hp : ∀ d ∈ [A, B, C], Parses (data.length + 1) data d :=
        fun d hd => (best_parses ((hb d).mp hd)).1
      obtain ⟨r, hr⟩ := reducePairwise_ok (ord := ord) hp
      obtain ⟨r', hr'⟩ := reducePairwise_ok (ord := ord') hp
      rw [hr, hr']
      match r, r' with
      | some [d], r' => 
        have := reducePairwise_singleton (ord' := ord') hr
        rw [hr'] at this
        simp only [Except.ok.injEq] at this
        rw [this]
      | none, some [d] | some [], some [d] | some (_ :: _ :: _), some [d] =>
        have := reducePairwise_singleton (ord' := ord) hr'
        rw [hr] at this
        simp at this
      | none, none | none, some [] | none, some (_ :: _ :: _)
      | some [], none | some [], some [] | some [], some (_ :: _ :: _)
      | some (_ :: _ :: _), none | some (_ :: _ :: _), some [] | some (_ :: _ :: _), some (_ :: _ :: _) => rfl
    simp only
    split
    · cases parseAll (data.length + 1) data A with
      | error e => rfl
      | ok pA =>
      cases parseAll (data.length + 1) data B with
      | error e => rfl
      | ok pB =>
      cases parseAll (data.length + 1) data C with
      | error e => rfl
      | ok pC =>
      simp only
      split
      · rfl
      · split
        · rfl
        · split
          · exact key
          · rfl
    · rfl
  · exact absurd rfl h4
  · rfl

/-- **C35** fails: for the text `x,a\'b\'c@'d@'e` the escapechars `\` and `@` are tied, and the tie is
broken according to the order in which the set of the two dialects is enumerated. -/
theorem C35_violated :
    let data := "x,a\\'b\\'c@'d@'e".toList
    (detect asciiEnv .forward 131072 data).result = .ok (some (mkDialect [','] ['\''] ['@'])) ∧
    (detect asciiEnv .backward 131072 data).result = .ok (some (mkDialect [','] ['\''] ['\\'])) := by
  constructor <;> decide +kernel

/-! ## C36 -/

/-- **C36**, unless the dialects have two different escapechars: the answer does not depend on the order
(whether or not the parse raises).  `strict` is equal for the dialects that detection compares. -/
theorem C36_symmetric_partial (limit : Int) (data : Str) (A B : SimpleDialect)
    (hs : A.strict = B.strict)
    (he : A.escapechar = B.escapechar ∨ A.escapechar = some [] ∨ B.escapechar = some []) :
    breakTiesTwo limit data A B = breakTiesTwo limit data B A :=
  breakTiesTwo_symm hs he

/-- **C36** also holds whenever the delimiters or the quotechars differ. -/
theorem C36_differ_partial (limit : Int) (data : Str) (A B : SimpleDialect) (hs : A.strict = B.strict)
    (hd : A.delimiter ≠ B.delimiter ∨ A.quotechar ≠ B.quotechar) :
    breakTiesTwo limit data A B = breakTiesTwo limit data B A := by
  by_cases he : A.escapechar = B.escapechar
  · exact breakTiesTwo_symm hs (.inl he)
  unfold breakTiesTwo
  have e1 : onlyQuotechar A B = false ∧ onlyQuotechar B A = false := by
    simp [onlyQuotechar, he, Ne.symm he]
  have e2 : onlyDelimiter A B = false ∧ onlyDelimiter B A = false := by
    simp [onlyDelimiter, he, Ne.symm he]
  have e3 : onlyEscapechar A B = false ∧ onlyEscapechar B A = false := by
    simp [onlyEscapechar]
    rcases hd with hd | hd
    · exact ⟨fun h => absurd h hd, fun h => absurd h.symm hd⟩
    · exact ⟨fun _ => hd, fun _ => Ne.symm hd⟩
  simp only [e1.1, e1.2, e2.1, e2.2, e3.1, e3.2, Bool.false_eq_true, if_false]
  by_cases h : A.delimiter = B.delimiter
  · rw [if_pos h, if_pos h.symm]
    exact tieQuoteEscape_symm (hd.resolve_left (fun h' => h' h))
  · rw [if_neg h, if_neg (Ne.symm h)]

/-- **C36** fails for two dialects that differ in their (non-empty) escapechars: the second dialect is
taken for the one without escapechar. -/
theorem C36_violated :
    let data := "x,a\\'b\\'c@'d@'e".toList
    let A := mkDialect [','] ['\''] ['\\']
    let B := mkDialect [','] ['\''] ['@']
    breakTiesTwo 131072 data A B = .ok (some A) ∧ breakTiesTwo 131072 data B A = .ok (some B) := by
  constructor <;> decide +kernel

/-- The partial statement is not vacuous: a tie between two dialects that differ in quotechar and
escapechar is broken. -/
example :
    breakTiesTwo 100 "a\\'b,c".toList (mkDialect [','] [] []) (mkDialect [','] ['\''] ['\\']) =
      .ok (some (mkDialect [','] ['\''] ['\\'])) := by decide +kernel

end Clever.Props
