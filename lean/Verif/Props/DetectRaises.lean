import Verif.Props.Detector
import Verif.Proofs.JsonType

/-!
# Exactly when detection raises (C38), and exactly when it leaves the field size limit alone (C37)
-/

namespace Clever.Spec

open Clever

/-- A cell that breaks type detection: without surrounding whitespace it is not one of the words for a missing
value, and `json.loads` raises something else than `JSONDecodeError` on it. -/
def Explosive (env : PyEnv) (cell : Str) : Prop :=
  isNan env (env.strip cell) = false ∧ ∃ x, isJsonObj env (env.strip cell) = .error x

/-- The text, read with the dialect, has such a cell. -/
def Explodes (env : PyEnv) (data : Str) (d : SimpleDialect) : Prop :=
  ∃ row ∈ (parseStringQuoted (data.length + 1) d data).1, ∃ c ∈ row, Explosive env c.1

/-- The type score of a candidate is computed although low pattern scores are skipped: no smaller candidate has a
score above its pattern score. -/
def Reached (env : PyEnv) (ord : SetOrder) (data : Str) (delimiters : Option (List Str)) (d : SimpleDialect) : Prop :=
  ∀ d' ∈ getDialects env ord data delimiters, d'.lt d = .ok true →
    ∀ P Q, patternScore data d = .ok P → HasScore env (data.length + 1) data d' Q → Q ≤ P

end Clever.Spec

namespace Clever.Props

open Clever

/-- The loop over the dialects raises exactly when it comes to one whose type score does. -/
theorem pureLoop_error_iff {pat typ : SimpleDialect → Except PyExc ℚ} {skip : Bool}
    (hle : ∀ d P T, pat d = .ok P → typ d = .ok T → fl (P * T) ≤ P) :
    ∀ (ds : List SimpleDialect) (inc : Option ℚ), (∀ d ∈ ds, ∃ P, pat d = .ok P) →
      ((∃ e, pureLoop pat typ skip ds inc = .error e) ↔
        ∃ pre d post, ds = pre ++ d :: post ∧ (∃ e, typ d = .error e) ∧
          (skip = true → ∀ P, pat d = .ok P → (∀ i, inc = some i → i ≤ P) ∧
            ∀ d' ∈ pre, ∀ P' T', pat d' = .ok P' → typ d' = .ok T' → fl (P' * T') ≤ P))
  | [], inc, _ => by simp [pureLoop]
  | d0 :: ds, inc, hp => by
    obtain ⟨P0, hP0⟩ := hp d0 (by simp)
    have hp' : ∀ d ∈ ds, ∃ P, pat d = .ok P := fun d hd => hp d (by simp [hd])
    have hmap : ∀ (r : Except PyExc (List (SimpleDialect × ConsistencyScore))) (f : List (SimpleDialect × ConsistencyScore) → List (SimpleDialect × ConsistencyScore)),
        (∃ e, r.map f = .error e) ↔ ∃ e, r = .error e := by
      intro r f
      cases r <;> simp [Except.map]
    rw [pureLoop, hP0]
    simp only
    by_cases hb : (belowIncumbent P0 inc && skip) = true
    · rw [if_pos hb, hmap, pureLoop_error_iff hle ds inc hp']
      simp only [Bool.and_eq_true] at hb
      obtain ⟨hb, hs⟩ := hb
      obtain ⟨i0, rfl⟩ : ∃ i, inc = some i := by
        cases inc with
        | none => simp [belowIncumbent] at hb
        | some i => exact ⟨i, rfl⟩
      have hb : P0 < i0 := by simpa [belowIncumbent] using hb
      constructor
      · rintro ⟨pre, d, post, rfl, he, h⟩
        refine ⟨d0 :: pre, d, post, rfl, he, fun _ P hP => ⟨(h hs P hP).1, ?_⟩⟩
        intro d' hd' P' T' hP' hT'
        rcases List.mem_cons.mp hd' with rfl | hd'
        · rw [hP0] at hP'
          cases hP'
          have := hle _ _ _ hP0 hT'
          have := (h hs P hP).1 i0 rfl
          linarith
        · exact (h hs P hP).2 d' hd' P' T' hP' hT'
      · rintro ⟨pre, d, post, hd, he, h⟩
        cases pre with
        | nil =>
          simp only [List.nil_append, List.cons.injEq] at hd
          obtain ⟨rfl, rfl⟩ := hd
          have := (h hs P0 hP0).1 i0 rfl
          linarith
        | cons x pre =>
          simp only [List.cons_append, List.cons.injEq] at hd
          obtain ⟨rfl, rfl⟩ := hd
          exact ⟨pre, d, post, rfl, he, fun hs P hP => ⟨(h hs P hP).1, fun d' hd' => (h hs P hP).2 d' (by simp [hd'])⟩⟩
    · rw [if_neg hb]
      have hinc : skip = true → ∀ i, inc = some i → i ≤ P0 := by
        rintro rfl i rfl
        simpa [belowIncumbent] using hb
      cases hT : typ d0 with
      | error e =>
        simp only [Except.error.injEq, exists_eq', true_iff]
        refine ⟨[], d0, ds, rfl, ⟨e, hT⟩, fun hs P hP => ⟨?_, by simp⟩⟩
        rw [hP0] at hP
        cases hP
        exact hinc hs
      | ok T =>
        simp only
        rw [hmap, pureLoop_error_iff hle ds _ hp']
        constructor
        · rintro ⟨pre, d, post, rfl, he, h⟩
          refine ⟨d0 :: pre, d, post, rfl, he, fun hs P hP => ?_⟩
          have h1 := (h hs P hP).1 _ rfl
          refine ⟨fun i hi => le_trans (le_maxScore hi) h1, ?_⟩
          intro d' hd' P' T' hP' hT'
          rcases List.mem_cons.mp hd' with rfl | hd'
          · rw [hP0] at hP'; rw [hT] at hT'
            cases hP'; cases hT'
            exact le_trans (le_maxScore_right _ _) h1
          · exact (h hs P hP).2 d' hd' P' T' hP' hT'
        · rintro ⟨pre, d, post, hd, he, h⟩
          cases pre with
          | nil =>
            simp only [List.nil_append, List.cons.injEq] at hd
            obtain ⟨rfl, rfl⟩ := hd
            rw [hT] at he
            simp at he
          | cons x pre =>
            simp only [List.cons_append, List.cons.injEq] at hd
            obtain ⟨rfl, rfl⟩ := hd
            refine ⟨pre, d, post, rfl, he, fun hs P hP => ⟨?_, fun d' hd' => (h hs P hP).2 d' (by simp [hd'])⟩⟩
            intro i hi
            cases hi
            rcases maxScore_cases inc (fl (P0 * T)) with hm | hm
            · rw [hm]; exact (h hs P hP).2 d0 (by simp) P0 T hP0 hT
            · exact (h hs P hP).1 _ hm

theorem isKnownType_error_iff {env : PyEnv} (ha : env.Ascii) (cell : Str) (q : Bool) :
    (∃ x, isKnownType env cell q = .error x) ↔ Spec.Explosive env cell := by
  have hst : maybeStrip env true cell = env.strip cell := rfl
  have key : ∀ {x}, isJsonObj env (env.strip cell) = .error x →
      detectType env cell q = if isNan env (env.strip cell) = true then .ok (some "nan") else .error x := by
    intro x hx
    obtain ⟨t, ht⟩ := head_brace (isJsonObj_error_head hx).1
    rw [detectType_chain, brace_tests ha (by rw [hst]; exact ht) (maybeStrip_idem env true cell), hst, hx]
    rfl
  constructor
  · rintro ⟨x, h⟩
    have h2 := (isKnownType_error h).2
    refine ⟨?_, x, h2⟩
    unfold isKnownType at h
    rw [key h2] at h
    cases hn : isNan env (env.strip cell)
    · rfl
    · rw [hn] at h; simp at h
  · rintro ⟨hn, x, hx⟩
    refine ⟨x, ?_⟩
    unfold isKnownType
    rw [key hx, hn]
    rfl

theorem countKnown_error_iff {f : Str × Bool → Except PyExc Bool} (cs : List (Str × Bool)) :
    (∃ e, countKnown f cs = .error e) ↔ ∃ c ∈ cs, ∃ e, f c = .error e := by
  induction cs with
  | nil => simp [countKnown]
  | cons c cs ih =>
    simp only [countKnown, List.mem_cons, exists_eq_or_imp, ← ih]
    cases f c with
    | error e => simp
    | ok b => cases countKnown f cs <;> simp

/-- The type score of a NUL-free text for a candidate raises exactly when a cell does. -/
theorem typeScore_error_iff {env : PyEnv} (ha : env.Ascii) {data : Str} {d q e : Option Char}
    (hl : InLong (data.length + 1)) (hnul : NUL ∉ data) :
    (∃ x, typeScore env (data.length + 1) data (dialectOf d q e) = .error x) ↔ Spec.Explodes env data (dialectOf d q e) := by
  have hp : (parseStringQuoted (data.length + 1) (dialectOf d q e) data).2 = none := by
    rw [parseStringQuoted_error]
    exact C06_success _ hl d q e data hnul (by omega)
  unfold typeScore typeScoreWith Spec.Explodes
  simp only [hp]
  have h := countKnown_error_iff (f := fun c => isKnownType env c.1 c.2)
    (parseStringQuoted (data.length + 1) (dialectOf d q e) data).1.flatten
  have h2 : (∃ c ∈ (parseStringQuoted (data.length + 1) (dialectOf d q e) data).1.flatten, ∃ x, isKnownType env c.1 c.2 = .error x) ↔
      ∃ row ∈ (parseStringQuoted (data.length + 1) (dialectOf d q e) data).1, ∃ c ∈ row, Spec.Explosive env c.1 := by
    simp only [List.mem_flatten, isKnownType_error_iff ha]
    constructor
    · rintro ⟨c, ⟨row, hr, hc⟩, h⟩; exact ⟨row, hr, c, hc, h⟩
    · rintro ⟨row, hr, c, hc, h⟩; exact ⟨c, ⟨row, hr, hc⟩, h⟩
  rw [← h2, ← h]
  cases countKnown (fun c => isKnownType env c.1 c.2)
    (parseStringQuoted (data.length + 1) (dialectOf d q e) data).1.flatten <;> simp

/-- If the scores are computed, detection returns: the tie breaker does not raise. -/
theorem consistencyDetect_ok_of_scores {env : PyEnv} {ord : SetOrder} {cap : Option Nat} {skip : Bool}
    {limit : Int} {data : Str} {ds : Option (List Str)} {S : List SimpleDialect}
    {scores : List (SimpleDialect × ConsistencyScore)} (hS : S.Perm (getDialects env ord data ds))
    (hc : (computeConsistencyScores env cap skip [] (data.length + 1) data (getDialects env ord data ds)).1 =
      pureLoop (fun d => patternScore data d) (fun d => typeScore env (data.length + 1) data d) skip S none)
    (hp : pureLoop (fun d => patternScore data d) (fun d => typeScore env (data.length + 1) data d) skip S none = .ok scores) :
    ∃ r, (consistencyDetect env ord cap skip limit data ds).1 = .ok r := by
  have hne : S ≠ [] := fun h0 => getDialects_ne_nil env ord data ds (by
    rw [h0] at hS; exact hS.nil_eq.symm)
  obtain ⟨-, -, h3⟩ := best_spec (fun d P T hP hT => score_le hP hT) hne hp
  have hpar : ∀ d ∈ getBestDialects scores, Parses (data.length + 1) data d := by
    intro d hd
    obtain ⟨hd, P, T, -, hT, -⟩ := (h3 d).mp hd
    have h1 := typeScore_parses hT
    obtain ⟨d', q', e', rfl⟩ := getDialects_dialectOf (hS.mem_iff.mp hd)
    refine ⟨?_, ⟨_, rfl⟩, ⟨_, rfl⟩⟩
    unfold parseAll
    rw [parseStringQuoted_error] at h1
    simp only [Gen.toList, h1]
    exact ⟨_, rfl⟩
  obtain ⟨r, hr⟩ := tieBreaker_ok (ord := ord) hpar
  unfold consistencyDetect
  simp only [hc, hp]
  split
  · exact ⟨_, rfl⟩
  · rw [hr]
    exact ⟨r, rfl⟩

/-- **C38**, exactly: detection of a NUL-free text raises if and only if no normal form is used, and for some candidate
dialect that is not skipped the text has a cell in braces on which `json.loads` raises something else than
`JSONDecodeError`. -/
theorem C38_iff (env : PyEnv) (ha : env.Ascii) (ord : SetOrder) (limit : Int) (sample : Str)
    (delimiters : Option (List Str)) (method : DetectionMethod) (skip : Bool)
    (hl : InLong (sample.length + 1)) (hnul : NUL ∉ sample) :
    (∃ x, (detect env ord limit sample delimiters method skip).result = .error x) ↔
      (method = .consistency ∨ detectDialectNormal env sample delimiters = none) ∧
      ∃ d ∈ getDialects env ord sample delimiters, Spec.Explodes env sample d ∧
        (skip = true → Spec.Reached env ord sample delimiters d) := by
  rcases detect_cases env ord limit sample delimiters method skip with ⟨hm, d, hd, he⟩ | ⟨hm, cap, he⟩
  · rw [he]
    simp [hd, hm]
  · rw [he]
    simp only [hm, true_and]
    obtain ⟨S, hS, hlt, hc⟩ := computeConsistencyScores_eq env cap skip (sample.length + 1) sample
      (getDialects env ord sample delimiters) (fun x hx => getDialects_isStr hx) (getDialects_nodup ..)
    have hpat : ∀ d ∈ S, ∃ P, patternScore sample d = .ok P := by
      intro d hd
      obtain ⟨d, q, e, rfl⟩ := getDialects_dialectOf (hS.mem_iff.mp hd)
      exact patternScore_dialectOf sample d q e
    have hstr : ∀ d ∈ S, IsStr d := fun d hd => getDialects_isStr (hS.mem_iff.mp hd)
    have h1 : (∃ x, (consistencyDetect env ord cap skip limit sample delimiters).1 = .error x) ↔
        ∃ x, pureLoop (fun d => patternScore sample d) (fun d => typeScore env (sample.length + 1) sample d) skip S none =
          .error x := by
      constructor
      · rintro ⟨x, hx⟩
        cases hp : pureLoop (fun d => patternScore sample d) (fun d => typeScore env (sample.length + 1) sample d) skip S none with
        | error e => exact ⟨e, rfl⟩
        | ok l =>
          obtain ⟨r, hr⟩ := consistencyDetect_ok_of_scores (env := env) (ord := ord) (cap := cap) (skip := skip)
            (limit := limit) (data := sample) (ds := delimiters) hS hc hp
          rw [hr] at hx
          cases hx
      · rintro ⟨x, hx⟩
        refine ⟨x, ?_⟩
        unfold consistencyDetect
        simp only [hc, hx]
    rw [h1, pureLoop_error_iff (fun d P T hP hT => score_le hP hT) S none hpat]
    constructor
    · rintro ⟨pre, d, post, rfl, hd, h⟩
      have hm : d ∈ getDialects env ord sample delimiters := hS.mem_iff.mp (by simp)
      refine ⟨d, hm, ?_, ?_⟩
      · obtain ⟨d, q, e, rfl⟩ := getDialects_dialectOf hm
        exact (typeScore_error_iff ha hl hnul).mp hd
      · intro hs d' hd' hlt' P Q hP hQ
        obtain ⟨P', T', hP', hT', rfl⟩ := hQ
        refine (h hs P hP).2 d' ?_ P' T' hP' hT'
        have hd'S := hS.mem_iff.mpr hd'
        have hsd' := hstr d' hd'S
        have hsd := hstr d (by simp)
        have irr : d.lt d ≠ .ok true := by rw [C18_strict_total_order.1 d hsd]; simp
        rcases List.mem_append.mp hd'S with h' | h'
        · exact h'
        · rcases List.mem_cons.mp h' with rfl | h'
          · exact absurd hlt' irr
          · have := (List.pairwise_cons.mp (List.pairwise_append.mp hlt).2.1).1 d' h'
            exact absurd (C18_strict_total_order.2.1 d d' d hsd hsd' hsd this hlt') irr
    · rintro ⟨d, hd, hx, h⟩
      obtain ⟨pre, post, rfl⟩ := List.append_of_mem (hS.mem_iff.mpr hd)
      refine ⟨pre, d, post, rfl, ?_, ?_⟩
      · obtain ⟨d, q, e, rfl⟩ := getDialects_dialectOf hd
        exact (typeScore_error_iff ha hl hnul).mpr hx
      · intro hs P hP
        refine ⟨by simp, fun d' hd' P' T' hP' hT' => ?_⟩
        exact h hs d' (hS.mem_iff.mp (by simp [hd'])) ((List.pairwise_append.mp hlt).2.2 d' hd' d (by simp)) P _ hP
          ⟨P', T', hP', hT', rfl⟩

/-- What raises with the skipping of low pattern scores raises without it. -/
theorem C38_skip (env : PyEnv) (ha : env.Ascii) (ord : SetOrder) (limit limit' : Int) (sample : Str)
    (delimiters : Option (List Str)) (method : DetectionMethod) (hl : InLong (sample.length + 1)) (hnul : NUL ∉ sample)
    (h : ∃ x, (detect env ord limit sample delimiters method true).result = .error x) :
    ∃ x, (detect env ord limit' sample delimiters method false).result = .error x := by
  rw [C38_iff env ha ord _ sample delimiters method _ hl hnul] at h ⊢
  obtain ⟨h1, d, hd, h2, -⟩ := h
  exact ⟨h1, d, hd, h2, by simp⟩

/-- Tables for the example: a stack that is too small for an array in an object. -/
def shallowEnv : PyEnv := { asciiEnv with jsonDepth := 1 }

/-- But not conversely: the cell between bars is seen only by a dialect that is skipped. -/
example :
    (detect shallowEnv .forward 1 "1,2,3\n1,2,3\n1,2,x|{\"a\":[[]]}|y".toList none .consistency true).result =
      .ok (some (mkDialect [','] [] [])) ∧
    (detect shallowEnv .forward 1 "1,2,3\n1,2,3\n1,2,x|{\"a\":[[]]}|y".toList none .consistency false).result =
      .error .recursionError := by decide +kernel

/-- **C37**, exactly: the field size limit is left alone if and only if detection returns, or the limit happened to be the
temporary one. -/
theorem C37_iff (env : PyEnv) (ord : SetOrder) (limit : Int) (sample : Str)
    (delimiters : Option (List Str)) (method : DetectionMethod) (skip : Bool) :
    (detect env ord limit sample delimiters method skip).limit = limit ↔
      (∃ r, (detect env ord limit sample delimiters method skip).result = .ok r) ∨ limit = sample.length + 1 := by
  cases h : (detect env ord limit sample delimiters method skip).result with
  | ok r =>
    simp [C37_restored_partial _ _ _ _ _ _ _ _ h]
  | error x =>
    rw [C37_on_error_partial _ _ _ _ _ _ _ _ h]
    simp only [reduceCtorEq, exists_false, false_or]
    exact eq_comm

example : (detect shallowEnv .forward 7 "{\"a\":[[]]}|y".toList none .consistency true).limit = 13 := by decide +kernel

end Clever.Props
