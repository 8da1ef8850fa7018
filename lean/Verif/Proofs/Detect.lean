import Verif.Model.Detect
import Verif.Proofs.Consistency
import Verif.Proofs.TieOrder
import Verif.Props.Patterns
import Verif.Props.Types
import Verif.Props.Parsing

/-! # Facts about detection -/

namespace Clever

open Props (IsStr C24_range_partial C25_type_score_range)

theorem getDialects_isStr {env : PyEnv} {ord : SetOrder} {data : Str} {ds : Option (List Str)} {m : Bool}
    {x : SimpleDialect} (h : x ∈ getDialects env ord data ds m) : IsStr x := by
  obtain ⟨d, q, e, rfl, -⟩ := mem_getDialects.mp h
  simp [IsStr, mkDialect]

theorem getDialects_ne_nil (env : PyEnv) (ord : SetOrder) (data : Str) (ds : Option (List Str)) :
    getDialects env ord data ds ≠ [] := by
  have : mkDialect [] [] [] ∈ getDialects env ord data ds := mem_getDialects.mpr
    ⟨[], [], [], rfl, mem_getDelimiters.mpr (.inl rfl), mem_getQuotechars.mpr (.inl rfl),
      mem_escapeInsertions.mpr (.inl rfl), rfl⟩
  exact List.ne_nil_of_mem this

/-- The candidates do not depend on the enumeration order, as a set. -/
theorem getDialects_order {env : PyEnv} (ord ord' : SetOrder) {data : Str} {ds : Option (List Str)}
    {x : SimpleDialect} : x ∈ getDialects env ord data ds ↔ x ∈ getDialects env ord' data ds := by
  rw [mem_getDialects, mem_getDialects]
  simp only [mem_getDelimiters, mem_getQuotechars]

/-- The scores of the sorted candidates. -/
theorem computeConsistencyScores_eq (env : PyEnv) (cap : Option Nat) (skip : Bool) (limit : Int)
    (data : Str) (cands : List SimpleDialect) (hs : ∀ x ∈ cands, IsStr x) (hn : cands.Nodup) :
    ∃ S, S.Perm cands ∧ S.Pairwise DLt ∧
      (computeConsistencyScores env cap skip [] limit data cands).1 =
        pureLoop (fun d => patternScore data d) (fun d => typeScore env limit data d) skip S none := by
  obtain ⟨S, h1, h2, h3⟩ := sortDialects_spec cands hs hn
  refine ⟨S, h2, h3, ?_⟩
  unfold computeConsistencyScores
  rw [h1]
  simp only
  rw [scoreLoop_eq (t := fun d => typeScore env limit data d)
    (Inv := fun c => CacheSound (fun c => isKnownType env c.1 c.2) c)
    (fun c d hc => computeTypeScore_sound hc limit data d defaultEpsType) skip S none [] []
    (by intro p hp; cases hp) (h2.nodup_iff.mpr hn) (by simp)]
  cases pureLoop (fun d => patternScore data d) (fun d => typeScore env limit data d) skip S none <;>
    simp [Except.map]

theorem patternScore_pos {data : Str} {d : SimpleDialect} {P : ℚ} (h : patternScore data d = .ok P) :
    0 < P := by
  cases hA : makeAbstraction data d with
  | error e => simp [patternScore, hA] at h
  | ok A =>
    obtain ⟨p, h1, h2, -⟩ := C24_range_partial data d defaultEpsPat (by decide +kernel)
      (by decide +kernel) A hA
    rw [h] at h1
    simp only [Except.ok.injEq] at h1
    rw [h1]
    exact h2

theorem score_le {env : PyEnv} {limit : Int} {data : Str} {d : SimpleDialect} {P T : ℚ}
    (hP : patternScore data d = .ok P) (hT : typeScore env limit data d = .ok T) : fl (P * T) ≤ P := by
  have h1 := patternScore_pos hP
  have h2 := (C25_type_score_range env limit data d defaultEpsType (by decide +kernel) T hT).2
  have h3 : fl P = P := by
    unfold patternScore at hP
    split at hP
    · cases hP
    · simp only [Except.ok.injEq] at hP
      rw [← hP, scoreOfAbstraction_fl]
  calc fl (P * T) ≤ fl P := fl_mono (by nlinarith)
    _ = P := h3

/-- The best dialects, in terms of the scores. -/
theorem best_spec {pat typ : SimpleDialect → Except PyExc ℚ} {skip : Bool}
    (hle : ∀ d P T, pat d = .ok P → typ d = .ok T → fl (P * T) ≤ P) {S : List SimpleDialect}
    {scores : List (SimpleDialect × ConsistencyScore)} (hne : S ≠ [])
    (h : pureLoop pat typ skip S none = .ok scores) :
    (getBestDialects scores).Sublist S ∧ getBestDialects scores ≠ [] ∧
    ∀ d, d ∈ getBestDialects scores ↔
      d ∈ S ∧ ∃ P T, pat d = .ok P ∧ typ d = .ok T ∧
        ∀ d' ∈ S, ∀ P' T', pat d' = .ok P' → typ d' = .ok T' → fl (P' * T') ≤ fl (P * T) := by
  have hk := pureLoop_keys _ _ _ h
  obtain ⟨m, hm⟩ := pureLoop_qMax hne h
  have hq := qMax_some _ _ _ hm
  have hb := pureLoop_best hle _ _ _ m h hm
  have hbest : getBestDialects scores = (scores.filter (fun p => p.2.Q = some m)).map (·.1) := by
    unfold getBestDialects
    rw [hm]
  have key : ∀ p ∈ scores, ∀ P T, pat p.1 = .ok P → typ p.1 = .ok T → fl (P * T) ≤ m := by
    intro p hp P T hP hT
    obtain ⟨P', hP', ⟨T', hT', h'⟩ | ⟨_, h'⟩⟩ := hb p hp
    · rw [hP] at hP'
      rw [hT] at hT'
      simp only [Except.ok.injEq] at hP' hT'
      exact hq.2.2 p hp _ (by rw [h', hP', hT'])
    · rw [hP] at hP'
      simp only [Except.ok.injEq] at hP'
      subst hP'
      exact le_of_lt (h' T hT)
  refine ⟨?_, ?_, ?_⟩
  · rw [hbest, ← hk]
    exact List.filter_sublist.map _
  · rw [hbest]
    rcases hq.1 with h0 | ⟨p, hp, h0⟩
    · simp at h0
    · exact List.ne_nil_of_mem (List.mem_map_of_mem (List.mem_filter.mpr ⟨hp, by simpa using h0⟩))
  · intro d
    rw [hbest, List.mem_map]
    constructor
    · rintro ⟨p, hp, rfl⟩
      obtain ⟨hp, hpm⟩ := List.mem_filter.mp hp
      simp only [decide_eq_true_eq] at hpm
      refine ⟨hk ▸ List.mem_map_of_mem hp, ?_⟩
      obtain ⟨P, hP, ⟨T, hT, h'⟩ | ⟨h', _⟩⟩ := hb p hp
      · rw [h'] at hpm
        simp only [Option.some.injEq] at hpm
        refine ⟨P, T, hP, hT, ?_⟩
        intro d' hd' P' T' hP' hT'
        rw [← hk] at hd'
        obtain ⟨p', hp', rfl⟩ := List.mem_map.mp hd'
        rw [hpm]
        exact key p' hp' P' T' hP' hT'
      · rw [h'] at hpm
        simp at hpm
    · rintro ⟨hd, P, T, hP, hT, hmax⟩
      rw [← hk] at hd
      obtain ⟨p, hp, rfl⟩ := List.mem_map.mp hd
      refine ⟨p, List.mem_filter.mpr ⟨hp, ?_⟩, rfl⟩
      have hmle : m ≤ fl (P * T) := by
        rcases hq.1 with h0 | ⟨p', hp', h0⟩
        · simp at h0
        · obtain ⟨P', hP', ⟨T', hT', h'⟩ | ⟨h', _⟩⟩ := hb p' hp'
          · rw [h'] at h0
            simp only [Option.some.injEq] at h0
            rw [← h0]
            exact hmax p'.1 (hk ▸ List.mem_map_of_mem hp') P' T' hP' hT'
          · rw [h'] at h0; simp at h0
      obtain ⟨P', hP', ⟨T', hT', h'⟩ | ⟨_, h'⟩⟩ := hb p hp
      · rw [hP] at hP'
        rw [hT] at hT'
        simp only [Except.ok.injEq] at hP' hT'
        subst hP' hT'
        have := key p hp P T hP hT
        simp [h', le_antisymm this hmle]
      · rw [hP] at hP'
        simp only [Except.ok.injEq] at hP'
        subst hP'
        exact absurd (h' T hT) (not_lt.mpr hmle)

/-! ## The parse behind the type score -/

theorem typeScore_parses {env : PyEnv} {limit : Int} {data : Str} {d : SimpleDialect} {T : ℚ}
    (h : typeScore env limit data d = .ok T) : (parseStringQuoted limit d data).2 = none := by
  unfold typeScore typeScoreWith at h
  simp only at h
  split at h
  · simp at h
  · split at h
    · simp at h
    · assumption

end Clever
