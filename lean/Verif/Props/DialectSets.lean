import Verif.Props.Detection

/-!
# C107: consistency scores depend on the set of dialects only

`compute_consistency_scores` and `get_best_dialects` with any list of dialects, in which dialects may be repeated, and
with a detector that has been used before.
-/

namespace Clever.Spec

/-- The caches of a detector after any calls of `compute_consistency_scores`, also calls that have raised. -/
inductive Used (env : PyEnv) (cap : Option Nat) : TypeCache → Prop
  | new : Used env cap []
  | call {cache : TypeCache} (h : Used env cap cache) (skip : Bool) (limit : Int) (data : Str)
      (dialects : List SimpleDialect) :
      Used env cap (computeConsistencyScores env cap skip cache limit data dialects).2

end Clever.Spec

namespace Clever

open Spec Props

/-! ## Sorting with repetitions -/

/-- The order of dialects, or equality. -/
def DLe (a b : SimpleDialect) : Prop := DLt a b ∨ a = b

theorem insertSorted_weak (d : SimpleDialect) (hd : IsStr d) :
    ∀ xs : List SimpleDialect, (∀ x ∈ xs, IsStr x) → xs.Pairwise DLe →
      ∃ s, insertSorted d xs = .ok s ∧ s.Perm (d :: xs) ∧ s.Pairwise DLe
  | [], _, _ => ⟨[d], rfl, .refl _, by simp⟩
  | x :: xs, hx, hp => by
    have hxs := hx x (by simp)
    rw [insertSorted]
    have hp' := hp
    simp only [List.pairwise_cons] at hp
    rcases C18_strict_total_order.2.2 x d hxs hd with ⟨h, _, _⟩ | ⟨h, h', _⟩ | ⟨h, _, h'⟩
    · obtain ⟨s, h1, h2, h3⟩ := insertSorted_weak d hd xs (fun y hy => hx y (by simp [hy])) hp.2
      refine ⟨x :: s, by rw [h]; simp [h1], (h2.cons x).trans (.swap _ _ _), ?_⟩
      refine List.pairwise_cons.mpr ⟨fun y hy => ?_, h3⟩
      rcases List.mem_cons.mp (h2.mem_iff.mp hy) with rfl | hy
      · exact .inl h
      · exact hp.1 y hy
    · refine ⟨d :: x :: xs, by rw [h], .refl _, ?_⟩
      refine List.pairwise_cons.mpr ⟨fun y hy => ?_, hp'⟩
      rcases List.mem_cons.mp hy with rfl | hy
      · exact .inl h'
      · rcases hp.1 y hy with hl | rfl
        · exact .inl (C18_strict_total_order.2.1 d x y hd hxs (hx y (by simp [hy])) h' hl)
        · exact .inl h'
    · refine ⟨d :: x :: xs, by rw [h], .refl _, ?_⟩
      have := SimpleDialect.eq_true h'
      subst this
      refine List.pairwise_cons.mpr ⟨fun y hy => ?_, hp'⟩
      rcases List.mem_cons.mp hy with rfl | hy
      · exact .inr rfl
      · exact hp.1 y hy

theorem sortDialects_weak : ∀ l : List SimpleDialect, (∀ x ∈ l, IsStr x) →
    ∃ s, sortDialects l = .ok s ∧ s.Perm l ∧ s.Pairwise DLe
  | [], _ => ⟨[], rfl, .refl _, by simp⟩
  | x :: xs, hx => by
    obtain ⟨s, h1, h2, h3⟩ := sortDialects_weak xs (fun y hy => hx y (by simp [hy]))
    obtain ⟨t, h4, h5, h6⟩ := insertSorted_weak x (hx x (by simp)) s
      (fun y hy => hx y (by simp [h2.mem_iff.mp hy])) h3
    exact ⟨t, by rw [sortDialects, h1]; exact h4, h5.trans (h2.cons x), h6⟩

/-! ## Repetitions in the loop -/

/-- Put an element in front unless it is there already. -/
def consNew (x : SimpleDialect) : List SimpleDialect → List SimpleDialect
  | [] => [x]
  | y :: l => if x = y then y :: l else x :: y :: l

/-- Without neighbours that are equal. -/
def squeeze : List SimpleDialect → List SimpleDialect
  | [] => []
  | x :: l => consNew x (squeeze l)

theorem mem_consNew {a x : SimpleDialect} {l : List SimpleDialect} : a ∈ consNew x l ↔ a = x ∨ a ∈ l := by
  cases l with
  | nil => simp [consNew]
  | cons y l =>
    rw [consNew]
    split
    · rename_i h
      subst h
      simp
    · simp

theorem mem_squeeze {a : SimpleDialect} : ∀ {l : List SimpleDialect}, a ∈ squeeze l ↔ a ∈ l
  | [] => by simp [squeeze]
  | x :: l => by simp [squeeze, mem_consNew, mem_squeeze (l := l)]

theorem squeeze_sorted : ∀ {l : List SimpleDialect}, (∀ x ∈ l, IsStr x) → l.Pairwise DLe → (squeeze l).Pairwise DLt
  | [], _, _ => by simp [squeeze]
  | x :: l, hs, h => by
    rw [List.pairwise_cons] at h
    have ih := squeeze_sorted (fun y hy => hs y (by simp [hy])) h.2
    have hm : ∀ y ∈ squeeze l, DLe x y := fun y hy => h.1 y (mem_squeeze.1 hy)
    have hstr : ∀ y ∈ squeeze l, IsStr y := fun y hy => hs y (by simp [mem_squeeze.1 hy])
    rw [squeeze]
    cases hq : squeeze l with
    | nil => simp [consNew]
    | cons y r =>
      rw [hq] at ih hm hstr
      rw [consNew]
      split
      · exact ih
      · rename_i hxy
        have hxy' : DLt x y := (hm y (by simp)).resolve_right hxy
        refine List.pairwise_cons.2 ⟨?_, ih⟩
        intro z hz
        rcases List.mem_cons.1 hz with rfl | hz
        · exact hxy'
        · exact C18_strict_total_order.2.1 x y z (hs x (by simp)) (hstr y (by simp)) (hstr z (by simp [hz])) hxy'
            ((List.pairwise_cons.1 ih).1 z hz)

theorem dictSet_twice {K V : Type} [DecidableEq K] (s : List (K × V)) (k : K) (v : V) :
    dictSet (dictSet s k v) k v = dictSet s k v := by
  induction s with
  | nil => simp [dictSet]
  | cons p s ih =>
    obtain ⟨k', v'⟩ := p
    simp only [dictSet]
    split
    · rename_i h
      simp [dictSet, h]
    · rename_i h
      simp only [dictSet, if_neg h, ih]

section
variable {pat t : SimpleDialect → Except PyExc ℚ} {skip : Bool}

theorem loop_repeat (hle : ∀ d P T, pat d = .ok P → t d = .ok T → fl (P * T) ≤ P) (d : SimpleDialect)
    (ds : List SimpleDialect) (inc : Option ℚ) (cache : TypeCache) (s : List (SimpleDialect × ConsistencyScore)) :
    scoreLoop pat (fun c d => (t d, c)) skip (d :: d :: ds) inc cache s =
      scoreLoop pat (fun c d => (t d, c)) skip (d :: ds) inc cache s := by
  rw [scoreLoop]
  conv_rhs => rw [scoreLoop]
  cases hp : pat d with
  | error e => rfl
  | ok P =>
    simp only
    split
    · rename_i hb
      rw [scoreLoop, hp]
      simp only [hb, if_true, dictSet_twice]
    · rename_i hb
      cases ht : t d with
      | error e => rfl
      | ok T =>
        simp only
        rw [scoreLoop, hp]
        simp only
        have hq := hle d P T hp ht
        have hb' : (belowIncumbent P (some (maxScore inc (fl (P * T)))) && skip) = false := by
          cases skip with
          | false => simp
          | true =>
            cases inc with
            | none =>
              rw [belowIncumbent, maxScore, Bool.and_true]
              exact decide_eq_false (not_lt.2 hq)
            | some i =>
              simp only [belowIncumbent, Bool.and_true, decide_eq_true_eq, not_lt] at hb
              rw [belowIncumbent, maxScore, Bool.and_true]
              exact decide_eq_false (not_lt.2 (max_le hb hq))
        rw [hb']
        simp only [Bool.false_eq_true, if_false, ht, dictSet_twice]
        have hm : maxScore (some (maxScore inc (fl (P * T)))) (fl (P * T)) = maxScore inc (fl (P * T)) :=
          max_eq_left (le_maxScore_right _ _)
        rw [hm]

theorem loop_cons (d : SimpleDialect) {l l' : List SimpleDialect}
    (h : ∀ inc cache s, scoreLoop pat (fun c d => (t d, c)) skip l inc cache s =
      scoreLoop pat (fun c d => (t d, c)) skip l' inc cache s) (inc : Option ℚ) (cache : TypeCache)
    (s : List (SimpleDialect × ConsistencyScore)) :
    scoreLoop pat (fun c d => (t d, c)) skip (d :: l) inc cache s =
      scoreLoop pat (fun c d => (t d, c)) skip (d :: l') inc cache s := by
  rw [scoreLoop]
  conv_rhs => rw [scoreLoop]
  cases pat d with
  | error e => rfl
  | ok P =>
    simp only [h]

theorem loop_squeeze (hle : ∀ d P T, pat d = .ok P → t d = .ok T → fl (P * T) ≤ P) :
    ∀ (ds : List SimpleDialect) (inc : Option ℚ) (cache : TypeCache) (s : List (SimpleDialect × ConsistencyScore)),
      scoreLoop pat (fun c d => (t d, c)) skip ds inc cache s =
        scoreLoop pat (fun c d => (t d, c)) skip (squeeze ds) inc cache s
  | [], _, _, _ => rfl
  | d :: ds, inc, cache, s => by
    rw [loop_cons d (loop_squeeze hle ds) inc cache s, squeeze]
    cases hq : squeeze ds with
    | nil => rfl
    | cons y r =>
      rw [consNew]
      split
      · rename_i h
        subst h
        exact loop_repeat hle _ _ _ _ _
      · rfl

end

/-- The loop with a cache. -/
theorem scoreLoop_cache {pat : SimpleDialect → Except PyExc ℚ}
    {typ : TypeCache → SimpleDialect → Except PyExc ℚ × TypeCache} {t : SimpleDialect → Except PyExc ℚ}
    {Inv : TypeCache → Prop} (hI : ∀ c d, Inv c → (typ c d).1 = t d ∧ Inv (typ c d).2) (skip : Bool) :
    ∀ (ds : List SimpleDialect) (inc : Option ℚ) (cache : TypeCache)
      (scores : List (SimpleDialect × ConsistencyScore)), Inv cache →
      (scoreLoop pat typ skip ds inc cache scores).1 =
        (scoreLoop pat (fun c d => (t d, c)) skip ds inc [] scores).1 ∧
      Inv (scoreLoop pat typ skip ds inc cache scores).2
  | [], _, _, _, hc => ⟨rfl, hc⟩
  | d :: ds, inc, cache, scores, hc => by
    rw [scoreLoop, scoreLoop]
    cases hp : pat d with
    | error e => exact ⟨rfl, hc⟩
    | ok P =>
      simp only
      split
      · exact scoreLoop_cache hI skip ds _ _ _ hc
      · obtain ⟨h1, h2⟩ := hI cache d hc
        rcases ht : typ cache d with ⟨r, c'⟩
        rw [ht] at h1 h2
        simp only at h1 h2
        rw [← h1]
        cases r with
        | error e => exact ⟨rfl, h2⟩
        | ok T => exact scoreLoop_cache hI skip ds _ _ _ h2

theorem compute_used (env : PyEnv) (cap : Option Nat) (skip : Bool) {cache : TypeCache}
    (hc : CacheSound (fun c => isKnownType env c.1 c.2) cache) (limit : Int) (data : Str) (l : List SimpleDialect) :
    CacheSound (fun c => isKnownType env c.1 c.2) (computeConsistencyScores env cap skip cache limit data l).2 := by
  unfold computeConsistencyScores
  cases sortDialects l with
  | error e => exact hc
  | ok ds =>
    exact (scoreLoop_cache (t := fun d => typeScore env limit data d)
      (Inv := fun c => CacheSound (fun c => isKnownType env c.1 c.2) c)
      (fun c d hc => computeTypeScore_sound hc limit data d defaultEpsType) skip ds none cache [] hc).2

theorem used_sound {env : PyEnv} {cap : Option Nat} {cache : TypeCache} (h : Used env cap cache) :
    CacheSound (fun c => isKnownType env c.1 c.2) cache := by
  induction h with
  | new => intro p hp; cases hp
  | call _ skip limit data l ih => exact compute_used env cap skip ih limit data l

theorem compute_eq_squeeze (env : PyEnv) (cap : Option Nat) (skip : Bool) {cache : TypeCache} (hc : Used env cap cache)
    (limit : Int) (data : Str) (l : List SimpleDialect) (hs : ∀ d ∈ l, IsStr d) :
    ∃ S, (∀ d, d ∈ S ↔ d ∈ l) ∧ S.Pairwise DLt ∧
      (computeConsistencyScores env cap skip cache limit data l).1 =
        pureLoop (fun d => patternScore data d) (fun d => typeScore env limit data d) skip S none := by
  obtain ⟨s, h1, h2, h3⟩ := sortDialects_weak l hs
  have hstr : ∀ x ∈ s, IsStr x := fun x hx => hs x (h2.mem_iff.1 hx)
  have hsort := squeeze_sorted hstr h3
  have hnd : (squeeze s).Nodup := by
    refine hsort.imp_of_mem ?_
    rintro a b ha hb hab rfl
    have := C18_strict_total_order.1 a (hstr a (mem_squeeze.1 ha))
    rw [DLt, this] at hab
    cases hab
  refine ⟨squeeze s, fun d => by rw [mem_squeeze, h2.mem_iff], hsort, ?_⟩
  unfold computeConsistencyScores
  rw [h1]
  simp only
  rw [(scoreLoop_cache (t := fun d => typeScore env limit data d)
      (Inv := fun c => CacheSound (fun c => isKnownType env c.1 c.2) c)
      (fun c d hc => computeTypeScore_sound hc limit data d defaultEpsType) skip s none cache [] (used_sound hc)).1,
    loop_squeeze (fun d P T hP hT => score_le hP hT),
    scoreLoop_eq (t := fun d => typeScore env limit data d) (Inv := fun _ => True) (fun _ _ _ => ⟨rfl, trivial⟩) skip
      (squeeze s) none [] [] trivial hnd (by simp)]
  cases pureLoop (fun d => patternScore data d) (fun d => typeScore env limit data d) skip (squeeze s) none <;>
    simp [Except.map]

end Clever

namespace Clever.Props

open Clever Spec

/-- **C107**, the set only: for lists with the same dialects, in any order and with any repetitions, and whatever the
detectors have been used for before, the scores are the same, or the same exception is raised. -/
theorem C107_same (env : PyEnv) (cap cap' : Option Nat) (skip : Bool) (cache cache' : TypeCache)
    (hc : Used env cap cache) (hc' : Used env cap' cache') (limit : Int) (data : Str) (l l' : List SimpleDialect)
    (hs : ∀ d ∈ l, IsStr d) (h : ∀ d, d ∈ l ↔ d ∈ l') :
    (computeConsistencyScores env cap skip cache limit data l).1 =
      (computeConsistencyScores env cap' skip cache' limit data l').1 := by
  obtain ⟨S, h1, h2, h3⟩ := compute_eq_squeeze env cap skip hc limit data l hs
  obtain ⟨S', h1', h2', h3'⟩ := compute_eq_squeeze env cap' skip hc' limit data l' (fun d hd => hs d ((h d).2 hd))
  rw [h3, h3', sorted_ext (fun x hx => hs x ((h1 x).1 hx)) h2 h2' fun x => by rw [h1, h1', h]]

/-- **C107**, the keys: every dialect of the list is scored once, in the order of dialects. -/
theorem C107_keys (env : PyEnv) (cap : Option Nat) (skip : Bool) (cache : TypeCache) (hc : Used env cap cache)
    (limit : Int) (data : Str) (l : List SimpleDialect) (hs : ∀ d ∈ l, IsStr d)
    (scores : List (SimpleDialect × ConsistencyScore))
    (h : (computeConsistencyScores env cap skip cache limit data l).1 = .ok scores) :
    (∀ d, d ∈ scores.map Prod.fst ↔ d ∈ l) ∧ (scores.map Prod.fst).Pairwise fun a b => a.lt b = .ok true := by
  obtain ⟨S, h1, h2, h3⟩ := compute_eq_squeeze env cap skip hc limit data l hs
  rw [h3] at h
  have := pureLoop_keys _ _ _ h
  rw [this]
  exact ⟨h1, h2⟩

/-- **C107**, the best dialects: those of the list with the largest product of scores, whether dialects are skipped or
not. -/
theorem C107_best (env : PyEnv) (cap : Option Nat) (skip : Bool) (cache : TypeCache) (hc : Used env cap cache)
    (limit : Int) (data : Str) (l : List SimpleDialect) (hs : ∀ d ∈ l, IsStr d) (hl : l ≠ [])
    (scores : List (SimpleDialect × ConsistencyScore))
    (h : (computeConsistencyScores env cap skip cache limit data l).1 = .ok scores) :
    getBestDialects scores ≠ [] ∧ (getBestDialects scores).Pairwise (fun a b => a.lt b = .ok true) ∧
    ∀ d, d ∈ getBestDialects scores ↔
      d ∈ l ∧ ∃ q, HasScore env limit data d q ∧ ∀ d' ∈ l, ∀ q', HasScore env limit data d' q' → q' ≤ q := by
  obtain ⟨S, h1, h2, h3⟩ := compute_eq_squeeze env cap skip hc limit data l hs
  rw [h3] at h
  have hne : S ≠ [] := by
    rintro rfl
    cases l with
    | nil => exact hl rfl
    | cons a r => simpa using (h1 a).2 (by simp)
  obtain ⟨b1, b2, b3⟩ := best_spec (fun d P T hP hT => score_le hP hT) hne h
  refine ⟨b2, h2.sublist b1, ?_⟩
  intro d
  rw [b3, h1]
  refine and_congr_right fun _ => ?_
  constructor
  · rintro ⟨P, T, hP, hT, hm⟩
    refine ⟨_, ⟨P, T, hP, hT, rfl⟩, ?_⟩
    rintro d' hd' q' ⟨P', T', hP', hT', rfl⟩
    exact hm d' ((h1 d').2 hd') P' T' hP' hT'
  · rintro ⟨q, ⟨P, T, hP, hT, rfl⟩, hm⟩
    exact ⟨P, T, hP, hT, fun d' hd' P' T' hP' hT' => hm d' ((h1 d').1 hd') _ ⟨P', T', hP', hT', rfl⟩⟩

/-! Examples -/

/-- Three dialects in two lists. -/
def demoDialects : List SimpleDialect := [mkDialect [';'] [] [], mkDialect [] [] [], mkDialect [','] [] []]

def demoDialects' : List SimpleDialect :=
  [mkDialect [] [] [], mkDialect [','] [] [], mkDialect [';'] [] [], mkDialect [','] [] [], mkDialect [] [] []]

example : (∀ d ∈ demoDialects, IsStr d) ∧ (∀ d ∈ demoDialects, d ∈ demoDialects') ∧
    (∀ d ∈ demoDialects', d ∈ demoDialects) ∧ demoDialects ≠ demoDialects' := by decide +kernel

example : ((computeConsistencyScores asciiEnv none true [] 100 "a,b\nc,d;e\n".toList demoDialects').1.map fun s =>
    s.map Prod.fst) = .ok [mkDialect [','] [] [], mkDialect [';'] [] [], mkDialect [] [] []] ∧
    ((computeConsistencyScores asciiEnv none true [] 100 "a,b\nc,d;e\n".toList demoDialects').1.map getBestDialects) =
      .ok [mkDialect [','] [] []] := by decide +kernel

end Clever.Props
