import Verif.Model.TypeCache

namespace Clever

/-- Every entry of the cache is what the function returns. -/
def CacheSound {K V E : Type} (f : K → Except E V) (cache : List (K × V)) : Prop :=
  ∀ p ∈ cache, f p.1 = .ok p.2

section
variable {K V E : Type} [DecidableEq K] {cap : Option Nat} {f : K → Except E V}

theorem lruCall_sound {cache : List (K × V)} (h : CacheSound f cache) (k : K) :
    (lruCall cap f cache k).1 = f k ∧ CacheSound f (lruCall cap f cache k).2 := by
  unfold lruCall
  split
  · exact ⟨rfl, h⟩
  · split
    · rename_i p hp
      have hm := List.mem_of_find?_eq_some hp
      have hk : p.1 = k := by simpa using List.find?_some hp
      have hv := h p hm
      rw [hk] at hv
      refine ⟨hv.symm, ?_⟩
      intro q hq
      rcases List.mem_cons.1 hq with rfl | hq
      · exact hv
      · exact h q (List.mem_filter.1 hq).1
    · split
      · rename_i e he
        exact ⟨he.symm, h⟩
      · rename_i v hv
        refine ⟨hv.symm, ?_⟩
        have hc : CacheSound f ((k, v) :: cache) := by
          intro q hq
          rcases List.mem_cons.1 hq with rfl | hq
          · exact hv
          · exact h q hq
        simp only
        split
        · exact hc
        · intro q hq
          exact hc q (List.mem_of_mem_take hq)

theorem lruCalls_sound {cache : List (K × V)} (h : CacheSound f cache) (ks : List K) :
    (lruCalls cap f cache ks).1 = ks.map f ∧ CacheSound f (lruCalls cap f cache ks).2 := by
  induction ks generalizing cache with
  | nil => exact ⟨rfl, h⟩
  | cons k ks ih =>
    have h1 := lruCall_sound (cap := cap) h k
    have h2 := ih h1.2
    simp only [lruCalls, List.map_cons, h1.1, h2.1]
    exact ⟨trivial, h2.2⟩

theorem lruCall_length {cache : List (K × V)} {n : Nat} (h : cache.length ≤ n)
    (k : K) : (lruCall (some n) f cache k).2.length ≤ n := by
  unfold lruCall
  split
  · exact h
  · split
    · rename_i p hp
      have hm := List.mem_of_find?_eq_some hp
      have hk : p.1 = k := by simpa using List.find?_some hp
      have : (cache.filter (fun p => p.1 ≠ k)).length < cache.length := by
        apply List.length_filter_lt_length_iff_exists.2
        exact ⟨p, hm, by simp [hk]⟩
      simp only [List.length_cons]
      omega
    · split
      · exact h
      · simp only [List.length_take]
        omega

end

theorem countCached_sound {cap : Option Nat} {f : Str × Bool → Except PyExc Bool} {cache : TypeCache}
    (h : CacheSound f cache) (cs : List (Str × Bool)) :
    (countCached cap f cache cs).1 = countKnown f cs ∧ CacheSound f (countCached cap f cache cs).2 := by
  induction cs generalizing cache with
  | nil => exact ⟨rfl, h⟩
  | cons c cs ih =>
    have h1 := lruCall_sound (cap := cap) h c
    have h2 := ih h1.2
    simp only [countCached, countKnown]
    rw [h1.1]
    cases hf : f c with
    | error e => exact ⟨rfl, h1.2⟩
    | ok b =>
      simp only
      rw [h2.1]
      cases hk : countKnown f cs with
      | error e => exact ⟨rfl, h2.2⟩
      | ok n => exact ⟨rfl, h2.2⟩

theorem computeTypeScore_sound {env : PyEnv} {cap : Option Nat} {cache : TypeCache}
    (h : CacheSound (fun c => isKnownType env c.1 c.2) cache) (limit : Int) (data : Str) (d : SimpleDialect)
    (eps : ℚ) :
    (computeTypeScore env cap cache limit data d eps).1 = typeScore env limit data d eps ∧
      CacheSound (fun c => isKnownType env c.1 c.2) (computeTypeScore env cap cache limit data d eps).2 := by
  unfold computeTypeScore typeScore typeScoreWith
  have h1 := countCached_sound (cap := cap) h (parseStringQuoted limit d data).1.flatten
  simp only
  rw [h1.1]
  cases countKnown (fun c => isKnownType env c.1 c.2) (parseStringQuoted limit d data).1.flatten with
  | error e => exact ⟨rfl, h1.2⟩
  | ok n =>
    simp only
    cases (parseStringQuoted limit d data).2 with
    | some e => exact ⟨rfl, h1.2⟩
    | none => exact ⟨rfl, h1.2⟩

end Clever
