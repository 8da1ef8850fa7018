import Verif.Proofs.Abstraction
import Verif.Proofs.AbstractionRows

/-!
# Size of an abstraction
-/

namespace Clever

theorem length_base (d q e : Char) (data : Str) : (baseAbstraction d q e data).length ≤ data.length := by
  have step : ∀ (st : AbsState) (s : Char), (absStep d q e st s).1.length ≤ st.1.length + 1 := by
    intro st s
    have hp : ∀ x, (pushNew x st.1).length ≤ st.1.length + 1 := by
      intro x; unfold pushNew; split <;> simp
    unfold absStep
    repeat' split
    all_goals first | exact hp _ | simp
  have aux : ∀ (data : Str) (st : AbsState), (data.foldl (absStep d q e) st).1.length ≤ st.1.length + data.length := by
    intro data
    induction data with
    | nil => intro st; simp
    | cons s rest ih =>
      intro st
      have h1 := ih (absStep d q e st s)
      have h2 := step st s
      simp only [List.foldl_cons, List.length_cons]
      omega
  simpa [baseAbstraction] using aux data ([], false)

theorem length_mergeLoop (s : Str) (blk : Option Str) :
    (mergeLoop s blk).length = s.length + (blk.getD []).length := by
  induction s, blk using mergeLoop.induct with
  | case1 => simp [mergeLoop]
  | case2 blk => simp [mergeLoop]
  | case3 s rest hs ih =>
    rw [mergeLoop, if_pos hs]
    simp only [List.length_cons, ih]
    simp
  | case4 s rest hs ih =>
    rw [mergeLoop, if_neg hs, ih]
    simp
  | case5 s rest blk hs ih =>
    rw [mergeLoop.eq_def]; simp only [hs, if_true, ne_eq, not_false_eq_true]
    rw [ih]; simp; omega
  | case6 s blk hs =>
    rw [mergeLoop.eq_def]; simp [hs]; omega
  | case7 s blk hs rest' ih =>
    rw [mergeLoop.eq_def]; simp [hs]
    rw [ih]; simp; omega
  | case8 s blk hs t rest' ht ih =>
    rw [mergeLoop.eq_def]; simp [hs, ht]
    rw [ih]; simp; omega

theorem count_fill {c : Char} (hc : c ≠ 'C') (prev : Char) (s : Str) : (fill prev s).count c = s.count c := by
  induction s generalizing prev with
  | nil => unfold fill; split <;> simp [Ne.symm hc]
  | cons x rest ih =>
    rw [fill, List.count_append, List.count_append, ih, List.count_cons]
    have h1 : (if gap prev x = true then ['C'] else []).count c = 0 := by split <;> simp [Ne.symm hc]
    rw [h1]
    by_cases hx : prev = 'C' ∧ x = 'C'
    · rw [if_pos hx]; simp [hx.2, Ne.symm hc]
    · rw [if_neg hx, List.count_singleton]; omega

theorem length_fill (prev : Char) (s : Str) : (fill prev s).length ≤ 2 * s.length + 1 := by
  induction s generalizing prev with
  | nil => unfold fill; split <;> simp
  | cons x rest ih =>
    rw [fill]
    have h1 : (if gap prev x = true then ['C'] else []).length ≤ 1 := by split <;> simp
    have h2 : (if prev = 'C' ∧ x = 'C' then [] else [x]).length ≤ 1 := by split <;> simp
    have := ih x
    simp only [List.length_append, List.length_cons]
    omega

theorem count_two {a b : Char} (h : a ≠ b) (s : Str) : s.count a + s.count b ≤ s.length := by
  induction s with
  | nil => simp
  | cons x rest ih =>
    simp only [List.count_cons, List.length_cons, beq_iff_eq]
    split <;> split <;> simp_all <;> omega

theorem makeAbstraction_size {data : Str} {dl : SimpleDialect} {A : Str} (h : makeAbstraction data dl = .ok A) :
    A.count 'R' + A.count 'D' ≤ data.length ∧ A.length ≤ 2 * data.length + 1 := by
  obtain ⟨d, q, e, -, -, -, rfl⟩ := makeAbstraction_ok data dl A h
  have h1 : (mergeWithQuotechar (baseAbstraction d q e data)).length ≤ data.length := by
    rw [mergeWithQuotechar, length_mergeLoop]
    simpa using length_base d q e data
  rw [abstraction, fillEmpties_eq]
  obtain ⟨⟨k, hk⟩, -⟩ := stripTrailing_spec (fill 'R' (mergeWithQuotechar (baseAbstraction d q e data)))
  have hsub : (stripTrailing (fill 'R' (mergeWithQuotechar (baseAbstraction d q e data)))).Sublist
      (fill 'R' (mergeWithQuotechar (baseAbstraction d q e data))) := by
    conv => rhs; rw [hk]
    exact List.sublist_append_left _ _
  have c1 := hsub.count_le 'R'
  have c2 := hsub.count_le 'D'
  have c3 := hsub.length_le
  rw [count_fill (by decide)] at c1 c2
  have := count_two (a := 'R') (b := 'D') (by decide) (mergeWithQuotechar (baseAbstraction d q e data))
  have := length_fill 'R' (mergeWithQuotechar (baseAbstraction d q e data))
  exact ⟨by omega, by omega⟩

theorem length_splitOn (d : Char) (s : Str) : (Spec.splitOn d s).length = s.count d + 1 := by
  induction s with
  | nil => simp [Spec.splitOn]
  | cons x rest ih =>
    by_cases h : x = d
    · simp [Spec.splitOn, h, ih]
    · rw [length_splitOn_cons d x rest h, ih, List.count_cons]
      simp [h]

theorem splitOn_sublist {d : Char} {s p : Str} (h : p ∈ Spec.splitOn d s) : p.Sublist s := by
  induction s generalizing p with
  | nil => simp [Spec.splitOn] at h; simp [h]
  | cons x rest ih =>
    rw [Spec.splitOn] at h
    split at h
    · rcases List.mem_cons.1 h with rfl | h
      · simp
      · exact (ih h).trans (List.sublist_cons_self _ _)
    · cases hs : Spec.splitOn d rest with
      | nil => rw [hs] at h; simp [Spec.consHead] at h; subst h; simp
      | cons y ys =>
        rw [hs] at h
        simp only [Spec.consHead, List.mem_cons] at h
        rcases h with rfl | h
        · exact (ih (by rw [hs]; simp)).cons_cons _
        · exact (ih (by rw [hs]; simp [h])).trans (List.sublist_cons_self _ _)

end Clever
