import Verif.Proofs.ConsistencyWins
import Verif.Proofs.Urls
import Verif.Props.Candidates

/-!
# Delimiters that URLs do not hide
-/

namespace Clever.Props

open Clever Spec

theorem subAux_keeps {r : Re} {c : Char} (h : r.Avoids c) (rep : Str) : ∀ (s : Str) (k : Nat) (pre : Str),
    c ∈ s.drop k → c ∈ r.subAux rep k pre s := by
  intro s
  induction s with
  | nil => intro k pre hc; simp at hc
  | cons x s ih =>
    intro k pre hc
    cases k with
    | succ k => exact ih k (x :: pre) (by simpa using hc)
    | zero =>
      rw [List.drop_zero] at hc
      unfold Re.subAux
      cases hr : (r.run ⟨pre, x :: s, []⟩).head? with
      | none =>
        simp only
        rcases List.mem_cons.1 hc with rfl | hc
        · simp
        · exact List.mem_cons_of_mem _ (ih 0 (x :: pre) (by simpa using hc))
      | some t =>
        simp only
        obtain ⟨⟨w, hw, hcw⟩, -⟩ := h.run ⟨pre, x :: s, []⟩ t (by simp) (List.mem_of_mem_head? hr)
        simp only at hw
        split
        · rename_i hle
          refine List.mem_append_right _ (ih _ (x :: pre) ?_)
          rw [hw] at hc
          have hct : c ∈ t.rest := by
            rcases List.mem_append.1 hc with hc | hc
            · exact absurd hc hcw
            · exact hc
          cases w with
          | nil =>
            rw [List.nil_append] at hw
            rw [← hw] at hle
            simp at hle
          | cons y w =>
            rw [List.cons_append] at hw
            have hs : s = w ++ t.rest := (List.cons.inj hw).2
            rw [hs]
            have : (w ++ t.rest).length - t.rest.length = w.length := by simp
            rw [this, List.drop_left]
            exact hct
        · rcases List.mem_cons.1 hc with rfl | hc
          · simp
          · exact List.mem_cons_of_mem _ (ih 0 (x :: pre) (by simpa using hc))

theorem avoids_lit {c : Char} : ∀ {w : List Char}, (∀ x ∈ w, c ≠ x) → (Re.lit w).Avoids c
  | [], _ => trivial
  | [x], h => by simpa [Re.lit, Re.chr, Re.Avoids] using h x (by simp)
  | x :: y :: w, h => ⟨by simpa [Re.chr, Re.Avoids] using h x (by simp), avoids_lit fun z hz => h z (by simp [hz])⟩

theorem avoids_times {c : Char} {a : Re} (h : a.Avoids c) : ∀ n, (a.times n).Avoids c
  | 0 => trivial
  | 1 => h
  | n + 2 => ⟨h, avoids_times h (n + 1)⟩

theorem avoids_upto {c : Char} {a : Re} (h : a.Avoids c) : ∀ n, (a.upto n).Avoids c
  | 0 => trivial
  | n + 1 => ⟨⟨h, avoids_upto h n⟩, trivial⟩

theorem avoids_between {c : Char} {a : Re} (h : a.Avoids c) (m n : Nat) : (a.between m n).Avoids c :=
  ⟨avoids_times h m, avoids_upto h _⟩

theorem avoids_opt {c : Char} {a : Re} (h : a.Avoids c) : a.opt.Avoids c := ⟨h, trivial⟩

theorem avoids_plus {c : Char} {a : Re} (h : a.Avoids c) : a.plus.Avoids c := ⟨h, h⟩

theorem avoids_atLeast {c : Char} {a : Re} (h : a.Avoids c) (m : Nat) : (a.atLeast m).Avoids c := ⟨avoids_times h m, h⟩

theorem url_avoids {env : PyEnv} (h : env.Ascii) {c : Char} (hc : OutsideUrls c) : (reUrl env).Avoids c := by
  obtain ⟨h1, h2, h3⟩ := hc
  have key : ∀ a b : Char, (∀ x : Nat, a.toNat ≤ x → x ≤ b.toNat →
      (97 ≤ x ∧ x ≤ 122) ∨ (65 ≤ x ∧ x ≤ 90) ∨ (48 ≤ x ∧ x ≤ 57)) → rng a b c = false := by
    intro a b hab
    rw [← Bool.not_eq_true, rng_iff]
    rintro ⟨i1, i2⟩
    simp only [alnum, low, Bool.or_eq_false_iff, Bool.and_eq_false_iff, decide_eq_false_iff_not] at h2
    have := hab c.toNat i1 i2
    omega
  have hlow : rng 'a' 'z' c = false := key _ _ fun x i1 i2 => .inl ⟨i1, i2⟩
  have hupp : rng 'A' 'Z' c = false := key _ _ fun x i1 i2 => .inr (.inl ⟨i1, i2⟩)
  have hdig : rng '0' '9' c = false := key _ _ fun x i1 i2 => .inr (.inr ⟨i1, i2⟩)
  have el : env.letter c = false := by rw [h.letter c h1]; simp only [rng] at hlow hupp; simp only [isLow, isUpp, hlow, hupp]; rfl
  have en : env.number c = false := by rw [h.number c h1]; exact hdig
  have ed : env.decimal c = false := by rw [h.decimal c h1]; exact hdig
  have hne : ∀ w : List Char, (∀ x ∈ w, alnum x = true ∨ x ∈ "_/()~?=&%-#.:".toList) → (Re.lit w).Avoids c := by
    refine fun w hw => avoids_lit fun x hx => ?_
    rintro rfl
    rcases hw c hx with i | i
    · rw [h2] at i; cases i
    · exact h3 i
  have hch : ∀ x : Char, (alnum x = true ∨ x ∈ "_/()~?=&%-#.:".toList) → (Re.chr x).Avoids c := by
    intro x hx
    exact hne [x] (by simpa using hx)
  have ho : oneOf "_/()~?=&%-#.:".toList c = false := by
    unfold oneOf
    rw [← Bool.not_eq_true, List.contains_iff_mem]
    exact h3
  have hdec : (Re.cls env.decimal).Avoids c := ed
  have h13 : ((Re.cls env.decimal).between 1 3).Avoids c := avoids_between hdec 1 3
  have hport : (rePort env).Avoids c := avoids_opt ⟨hch ':' (by decide), avoids_between hdec 1 5⟩
  have hdot := hch '.' (by decide)
  have hword : (Re.cls (fun c => env.letter c || env.number c || c = '-')).Avoids c := by
    have : c ≠ '-' := fun h0 => h3 (by rw [h0]; decide)
    simp [Re.Avoids, el, en, this]
  have htail : (Re.cls (fun c => env.letter c || env.number c || oneOf "_/()~?=&%-#.:".toList c)).Avoids c := by
    simp only [Re.Avoids, el, en, ho]; rfl
  have hl : (Re.cls (rng 'a' 'z')).Avoids c := hlow
  have p1 : (Re.opt (Re.cat [.alt (.seq (Re.lit "http".toList) (Re.opt (Re.chr 's'))) (Re.lit "ftp".toList),
      Re.lit "://".toList, .nahead (Re.chr '-')])).Avoids c :=
    avoids_opt ⟨⟨⟨hne _ (by decide), avoids_opt (hch 's' (by decide))⟩, hne _ (by decide)⟩, hne _ (by decide), trivial⟩
  have p2 : (reHost env).Avoids c :=
    ⟨⟨avoids_plus ⟨avoids_plus hword, hdot⟩, ⟨avoids_atLeast hl 2, hne _ (by decide)⟩,
        avoids_opt ⟨hdot, avoids_between hl 2 3⟩⟩,
      ⟨hne _ (by decide), hport⟩, h13, hdot, h13, hdot, h13, hdot, h13, hport⟩
  exact ⟨p1, p2, avoids_opt ⟨hch '/' (by decide), htail⟩, avoids_opt ⟨hdot, avoids_plus hl⟩⟩

theorem outside_kept {env : PyEnv} (h : env.Ascii) {c : Char} (hc : OutsideUrls c) {t : Str} (ht : c ∈ t) :
    c ∈ filterUrls env t := subAux_keeps (url_avoids h hc) _ _ _ _ (by simpa using ht)

theorem delim_mem {d : Char} {n : Nat} {good : Str → Prop} {t : Str} (h : ConsistentText d n good t) (hn : 2 ≤ n) :
    d ∈ t := by
  obtain ⟨h1, h2⟩ := h.head
  obtain ⟨l, hl⟩ := List.exists_mem_of_length_pos (nonblank_pos h1 h.noNul h2)
  obtain ⟨hl1, hl2⟩ := List.mem_filter.1 hl
  have hw := h.width l hl1 (by simpa using hl2)
  have hdl : d ∈ l := by
    by_contra hd
    rw [splitOn_absent hd] at hw
    omega
  have hrec := records_textLines NUL t h.noNul
  exact mem_records NUL d t false l (by rw [hrec]; exact hl1) hdl

theorem consistent_candidate {env : PyEnv} (ha : env.Ascii) {ord : SetOrder} {allowed : Option (List Str)} {d : Char}
    {n : Nat} {good : Str → Prop} {t : Str} (h : ConsistentText d n good t) (hn : 2 ≤ n) (hd : OutsideUrls d)
    (hdel : DelimChar env allowed d) : mkDialect [d] [] [] ∈ getDialects env ord t allowed :=
  (C30_candidates_iff ..).2 ⟨[d], [], [], rfl,
    .inr ⟨d, outside_kept ha hd (delim_mem h hn), rfl, hdel⟩, .inl rfl, .inl rfl⟩

theorem countD_none (q e : Char) (t : Str) (hnul : NUL ∉ t) : (baseAbstraction NUL q e t).count 'D' = 0 := by
  have key : ∀ (t : Str) (st : AbsState), NUL ∉ t →
      (t.foldl (absStep NUL q e) st).1.count 'D' = st.1.count 'D' := by
    intro t
    induction t with
    | nil => intro st _; rfl
    | cons x t ih =>
      intro st hx
      rw [List.foldl_cons, ih _ fun hh => hx (by simp [hh])]
      have hxn : x ≠ NUL := fun hh => hx (by simp [hh])
      unfold absStep
      rw [if_neg hxn]
      split
      · unfold pushNew; split <;> simp
      · split
        · split <;> simp
        · split
          · split
            · unfold pushNew; split <;> simp
            · rfl
          · unfold pushNew; split <;> simp
  unfold baseAbstraction
  rw [List.count_reverse, key t _ hnul]
  rfl

/-- Without a delimiter there is one cell. -/
theorem one_cell {q e : Char} {t p : Str} (hnul : NUL ∉ t) (hall : ∀ r ∈ splitOn 'R' (abstraction NUL q e t), r = p) :
    (splitOn 'D' p).length ≤ 1 := by
  obtain ⟨r, hr⟩ := List.exists_mem_of_length_pos (length_splitOn_pos 'R' (abstraction NUL q e t))
  rw [← hall r hr, length_splitOn]
  have h1 := (splitOn_sublist hr).count_le 'D'
  have h2 := count_abstraction (c := 'D') (by decide) NUL q e t
  have h3 := countD_none q e t hnul
  omega

end Clever.Props
