import Verif.Proofs.CommandLine

namespace Clever

theorem parse_of_line {cmd : Cmd} (hc : cmd.Ok) {env : PyEnv} (he : env.Ascii) (toInt : Str → Option Int)
    {ts : List Str} {occs : List Occ} {ws : List Str} (h : Line cmd ts occs ws) :
    cmd.parse env toInt ts = cmd.checks toInt occs ws := by
  cases h with
  | mixed before after ws hb ha h0 h1 hw => exact parse_line hc he toInt hb ha h0 h1 hw
  | dashes before ws hb h0 h1 => exact parse_dashes hc he toInt hb h0 h1

theorem piece_opts {cmd : Cmd} {p : Piece} (hp : p.Good cmd) : ∀ x ∈ p.occs, x.opt ∈ cmd.opts := by
  intro x hx
  cases p with
  | letters fs l v =>
    simp only [Piece.occs, List.mem_append, List.mem_map, List.mem_singleton] at hx
    rcases hx with ⟨f, hf, rfl⟩ | rfl
    · exact (hp.1 f hf).1
    · exact hp.2.1
  | name o a v =>
    simp only [Piece.occs, List.mem_singleton] at hx
    subst hx; exact hp.1

theorem given_opts {cmd : Cmd} {ps : List Piece} (hp : ∀ p ∈ ps, p.Good cmd) : ∀ x ∈ givenBy ps, x.opt ∈ cmd.opts := by
  intro x hx
  obtain ⟨p, hp', hx'⟩ := List.mem_flatMap.mp hx
  exact piece_opts (hp p hp') x hx'

theorem line_opts {cmd : Cmd} {ts : List Str} {occs : List Occ} {ws : List Str} (h : Line cmd ts occs ws) :
    ∀ x ∈ occs, x.opt ∈ cmd.opts := by
  cases h with
  | mixed before after ws hb ha h0 h1 hw =>
    exact given_opts fun p hp => (List.mem_append.mp hp).elim (hb p) (ha p)
  | dashes before ws hb h0 h1 => exact given_opts hb

theorem line_paths {cmd : Cmd} {ts : List Str} {occs : List Occ} {ws : List Str} (h : Line cmd ts occs ws)
    (hm : cmd.many = false) : ∃ p, ws = [p] := by
  cases h with
  | mixed before after ws hb ha h0 h1 hw => exact List.length_eq_one_iff.mp (h1 hm)
  | dashes before ws hb h0 h1 => exact List.length_eq_one_iff.mp (h1 hm)

theorem long_iff {cmd : Cmd} (hc : cmd.Ok) {o x : Opt} (ho : o ∈ cmd.opts) (hx : x ∈ cmd.opts) :
    x.long = o.long ↔ x = o :=
  ⟨fun h => hc.longs x hx o ho h, fun h => by rw [h]⟩

theorem givenOpt_iff {cmd : Cmd} (hc : cmd.Ok) {occs : List Occ} (hx : ∀ x ∈ occs, x.opt ∈ cmd.opts) {o : Opt}
    (ho : o ∈ cmd.opts) : givenOpt occs o.long = true ↔ Flagged occs o := by
  simp only [givenOpt, List.any_eq_true, beq_iff_eq, Flagged]
  constructor
  · rintro ⟨x, hm, h⟩; exact ⟨x, hm, (long_iff hc ho (hx x hm)).mp h⟩
  · rintro ⟨x, hm, h⟩; exact ⟨x, hm, by rw [h]⟩

theorem givenOpt_bool {cmd : Cmd} (hc : cmd.Ok) {occs : List Occ} (hx : ∀ x ∈ occs, x.opt ∈ cmd.opts) {o : Opt}
    (ho : o ∈ cmd.opts) {b : Bool} (hb : b = true ↔ Flagged occs o) : givenOpt occs o.long = b := by
  have := givenOpt_iff hc hx ho
  rw [← hb] at this
  exact Bool.eq_iff_iff.mpr this

theorem allValues_app (a b : List Occ) (n : Str) : allValues (a ++ b) n = allValues a n ++ allValues b n := by
  simp [allValues]

theorem allValues_nil {cmd : Cmd} (hc : cmd.Ok) {occs : List Occ} (hx : ∀ x ∈ occs, x.opt ∈ cmd.opts) {o : Opt}
    (ho : o ∈ cmd.opts) (h : ∀ x ∈ occs, x.opt ≠ o) : allValues occs o.long = [] := by
  rw [allValues, List.filterMap_eq_nil_iff]
  intro x hm
  rw [if_neg]
  intro e
  exact h x hm ((long_iff hc ho (hx x hm)).mp e)

theorem lastValue_eq {cmd : Cmd} (hc : cmd.Ok) {occs : List Occ} (hx : ∀ x ∈ occs, x.opt ∈ cmd.opts) {o : Opt}
    (ho : o ∈ cmd.opts) {v : Option Str} (h : LastIs occs o v) : lastValue occs o.long = v := by
  cases v with
  | none => rw [lastValue, allValues_nil hc hx ho h]; rfl
  | some v =>
    obtain ⟨a, b, rfl, hb⟩ := h
    have hb' := allValues_nil hc (occs := b) (fun x hm => hx x (by simp [hm])) ho hb
    have e : a ++ ⟨o, some v⟩ :: b = (a ++ [⟨o, some v⟩]) ++ b := by simp
    rw [lastValue, e, allValues_app, hb', List.append_nil, allValues_app]
    simp [allValues]

theorem filterMap_ite {α β : Type} (l : List α) (p : α → Prop) [DecidablePred p] (f : α → Option β) :
    l.filterMap (fun x => if p x then f x else none) = (l.filter fun x => decide (p x)).filterMap f := by
  induction l with
  | nil => rfl
  | cons a l ih =>
    by_cases h : p a
    · rw [List.filter_cons_of_pos (by simpa using h), List.filterMap_cons, List.filterMap_cons, ih, if_pos h]
    · rw [List.filter_cons_of_neg (by simpa using h), List.filterMap_cons, ih, if_neg h]

theorem allValues_filter {cmd : Cmd} (hc : cmd.Ok) {occs : List Occ} (hx : ∀ x ∈ occs, x.opt ∈ cmd.opts) {o : Opt}
    (ho : o ∈ cmd.opts) :
    allValues occs o.long = (occs.filter fun x => decide (x.opt = o)).filterMap Occ.value := by
  rw [allValues, filterMap_ite]
  congr 1
  apply List.filter_congr
  intro x hm
  simp only [decide_eq_decide]
  exact long_iff hc ho (hx x hm)

theorem allValues_eq {cmd : Cmd} (hc : cmd.Ok) {occs : List Occ} (hx : ∀ x ∈ occs, x.opt ∈ cmd.opts) {o : Opt}
    (ho : o ∈ cmd.opts) {vs : List Str} (h : AllAre occs o vs) : allValues occs o.long = vs := by
  rw [allValues_filter hc hx ho, h, List.filterMap_map]
  simp [Function.comp_def]

/-- All the texts given for a number are numbers. -/
theorem numbers_ok {cmd : Cmd} (hc : cmd.Ok) {toInt : Str → Option Int} {occs : List Occ}
    (hx : ∀ x ∈ occs, x.opt ∈ cmd.opts) {o : Opt} (ho : o ∈ cmd.opts) {n : Option Int} (h : NumberIs toInt occs o n) :
    (allValues occs o.long).any (fun v => (toInt v).isNone) = false := by
  rw [List.any_eq_false]
  intro v hv
  rw [allValues_filter hc hx ho] at hv
  obtain ⟨x, hm, hxv⟩ := List.mem_filterMap.mp hv
  rw [List.mem_filter] at hm
  obtain ⟨v', i, h1, h2⟩ := h.1 x hm.1 (by simpa using hm.2)
  rw [h1] at hxv
  cases hxv
  simp [h2]

theorem numCharsOf_eq {cmd : Cmd} (hc : cmd.Ok) {toInt : Str → Option Int} {occs : List Occ}
    (hx : ∀ x ∈ occs, x.opt ∈ cmd.opts) (ho : optNumChars ∈ cmd.opts) {n : Option Int}
    (h : NumberIs toInt occs optNumChars n) : numCharsOf toInt occs = n := by
  obtain ⟨-, v, h1, h2⟩ := h
  have := lastValue_eq hc hx ho h1
  unfold numCharsOf
  rw [show "num-chars".toList = optNumChars.long from rfl, this, h2]

/-- The result depends only on the values given for each option. -/
theorem same_values {cmd : Cmd} (hc : cmd.Ok) {a b : List Occ} (ha : ∀ x ∈ a, x.opt ∈ cmd.opts)
    (hb : ∀ x ∈ b, x.opt ∈ cmd.opts)
    (h : ∀ o ∈ cmd.opts, a.filter (fun x => decide (x.opt = o)) = b.filter (fun x => decide (x.opt = o))) :
    (∀ n, allValues a n = allValues b n) ∧ (∀ n, givenOpt a n = givenOpt b n) := by
  have hnone : ∀ (c : List Occ), (∀ x ∈ c, x.opt ∈ cmd.opts) → ∀ n, (¬ ∃ o ∈ cmd.opts, o.long = n) →
      allValues c n = [] ∧ givenOpt c n = false := by
    intro c hc' n hn
    constructor
    · rw [allValues, List.filterMap_eq_nil_iff]
      intro x hm
      rw [if_neg]
      intro e; exact hn ⟨_, hc' x hm, e⟩
    · rw [givenOpt, List.any_eq_false]
      intro x hm e
      exact hn ⟨_, hc' x hm, by simpa using e⟩
  constructor
  · intro n
    by_cases hn : ∃ o ∈ cmd.opts, o.long = n
    · obtain ⟨o, ho, rfl⟩ := hn
      rw [allValues_filter hc ha ho, allValues_filter hc hb ho, h o ho]
    · rw [(hnone a ha n hn).1, (hnone b hb n hn).1]
  · intro n
    by_cases hn : ∃ o ∈ cmd.opts, o.long = n
    · obtain ⟨o, ho, rfl⟩ := hn
      rw [Bool.eq_iff_iff, givenOpt_iff hc ha ho, givenOpt_iff hc hb ho]
      have : ∀ c : List Occ, Flagged c o ↔ c.filter (fun x => decide (x.opt = o)) ≠ [] := by
        intro c
        simp only [Flagged, ne_eq, List.filter_eq_nil_iff, decide_eq_true_eq]
        constructor
        · rintro ⟨x, hm, e⟩ h'; exact h' x hm e
        · intro h'
          apply Classical.byContradiction
          intro hne
          exact h' fun x hm e => hne ⟨x, hm, e⟩
      rw [this a, this b, h o ho]
    · rw [(hnone a ha n hn).2, (hnone b hb n hn).2]

/-! Rejected command lines. -/

theorem loop_bad {cmd : Cmd} {env : PyEnv} {t : Str} (hb : cmd.classify env t = .bad) (hd : t ≠ ['-', '-'])
    (ts2 : List Str) : ∀ (ts1 : List Str) (s : LineState), (∀ x ∈ ts1, x ≠ ['-', '-']) →
    cmd.loop env s (ts1 ++ t :: ts2) = none
  | [], s, _ => by
    rw [List.nil_append, line_cons hd]
    have : cmd.step env s t = none := by
      unfold Cmd.step
      rw [hb]
      cases s.pending <;> rfl
    rw [this]; rfl
  | x :: ts1, s, h => by
    rw [List.cons_append, line_cons (h x (List.mem_cons_self ..))]
    cases hs : cmd.step env s x with
    | none => rfl
    | some s' =>
      simp only [Option.bind_some]
      exact loop_bad hb hd ts2 ts1 s' fun y hy => h y (List.mem_cons_of_mem _ hy)

theorem unknown_ne {cmd : Cmd} {t : Str} (h : UnknownWord cmd t) : t ≠ ['-', '-'] := by
  cases h with
  | letter c r hc hr hs =>
    intro e
    simp only [List.cons.injEq, true_and] at e
    rw [e.1] at hc
    exact absurd hc (by decide)
  | name a r ha he hr hsp hs => simp [ha]
  | ambiguous a r ha => simp [ha]

theorem splitEq_first (t : Str) : splitEq t = none ∧ '=' ∉ t ∨ ∃ p v, splitEq t = some (p, v) ∧ t = p ++ '=' :: v ∧ '=' ∉ p := by
  cases h : splitEq t with
  | some x =>
    obtain ⟨p, v⟩ := x
    exact Or.inr ⟨p, v, rfl, splitEq_some h⟩
  | none =>
    left
    refine ⟨rfl, fun hm => ?_⟩
    obtain ⟨p, v, rfl⟩ := List.append_of_mem hm
    clear hm
    induction p with
    | nil => simp [splitEq] at h
    | cons c p ih =>
      simp only [List.cons_append, splitEq] at h
      split at h
      · cases h
      · exact ih (by simpa using h)

theorem classify_unknown {cmd : Cmd} {env : PyEnv} (he : env.Ascii) {t : Str} (h : UnknownWord cmd t) :
    cmd.classify env t = .bad := by
  cases h with
  | letter c r hc hr hs =>
    have hcd : c ≠ '-' := by rintro rfl; exact absurd hc (by decide)
    have hce : c ≠ '=' := by rintro rfl; exact absurd hc (by decide)
    have hcp : c ≠ '.' := by rintro rfl; exact absurd hc (by decide)
    have hcs : c ≠ ' ' := by rintro rfl; exact absurd hc (by decide)
    have hcn : c ≠ '\n' := by rintro rfl; exact absurd hc (by decide)
    have h128 : c.toNat < 128 := by
      simp only [isLow, isUpp, Bool.or_eq_true, Bool.and_eq_true, decide_eq_true_eq] at hc
      have h1 : 'z'.toNat = 122 := by decide
      have h2 : 'Z'.toNat = 90 := by decide
      rcases hc with ⟨-, h⟩ | ⟨-, h⟩
      · have : c.toNat ≤ 'z'.toNat := h
        omega
      · have : c.toNat ≤ 'Z'.toNat := h
        omega
    have hdec : env.decimal c = false := by
      rw [he.decimal c h128]
      cases hd : isDig c with
      | false => rfl
      | true =>
        exfalso
        simp only [isDig, isLow, isUpp, Bool.or_eq_true, Bool.and_eq_true, decide_eq_true_eq] at hc hd
        have h1 : 'a'.toNat = 97 := by decide
        have h2 : 'A'.toNat = 65 := by decide
        have h3 : '9'.toNat = 57 := by decide
        have : c.toNat ≤ '9'.toNat := hd.2
        rcases hc with ⟨h, -⟩ | ⟨h, -⟩
        · have : 'a'.toNat ≤ c.toNat := h
          omega
        · have : 'A'.toNat ≤ c.toNat := h
          omega
    have hsf : ∀ o ∈ cmd.opts, ¬ (o.short == some c) = true := by
      intro o ho e; exact hs o ho (by simpa using e)
    have hex : ∀ r, cmd.exact ('-' :: c :: r) = none := by
      intro r
      unfold Cmd.exact
      split
      · rename_i c' heq
        simp only [List.cons.injEq, true_and] at heq
        rw [← heq.1]
        unfold Cmd.short
        rw [List.find?_eq_none]; exact hsf
      · rename_i heq; simp at heq; exact absurd heq.1 hcd
      · rfl
    have hneg : negNumber env ('-' :: c :: r) = false := by
      unfold negNumber
      simp only
      have hx : ∃ r', (if (c :: r).getLast? = some '\n' then (c :: r).dropLast else c :: r) = c :: r' := by
        split
        · rename_i hl
          cases r with
          | nil => simp at hl; exact absurd hl hcn
          | cons a l => exact ⟨(a :: l).dropLast, rfl⟩
        · exact ⟨r, rfl⟩
      obtain ⟨r', hr'⟩ := hx
      rw [hr', List.dropWhile_cons_of_neg (by simp [hdec])]
      split
      · rename_i heq; cases heq
      · rename_i heq; simp at heq; exact absurd heq.1 hcp
      · rfl
    have hsp : ('-' :: c :: r).contains ' ' = false := by
      rw [Bool.eq_false_iff]
      intro e
      rw [List.contains_iff_mem] at e
      simp only [List.mem_cons] at e
      rcases e with e | e | e
      · exact absurd e (by decide)
      · exact hcs e.symm
      · exact hr e
    have ht : cmd.tuples ('-' :: c :: r) = [] := by
      unfold Cmd.tuples
      split
      · rename_i heq; simp at heq; exact absurd heq.1 hcd
      · rename_i c' t _ heq
        simp only [List.cons.injEq, true_and] at heq
        rw [← heq.1, List.map_eq_nil_iff, List.filter_eq_nil_iff]
        exact hsf
      · rfl
    have hg : cmd.guess env ('-' :: c :: r) = .bad := by
      unfold Cmd.guess
      rw [ht]
      simp only [hneg, hsp, Bool.false_eq_true, if_false]
    unfold Cmd.classify
    rw [if_neg (by simp), hex r]
    simp only
    rw [if_neg (by simp)]
    rcases splitEq_first ('-' :: c :: r) with ⟨h1, -⟩ | ⟨p, v, h1, h2, h3⟩
    · rw [h1]; exact hg
    · rw [h1]
      simp only
      have : cmd.exact p = none := by
        cases p with
        | nil => rfl
        | cons p1 p =>
          simp only [List.cons_append, List.cons.injEq] at h2
          obtain ⟨rfl, h2⟩ := h2
          cases p with
          | nil => simp at h2; exact absurd h2.1 hce
          | cons p2 p =>
            simp only [List.cons_append, List.cons.injEq] at h2
            obtain ⟨rfl, h2⟩ := h2
            exact hex p
      rw [this]; exact hg
  | name a r ha hae hr hsp hs =>
    have hfp : cmd.opts.filter (fun o => a.isPrefixOf o.long) = [] := by
      rw [List.filter_eq_nil_iff]
      intro o ho e; exact hs o ho (by simpa using e)
    have hex : ∀ r, cmd.exact ('-' :: '-' :: (a ++ r)) = none := by
      intro r
      obtain ⟨a1, a2, rfl⟩ := List.exists_cons_of_ne_nil ha
      show cmd.opts.find? _ = none
      rw [List.find?_eq_none]
      intro o ho e
      have : o.long = a1 :: a2 ++ r := by simpa using e
      exact hs o ho (this ▸ List.prefix_append _ _)
    have hneg : negNumber env ('-' :: '-' :: (a ++ r)) = false := by
      have hd : env.decimal '-' = false := by rw [he.decimal '-' (by decide)]; decide
      unfold negNumber
      simp only
      have hx : ∃ r', (if ('-' :: (a ++ r)).getLast? = some '\n' then ('-' :: (a ++ r)).dropLast else '-' :: (a ++ r))
          = '-' :: r' := by
        split
        · obtain ⟨a1, a2, rfl⟩ := List.exists_cons_of_ne_nil ha
          exact ⟨(a1 :: a2 ++ r).dropLast, rfl⟩
        · exact ⟨_, rfl⟩
      obtain ⟨r', hr'⟩ := hx
      rw [hr', List.dropWhile_cons_of_neg (by simp [hd])]
      rfl
    have hspc : ('-' :: '-' :: (a ++ r)).contains ' ' = false := by
      rw [Bool.eq_false_iff]
      intro e
      rw [List.contains_iff_mem] at e
      simp only [List.mem_cons] at e
      rcases e with e | e | e
      · exact absurd e (by decide)
      · exact absurd e (by decide)
      · exact hsp e
    have hg : cmd.guess env ('-' :: '-' :: (a ++ r)) = .bad := by
      have ht : cmd.tuples ('-' :: '-' :: (a ++ r)) = [] := by
        rcases hr with rfl | hr
        · rw [List.append_nil]
          simp only [Cmd.tuples, splitEq_none hae, hfp, List.map_nil]
        · cases r with
          | nil => simp at hr
          | cons r1 r2 =>
            have : r1 = '=' := by simpa using hr
            subst this
            simp only [Cmd.tuples, splitEq_app hae, hfp, List.map_nil]
      unfold Cmd.guess
      rw [ht]
      simp only [hneg, hspc, Bool.false_eq_true, if_false]
    unfold Cmd.classify
    rw [if_neg (by simp), hex r]
    simp only
    rw [if_neg (by simp)]
    rcases hr with rfl | hr
    · rw [splitEq_none (by simpa using hae)]; exact hg
    · cases r with
      | nil => simp at hr
      | cons r1 r2 =>
        have : r1 = '=' := by simpa using hr
        subst this
        have hs2 : splitEq ('-' :: '-' :: (a ++ '=' :: r2)) = some ('-' :: '-' :: a, r2) := by
          have := splitEq_app (t := '-' :: '-' :: a) (v := r2) (by simpa using hae)
          simpa using this
        rw [hs2]
        simp only
        have := hex []
        rw [List.append_nil] at this
        rw [this]; exact hg
  | ambiguous a r ha hae hr o1 o2 h1 h2 h12 hp1 hp2 hs =>
    have hex1 : cmd.exact ('-' :: '-' :: (a ++ r)) = none := by
      obtain ⟨a1, a2, rfl⟩ := List.exists_cons_of_ne_nil ha
      show cmd.opts.find? _ = none
      rw [List.find?_eq_none]
      intro o ho e
      exact (hs o ho).2 (by simpa using e)
    have hex2 : cmd.exact ('-' :: '-' :: a) = none := by
      obtain ⟨a1, a2, rfl⟩ := List.exists_cons_of_ne_nil ha
      show cmd.opts.find? _ = none
      rw [List.find?_eq_none]
      intro o ho e
      exact (hs o ho).1 (by simpa using e)
    have m1 : o1 ∈ cmd.opts.filter (fun o => a.isPrefixOf o.long) := List.mem_filter.mpr ⟨h1, by simpa using hp1⟩
    have m2 : o2 ∈ cmd.opts.filter (fun o => a.isPrefixOf o.long) := List.mem_filter.mpr ⟨h2, by simpa using hp2⟩
    have hg : cmd.guess env ('-' :: '-' :: (a ++ r)) = .bad := by
      have ht : ∃ e, cmd.tuples ('-' :: '-' :: (a ++ r)) =
          (cmd.opts.filter (fun o => a.isPrefixOf o.long)).map fun o => (o, true, e) := by
        rcases hr with rfl | hr
        · rw [List.append_nil]
          exact ⟨none, by simp only [Cmd.tuples, splitEq_none hae]⟩
        · cases r with
          | nil => simp at hr
          | cons r1 r2 =>
            have : r1 = '=' := by simpa using hr
            subst this
            exact ⟨some r2, by simp only [Cmd.tuples, splitEq_app hae]⟩
      obtain ⟨e, ht⟩ := ht
      unfold Cmd.guess
      rw [ht]
      generalize cmd.opts.filter (fun o => a.isPrefixOf o.long) = L at m1 m2
      match L, m1, m2 with
      | [x], m1, m2 =>
        rw [List.mem_singleton] at m1 m2
        exact absurd (m1.trans m2.symm) h12
      | _ :: _ :: _, _, _ => rfl
    unfold Cmd.classify
    rw [if_neg (by simp), hex1]
    simp only
    rw [if_neg (by simp)]
    rcases hr with rfl | hr
    · rw [splitEq_none (by simpa using hae)]; exact hg
    · cases r with
      | nil => simp at hr
      | cons r1 r2 =>
        have : r1 = '=' := by simpa using hr
        subst this
        have hs2 : splitEq ('-' :: '-' :: (a ++ '=' :: r2)) = some ('-' :: '-' :: a, r2) := by
          have := splitEq_app (t := '-' :: '-' :: a) (v := r2) (by simpa using hae)
          simpa using this
        rw [hs2]
        simp only
        rw [hex2]; exact hg

theorem parse_unknown {cmd : Cmd} {env : PyEnv} (he : env.Ascii) (toInt : Str → Option Int) {ts1 ts2 : List Str} {t : Str}
    (h : UnknownWord cmd t) (h1 : ∀ x ∈ ts1, x ≠ "--".toList) : cmd.parse env toInt (ts1 ++ t :: ts2) = none := by
  unfold Cmd.parse
  rw [loop_bad (classify_unknown he h) (unknown_ne h) ts2 ts1 {} h1]

theorem parse_no_path {cmd : Cmd} (hc : cmd.Ok) {env : PyEnv} (he : env.Ascii) (toInt : Str → Option Int)
    {ps : List Piece} (hp : ∀ p ∈ ps, p.Good cmd) : cmd.parse env toInt (lineOf ps) = none := by
  have h := loop_pieces hc he ps hp (s := {}) rfl []
  rw [List.append_nil] at h
  unfold Cmd.parse
  rw [h]
  by_cases h0 : ps = [] <;> simp [h0, Cmd.loop, LineState.give, Phase.option]

/-- A path, options, and another path. -/
theorem parse_split {cmd : Cmd} (hc : cmd.Ok) {env : PyEnv} (he : env.Ascii) (toInt : Str → Option Int)
    {before mid : List Piece} (hb : ∀ p ∈ before, p.Good cmd) (hmid : ∀ p ∈ mid, p.Good cmd) {w1 w2 : Str}
    (hw1 : PlainWord w1) (hw2 : PlainWord w2) (ts : List Str) (h : cmd.many = false ∨ mid ≠ []) :
    cmd.parse env toInt (lineOf before ++ w1 :: (lineOf mid ++ w2 :: ts)) = none := by
  have hl : cmd.loop env {} (lineOf before ++ ([w1] ++ (lineOf mid ++ ([w2] ++ ts)))) = none := by
    rw [loop_pieces hc he before hb rfl]
    have hstate : (if before = [] then ({} : LineState) else LineState.give {} (givenBy before)) =
        { occs := givenBy before } := by
      by_cases h : before = []
      · simp [h, givenBy]
      · simp [h, LineState.give, Phase.option]
    rw [hstate, loop_words hc he [w1] (by simpa using hw1) rfl, fold_paths (by simp) (by simp) rfl, Option.bind_some,
      loop_pieces hc he mid hmid rfl]
    rw [loop_words hc he [w2] (by simpa using hw2) (by by_cases h0 : mid = [] <;> simp [h0, LineState.give])]
    by_cases h0 : mid = []
    · have hm : cmd.many = false := h.resolve_right (by simp [h0])
      simp [h0, Cmd.takePath, hm]
    · simp [h0, Cmd.takePath, LineState.give, Phase.option]
  unfold Cmd.parse
  simp only [List.singleton_append] at hl
  rw [hl]

end Clever
