import Verif.Spec.CommandLine

namespace Clever

theorem find?_only {α : Type} {l : List α} {p : α → Bool} {o : α} (ho : o ∈ l) (hp : p o = true)
    (hu : ∀ x ∈ l, p x = true → x = o) : l.find? p = some o := by
  cases hf : l.find? p with
  | none => exact absurd hp (by simpa using List.find?_eq_none.mp hf o ho)
  | some x =>
    have h1 := List.mem_of_find?_eq_some hf
    have h2 := List.find?_some hf
    rw [hu x h1 h2]

theorem filter_only {α : Type} {l : List α} {p : α → Bool} {o : α} (hn : l.Nodup) (ho : o ∈ l) (hp : p o = true)
    (hu : ∀ x ∈ l, p x = true → x = o) : l.filter p = [o] := by
  induction l with
  | nil => simp at ho
  | cons a l ih =>
    rw [List.nodup_cons] at hn
    by_cases ha : a = o
    · subst ha
      rw [List.filter_cons_of_pos hp]
      congr 1
      rw [List.filter_eq_nil_iff]
      intro x hx hpx
      exact hn.1 (hu x (List.mem_cons_of_mem _ hx) hpx ▸ hx)
    · have hpa : ¬ p a = true := fun h => ha (hu a (List.mem_cons_self ..) h)
      rw [List.filter_cons_of_neg hpa]
      have ho' : o ∈ l := by
        rcases List.mem_cons.mp ho with h | h
        · exact absurd h.symm ha
        · exact h
      exact ih hn.2 ho' (fun x hx => hu x (List.mem_cons_of_mem _ hx))

theorem Cmd.Ok.short_eq {cmd : Cmd} (hc : cmd.Ok) {o : Opt} {c : Char} (ho : o ∈ cmd.opts) (h : o.short = some c) :
    cmd.short c = some o := by
  refine find?_only ho (by simp [h]) fun x hx hp => ?_
  have hp' : x.short = some c := by simpa using hp
  exact hc.shorts x hx o ho (by rw [hp', h]) (by rw [hp']; simp)

theorem Cmd.Ok.short_filter {cmd : Cmd} (hc : cmd.Ok) {o : Opt} {c : Char} (ho : o ∈ cmd.opts) (h : o.short = some c) :
    cmd.opts.filter (fun o => o.short == some c) = [o] := by
  refine filter_only hc.nodup ho (by simp [h]) fun x hx hp => ?_
  have hp' : x.short = some c := by simpa using hp
  exact hc.shorts x hx o ho (by rw [hp', h]) (by rw [hp']; simp)

theorem Cmd.Ok.long_find {cmd : Cmd} (hc : cmd.Ok) {o : Opt} (ho : o ∈ cmd.opts) :
    cmd.opts.find? (fun x => x.long == o.long) = some o := by
  refine find?_only ho (by simp) fun x hx hp => ?_
  exact hc.longs x hx o ho (by simpa using hp)

theorem splitEq_none {t : Str} (h : '=' ∉ t) : splitEq t = none := by
  induction t with
  | nil => rfl
  | cons c t ih =>
    rw [List.mem_cons, not_or] at h
    have hc : c ≠ '=' := fun e => h.1 e.symm
    simp [splitEq, hc, ih h.2]

theorem splitEq_app {t v : Str} (h : '=' ∉ t) : splitEq (t ++ '=' :: v) = some (t, v) := by
  induction t with
  | nil => simp [splitEq]
  | cons c t ih =>
    rw [List.mem_cons, not_or] at h
    have hc : c ≠ '=' := fun e => h.1 e.symm
    simp [splitEq, hc, ih h.2]

theorem splitEq_some {t p v : Str} (h : splitEq t = some (p, v)) : t = p ++ '=' :: v ∧ '=' ∉ p := by
  induction t generalizing p v with
  | nil => simp [splitEq] at h
  | cons c t ih =>
    by_cases hc : c = '='
    · subst hc
      simp only [splitEq, if_true, Option.some.injEq, Prod.mk.injEq] at h
      rw [← h.1, ← h.2]; simp
    · simp only [splitEq, if_neg hc, Option.map_eq_some_iff, Prod.mk.injEq] at h
      obtain ⟨x, hx, h1, h2⟩ := h
      obtain ⟨e1, e2⟩ := ih (p := x.1) (v := x.2) (by rw [hx])
      rw [← h1, ← h2]
      refine ⟨by rw [e1]; simp, ?_⟩
      rw [List.mem_cons, not_or]
      exact ⟨fun e => hc e.symm, e2⟩

/-- A negative number is no option. -/
theorem negNumber_digits {env : PyEnv} (he : env.Ascii) {ds : Str} (h0 : ds ≠ []) (h : ∀ d ∈ ds, isDig d = true) :
    negNumber env ('-' :: ds) = true := by
  have hd : ∀ d ∈ ds, env.decimal d = true := by
    intro d hd
    have := h d hd
    rw [he.decimal d]
    · exact this
    · have h2 : d ≤ '9' := by
        have := h d hd
        simp [isDig] at this
        exact this.2
      have : d.toNat ≤ '9'.toNat := h2
      have h3 : '9'.toNat = 57 := by decide
      omega
  have hl : ds.getLast? ≠ some '\n' := by
    intro e
    have := h _ (List.mem_of_getLast? e)
    exact absurd this (by decide)
  have hw : ds.dropWhile env.decimal = [] := by
    clear hl h h0
    induction ds with
    | nil => rfl
    | cons d ds ih =>
      rw [List.dropWhile_cons_of_pos (hd d (List.mem_cons_self ..))]
      exact ih fun x hx => hd x (List.mem_cons_of_mem _ hx)
  unfold negNumber
  simp only [if_neg hl, hw]
  simp [h0]

theorem classify_plain {cmd : Cmd} (hc : cmd.Ok) {env : PyEnv} (he : env.Ascii) {t : Str} (h : PlainWord t) :
    cmd.classify env t = .arg := by
  unfold Cmd.classify
  rcases h with h | h | ⟨ds, h0, hd, rfl⟩
  · rw [if_pos h]
  · subst h; rfl
  · rw [if_neg (by simp)]
    have hne : ∀ d ∈ ds, d ≠ '-' ∧ d ≠ '=' ∧ d ≠ ' ' := by
      intro d hdd
      have := hd d hdd
      refine ⟨?_, ?_, ?_⟩ <;> (rintro rfl; exact absurd this (by decide))
    have hs : ∀ d ∈ ds, ∀ o ∈ cmd.opts, (o.short == some d) = false := by
      intro d hdd o ho
      cases hos : o.short with
      | none => rfl
      | some c =>
        have := (hc.letters o ho c (by rw [hos]; rfl)).2.2
        have hdg := hd d hdd
        simp only [beq_eq_false_iff_ne, ne_eq, Option.some.injEq]
        rintro rfl
        rw [hdg] at this; cases this
    have hq : splitEq ('-' :: ds) = none := by
      apply splitEq_none
      rw [List.mem_cons, not_or]
      exact ⟨by decide, fun hm => (hne _ hm).2.1 rfl⟩
    obtain ⟨d, ds', rfl⟩ := List.exists_cons_of_ne_nil h0
    have hd1 := hne d (List.mem_cons_self ..)
    have hex : cmd.exact ('-' :: d :: ds') = none := by
      cases ds' with
      | nil =>
        simp only [Cmd.exact, Cmd.short]
        rw [List.find?_eq_none]
        intro o ho
        rw [hs d (List.mem_cons_self ..) o ho]; simp
      | cons a l =>
        unfold Cmd.exact
        split
        · rename_i heq; simp at heq
        · rename_i heq; simp at heq; exact absurd heq.1 hd1.1
        · rfl
    rw [hex]
    simp only [hq]
    rw [if_neg (by simp)]
    have ht : cmd.tuples ('-' :: d :: ds') = [] := by
      unfold Cmd.tuples
      split
      · rename_i heq; simp at heq; exact absurd heq.1 hd1.1
      · rename_i c t _ heq
        simp only [List.cons.injEq, true_and] at heq
        rw [List.map_eq_nil_iff, List.filter_eq_nil_iff]
        intro o ho
        rw [← heq.1, hs d (List.mem_cons_self ..) o ho]; simp
      · rfl
    unfold Cmd.guess
    rw [ht]
    simp [negNumber_digits he h0 hd]

theorem plain_ne_dashes {t : Str} (h : PlainWord t) : t ≠ ['-', '-'] := by
  rintro rfl
  rcases h with h | h | ⟨ds, h0, hd, e⟩
  · exact h rfl
  · exact absurd h (by decide)
  · simp only [List.cons.injEq, true_and] at e
    subst e
    exact absurd (hd '-' (by simp)) (by decide)

/-- The classification of a word with one dash and at least two letters. -/
theorem classify_letters {cmd : Cmd} (hc : cmd.Ok) {env : PyEnv} {o : Opt} {c : Char} {r : Str} (ho : o ∈ cmd.opts)
    (hs : o.short = some c) (hr : r ≠ []) (hq : r.head? ≠ some '=') :
    cmd.classify env ('-' :: c :: r) = .opt o false (some r) := by
  obtain ⟨hc1, hc2, -⟩ := hc.letters o ho c (by rw [hs]; rfl)
  obtain ⟨a, l, rfl⟩ := List.exists_cons_of_ne_nil hr
  have hex : ∀ a l, cmd.exact ('-' :: c :: a :: l) = none := by
    intro a l
    unfold Cmd.exact
    split
    · rename_i heq; simp at heq
    · rename_i heq; simp at heq; exact absurd heq.1 hc1
    · rfl
  have ha : a ≠ '=' := by simpa using hq
  have ht : cmd.tuples ('-' :: c :: a :: l) = [(o, false, some (a :: l))] := by
    unfold Cmd.tuples
    split
    · rename_i heq; simp at heq; exact absurd heq.1 hc1
    · rename_i c' t _ heq
      simp only [List.cons.injEq, true_and] at heq
      rw [← heq.1, ← heq.2, hc.short_filter ho hs]; rfl
    · rename_i h1 h2; exact absurd rfl (h2 _ _)
  have hg : cmd.guess env ('-' :: c :: a :: l) = .opt o false (some (a :: l)) := by
    unfold Cmd.guess; rw [ht]
  unfold Cmd.classify
  rw [if_neg (by simp), hex a l]
  simp only
  rw [if_neg (by simp)]
  cases hsp : splitEq ('-' :: c :: a :: l) with
  | none => simp only; exact hg
  | some x =>
    obtain ⟨p, v⟩ := x
    simp only
    have hp : cmd.exact p = none := by
      obtain ⟨e, hne⟩ := splitEq_some hsp
      cases p with
      | nil => rfl
      | cons p1 p =>
        simp only [List.cons_append, List.cons.injEq] at e
        obtain ⟨rfl, e⟩ := e
        cases p with
        | nil => simp at e; exact absurd e.1 hc2
        | cons p2 p =>
          simp only [List.cons_append, List.cons.injEq] at e
          obtain ⟨rfl, e⟩ := e
          cases p with
          | nil => simp at e; exact absurd e.1 ha
          | cons p3 p => exact hex p3 p
    rw [hp]
    exact hg

theorem classify_letter {cmd : Cmd} (hc : cmd.Ok) {env : PyEnv} {o : Opt} {c : Char} (ho : o ∈ cmd.opts)
    (hs : o.short = some c) : cmd.classify env ['-', c] = .opt o false none := by
  obtain ⟨hc1, hc2, -⟩ := hc.letters o ho c (by rw [hs]; rfl)
  unfold Cmd.classify
  rw [if_neg (by simp)]
  simp only [Cmd.exact, hc.short_eq ho hs]
  have : isLong ['-', c] = false := by
    unfold isLong
    split
    · rename_i heq; simp at heq; exact absurd heq.1 hc1
    · rfl
  rw [this]

/-- An abbreviation that fits only one option, or its full name. -/
theorem exact_or_prefix {cmd : Cmd} (hc : cmd.Ok) {o : Opt} {a : Str} (ho : o ∈ cmd.opts)
    (hp : a <+: o.long) (hu : a = o.long ∨ ∀ o' ∈ cmd.opts, a <+: o'.long → o' = o) :
    cmd.opts.find? (fun x => x.long == a) = some o ∨
    (cmd.opts.find? (fun x => x.long == a) = none ∧ cmd.opts.filter (fun x => a.isPrefixOf x.long) = [o]) := by
  rcases hu with rfl | hu
  · exact Or.inl (hc.long_find ho)
  · cases hf : cmd.opts.find? (fun x => x.long == a) with
    | some x =>
      left
      have h1 := List.mem_of_find?_eq_some hf
      have h2 : x.long = a := by simpa using List.find?_some hf
      rw [hu x h1 (h2 ▸ List.prefix_rfl)]
    | none =>
      right
      refine ⟨rfl, filter_only hc.nodup ho (by simpa using hp) fun x hx hpx => hu x hx (by simpa using hpx)⟩

theorem exact_long (cmd : Cmd) (a : Str) :
    cmd.exact ('-' :: '-' :: a) = match a with
      | [] => cmd.short '-'
      | a => cmd.opts.find? (fun o => o.long == a) := by
  cases a <;> rfl

theorem classify_name {cmd : Cmd} (hc : cmd.Ok) {env : PyEnv} {o : Opt} {a : Str} (ho : o ∈ cmd.opts) (ha : a ≠ [])
    (hp : a <+: o.long) (hu : a = o.long ∨ ∀ o' ∈ cmd.opts, a <+: o'.long → o' = o) :
    cmd.classify env ('-' :: '-' :: a) = .opt o true none := by
  have hne : '=' ∉ a := fun h => (hc.names o ho).2 (hp.subset h)
  obtain ⟨a1, a2, rfl⟩ := List.exists_cons_of_ne_nil ha
  unfold Cmd.classify
  rw [if_neg (by simp), exact_long]
  simp only
  rcases exact_or_prefix hc ho hp hu with h | ⟨h, hf⟩
  · rw [h]; rfl
  · rw [h]
    simp only
    rw [if_neg (by simp), splitEq_none (by simpa using hne)]
    simp only [Cmd.guess, Cmd.tuples, splitEq_none hne, hf, List.map_cons, List.map_nil]

theorem classify_name_eq {cmd : Cmd} (hc : cmd.Ok) {env : PyEnv} {o : Opt} {a v : Str} (ho : o ∈ cmd.opts) (ha : a ≠ [])
    (hp : a <+: o.long) (hu : a = o.long ∨ ∀ o' ∈ cmd.opts, a <+: o'.long → o' = o) :
    cmd.classify env ('-' :: '-' :: a ++ '=' :: v) = .opt o true (some v) := by
  have hne : '=' ∉ a := fun h => (hc.names o ho).2 (hp.subset h)
  have hne2 : '=' ∉ '-' :: '-' :: a := by
    simp only [List.mem_cons, not_or]
    exact ⟨by decide, by decide, hne⟩
  obtain ⟨a1, a2, rfl⟩ := List.exists_cons_of_ne_nil ha
  have h0 : cmd.opts.find? (fun x => x.long == (a1 :: a2 ++ '=' :: v)) = none := by
    rw [List.find?_eq_none]
    intro x hx hpx
    have hx' : x.long = a1 :: a2 ++ '=' :: v := by simpa using hpx
    exact (hc.names x hx).2 (by rw [hx']; simp)
  have hex : cmd.exact ('-' :: '-' :: (a1 :: a2) ++ '=' :: v) = none := h0
  unfold Cmd.classify
  rw [if_neg (by simp), hex]
  simp only
  rw [if_neg (by simp), splitEq_app hne2]
  simp only [exact_long]
  rcases exact_or_prefix hc ho hp hu with h | ⟨h, hf⟩
  · rw [h]; rfl
  · rw [h]
    have := splitEq_app (v := v) hne
    simp only [Cmd.guess, List.cons_append] at this ⊢
    simp only [Cmd.tuples, this, hf, List.map_cons, List.map_nil]

/-- The letters of flags and of a last option, followed by text. -/
theorem cluster_letters {cmd : Cmd} (hc : cmd.Ok) : ∀ (fs : List Opt) (o l : Opt) (x : Str),
    o.takes = false → (∀ f ∈ fs, f ∈ cmd.opts ∧ f.short ≠ none ∧ f.takes = false) → l ∈ cmd.opts → l.short ≠ none →
    (x ≠ [] → l.takes = true ∧ x ≠ ['-', '-']) →
    cmd.cluster o false ((fs ++ [l]).filterMap Opt.short ++ x) =
      some (if x = [] then (if l.takes then ((o :: fs).map (⟨·, none⟩), some l)
          else ((o :: fs).map (⟨·, none⟩) ++ [⟨l, none⟩], none))
        else ((o :: fs).map (⟨·, none⟩) ++ [⟨l, some x⟩], none))
  | [], o, l, x => by
    intro hot _ hl hls hx
    obtain ⟨c, hc'⟩ := Option.ne_none_iff_exists'.mp hls
    have e : ([] ++ [l]).filterMap Opt.short ++ x = c :: x := by simp [hc']
    rw [e]
    unfold Cmd.cluster
    rw [hot, hc.short_eq hl hc']
    simp only [Bool.false_eq_true, if_false]
    by_cases h : x = []
    · subst h
      by_cases ht : l.takes = true <;> simp [ht]
    · obtain ⟨h1, h2⟩ := hx h
      rw [if_neg h, if_neg h]
      obtain ⟨x1, x2, rfl⟩ := List.exists_cons_of_ne_nil h
      simp only [Cmd.cluster, h1, if_true, if_neg h2]
      simp
  | f :: fs, o, l, x => by
    intro hot hfs hl hls hx
    obtain ⟨hf1, hf2, hf3⟩ := hfs f (List.mem_cons_self ..)
    obtain ⟨c, hc'⟩ := Option.ne_none_iff_exists'.mp hf2
    have e : (f :: fs ++ [l]).filterMap Opt.short ++ x = c :: ((fs ++ [l]).filterMap Opt.short ++ x) := by simp [hc']
    rw [e]
    have hne : (fs ++ [l]).filterMap Opt.short ++ x ≠ [] := by
      obtain ⟨d, hd⟩ := Option.ne_none_iff_exists'.mp hls
      simp [hd]
    have ih := cluster_letters hc fs f l x hf3 (fun g hg => hfs g (List.mem_cons_of_mem _ hg)) hl hls hx
    rw [Cmd.cluster, hot, hc.short_eq hf1 hc']
    simp only [Bool.false_eq_true, if_false, if_neg hne, ih, Option.map_some]
    by_cases h : x = []
    · by_cases ht : l.takes = true <;> simp [h, ht]
    · simp [h]

/-- The state after a well written piece. -/
def LineState.give (s : LineState) (occs : List Occ) : LineState :=
  { s with phase := s.phase.option, occs := s.occs ++ occs }

theorem line_cons {cmd : Cmd} {env : PyEnv} {s : LineState} {t : Str} {ts : List Str} (h : t ≠ ['-', '-']) :
    cmd.loop env s (t :: ts) = (cmd.step env s t).bind fun s => cmd.loop env s ts := by
  rw [Cmd.loop, if_neg h]

theorem loop_value {cmd : Cmd} (hc : cmd.Ok) {env : PyEnv} (he : env.Ascii) {s : LineState} {o : Opt} {v : Str}
    {ts : List Str} (hs : s.pending = some o) (hv : PlainWord v) :
    cmd.loop env s (v :: ts) = cmd.loop env { s with pending := none, occs := s.occs ++ [⟨o, some v⟩] } ts := by
  rw [line_cons (plain_ne_dashes hv)]
  simp only [Cmd.step, hs, classify_plain hc he hv, Option.bind_some]

theorem loop_piece {cmd : Cmd} (hc : cmd.Ok) {env : PyEnv} (he : env.Ascii) {p : Piece} (hp : p.Good cmd)
    {s : LineState} (hs : s.pending = none) (ts : List Str) :
    cmd.loop env s (p.tokens ++ ts) = cmd.loop env (s.give p.occs) ts := by
  cases p with
  | name o a v =>
    obtain ⟨ho, ha, hpre, hu, ht, hv⟩ := hp
    have hne : ∀ r : Str, '-' :: '-' :: a ++ r ≠ ['-', '-'] := by
      intro r; simp [ha]
    have hcl := classify_name hc (env := env) ho ha hpre hu
    match v, hv, ht with
    | none, _, ht =>
      have ht' : o.takes = false := ht
      simp only [Piece.tokens, List.cons_append, List.nil_append]
      rw [line_cons (by simpa using hne [])]
      simp only [Cmd.step, hs, hcl, ht', Option.bind_some]
      simp [LineState.give, Piece.occs, hs]
    | some (true, x), hv, ht =>
      have ht' : o.takes = true := ht
      have hcl' := classify_name_eq hc (env := env) (v := x) ho ha hpre hu
      simp only [Piece.tokens, List.singleton_append]
      rw [line_cons (hne _)]
      simp only [Cmd.step, hs, hcl']
      have : cmd.cluster o true x = some ([⟨o, some x⟩], none) := by
        cases x with
        | nil => simp [Cmd.cluster, ht']
        | cons x1 x2 =>
          have hv' : x1 :: x2 ≠ ['-', '-'] := hv
          simp only [Cmd.cluster, ht', if_true, if_neg hv']
      rw [this]
      simp [LineState.give, Piece.occs, hs]
    | some (false, x), hv, ht =>
      have ht' : o.takes = true := ht
      simp only [Piece.tokens, List.cons_append, List.nil_append]
      rw [line_cons (by simpa using hne [])]
      simp only [Cmd.step, hs, hcl, ht', if_true, Option.bind_some]
      rw [loop_value hc he rfl hv]
      simp [LineState.give, Piece.occs, hs]
  | letters fs l v =>
    obtain ⟨hfs, hl, hls, ht, hv⟩ := hp
    obtain ⟨d, hd⟩ := Option.ne_none_iff_exists'.mp hls
    have hd1 := hc.letters l hl d (by rw [hd]; rfl)
    -- the word and what the loop makes of it
    have key : ∀ x : Str, (x ≠ [] → l.takes = true ∧ x ≠ ['-', '-']) → x.head? ≠ some '=' → ∀ ts,
        cmd.loop env s (('-' :: ((fs ++ [l]).filterMap Opt.short ++ x)) :: ts) =
        cmd.loop env { s with
            phase := s.phase.option
            pending := if x = [] ∧ l.takes = true then some l else none
            occs := s.occs ++ (fs.map (⟨·, none⟩) ++ (if x = [] then (if l.takes then [] else [⟨l, none⟩])
              else [⟨l, some x⟩])) } ts := by
      intro x hx hxe ts
      cases fs with
      | nil =>
        have e : ([] ++ [l]).filterMap Opt.short ++ x = d :: x := by simp [hd]
        rw [e]
        rw [line_cons (by intro h; simp at h; exact hd1.1 h.1)]
        by_cases hx0 : x = []
        · subst hx0
          simp only [Cmd.step, hs, classify_letter hc hl hd]
          by_cases htk : l.takes = true <;> simp [htk, hs]
        · obtain ⟨h1, h2⟩ := hx hx0
          simp only [Cmd.step, hs, classify_letters hc hl hd hx0 hxe]
          obtain ⟨x1, x2, rfl⟩ := List.exists_cons_of_ne_nil hx0
          simp [Cmd.cluster, h1, h2]
      | cons f fs =>
        obtain ⟨hf1, hf2, hf3⟩ := hfs f (List.mem_cons_self ..)
        obtain ⟨c, hc'⟩ := Option.ne_none_iff_exists'.mp hf2
        have hc1 := hc.letters f hf1 c (by rw [hc']; rfl)
        have e : (f :: fs ++ [l]).filterMap Opt.short ++ x = c :: ((fs ++ [l]).filterMap Opt.short ++ x) := by simp [hc']
        rw [e]
        rw [line_cons (by intro h; simp at h; exact hc1.1 h.1)]
        have hne : (fs ++ [l]).filterMap Opt.short ++ x ≠ [] := by simp [hd]
        have hhd : ((fs ++ [l]).filterMap Opt.short ++ x).head? ≠ some '=' := by
          cases fs with
          | nil => simp [hd]; exact hd1.2.1
          | cons g fs =>
            obtain ⟨hg1, hg2, -⟩ := hfs g (by simp)
            obtain ⟨k, hk⟩ := Option.ne_none_iff_exists'.mp hg2
            simp [hk]; exact (hc.letters g hg1 k (by rw [hk]; rfl)).2.1
        simp only [Cmd.step, hs, classify_letters hc hf1 hc' hne hhd]
        rw [cluster_letters hc fs f l x hf3 (fun g hg => hfs g (List.mem_cons_of_mem _ hg)) hl hls hx]
        simp only [Option.map_some, Option.bind_some]
        by_cases hx0 : x = []
        · by_cases htk : l.takes = true <;> simp [hx0, htk]
        · simp [hx0]
    match v, hv, ht with
    | none, _, ht =>
      have ht' : l.takes = false := ht
      have := key [] (by simp) (by simp) ts
      simp only [List.append_nil] at this
      simp only [Piece.tokens, List.singleton_append]
      rw [this]
      simp [LineState.give, Piece.occs, hs, ht']
    | some (true, x), hv, ht =>
      have ht' : l.takes = true := ht
      obtain ⟨h1, h2, h3⟩ := hv
      have := key x (fun _ => ⟨ht', h3⟩) h2 ts
      simp only [Piece.tokens, List.cons_append, List.nil_append]
      rw [this]
      simp [LineState.give, Piece.occs, hs, h1]
    | some (false, x), hv, ht =>
      have ht' : l.takes = true := ht
      have := key [] (by simp) (by simp) (x :: ts)
      simp only [List.append_nil] at this
      simp only [Piece.tokens, List.cons_append, List.nil_append]
      rw [this]
      rw [loop_value (o := l) hc he (by simp [ht']) hv]
      simp [LineState.give, Piece.occs, hs, ht']

theorem option_option (p : Phase) : p.option.option = p.option := by cases p <;> rfl

theorem loop_pieces {cmd : Cmd} (hc : cmd.Ok) {env : PyEnv} (he : env.Ascii) : ∀ (ps : List Piece),
    (∀ p ∈ ps, p.Good cmd) → ∀ {s : LineState}, s.pending = none → ∀ ts : List Str,
    cmd.loop env s (lineOf ps ++ ts) = cmd.loop env (if ps = [] then s else s.give (givenBy ps)) ts
  | [], _, s, _, ts => by simp [lineOf]
  | p :: ps, hp, s, hs, ts => by
    have h1 := loop_piece hc he (hp p (List.mem_cons_self ..)) hs (lineOf ps ++ ts)
    have h2 := loop_pieces hc he ps (fun q hq => hp q (List.mem_cons_of_mem _ hq)) (s := s.give p.occs) hs ts
    have e : lineOf (p :: ps) ++ ts = p.tokens ++ (lineOf ps ++ ts) := by simp [lineOf]
    rw [e, h1, h2]
    congr 1
    by_cases h : ps = []
    · simp [h, givenBy]
    · simp [h, LineState.give, givenBy, option_option]

/-- Further positional arguments. -/
theorem fold_taking {cmd : Cmd} (hm : cmd.many = true) : ∀ (ws : List Str) (s : LineState), s.phase = .taking →
    ws.foldlM cmd.takePath s = some { s with paths := s.paths ++ ws }
  | [], s, _ => by simp
  | w :: ws, s, hs => by
    simp only [List.foldlM_cons, Cmd.takePath, hs, hm, if_true]
    have := fold_taking hm ws { s with paths := s.paths ++ [w] } hs
    simp only [hs] at this
    simp [this, hs]

/-- The positional arguments, taken together. -/
theorem fold_paths {cmd : Cmd} {ws : List Str} (h0 : ws ≠ []) (hm : cmd.many = false → ws.length = 1) {s : LineState}
    (hs : s.phase = .before) : ws.foldlM cmd.takePath s = some { s with phase := .taking, paths := ws } := by
  obtain ⟨w, ws, rfl⟩ := List.exists_cons_of_ne_nil h0
  simp only [List.foldlM_cons, Cmd.takePath, hs]
  cases hmm : cmd.many with
  | false =>
    have := hm hmm
    have hw : ws = [] := by simpa using this
    subst hw
    simp
  | true =>
    have := fold_taking hmm ws { s with phase := .taking, paths := [w] } rfl
    simpa using this

theorem loop_words {cmd : Cmd} (hc : cmd.Ok) {env : PyEnv} (he : env.Ascii) : ∀ (ws : List Str),
    (∀ w ∈ ws, PlainWord w) → ∀ {s : LineState}, s.pending = none → ∀ ts : List Str,
    cmd.loop env s (ws ++ ts) = (ws.foldlM cmd.takePath s).bind fun s => cmd.loop env s ts
  | [], _, s, _, ts => by simp
  | w :: ws, hw, s, hs, ts => by
    have h1 := hw w (List.mem_cons_self ..)
    rw [List.cons_append, line_cons (plain_ne_dashes h1)]
    simp only [Cmd.step, hs, classify_plain hc he h1, List.foldlM_cons]
    cases ht : cmd.takePath s w with
    | none => simp
    | some s' =>
      have hs' : s'.pending = none := by
        unfold Cmd.takePath at ht
        cases hph : s.phase <;> simp only [hph] at ht
        · cases ht; exact hs
        · split at ht
          · cases ht; exact hs
          · cases ht
        · cases ht
      simp only [Option.bind_some, Option.bind_eq_bind]
      exact loop_words hc he ws (fun x hx => hw x (List.mem_cons_of_mem _ hx)) hs' ts

/-- The checks of `parse_args` after the loop. -/
def Cmd.checks (cmd : Cmd) (toInt : Str → Option Int) (occs : List Occ) (paths : List Str) : Option (List Occ × List Str) :=
  if cmd.exclusive.any (fun x => givenOpt occs x.1 && givenOpt occs x.2) then none
  else if cmd.ints.any (fun i => (allValues occs i).any fun v => (toInt v).isNone) then none
  else some (occs, paths)

/-- Options, the paths together, and more options. -/
theorem parse_line {cmd : Cmd} (hc : cmd.Ok) {env : PyEnv} (he : env.Ascii) (toInt : Str → Option Int)
    {before after : List Piece} (hb : ∀ p ∈ before, p.Good cmd) (ha : ∀ p ∈ after, p.Good cmd) {ws : List Str}
    (h0 : ws ≠ []) (hm : cmd.many = false → ws.length = 1) (hw : ∀ w ∈ ws, PlainWord w) :
    cmd.parse env toInt (lineOf before ++ ws ++ lineOf after) = cmd.checks toInt (givenBy (before ++ after)) ws := by
  have h1 : cmd.loop env {} (lineOf before ++ (ws ++ (lineOf after ++ []))) =
      some { phase := if after = [] then .taking else .after, pending := none, occs := givenBy (before ++ after), paths := ws } := by
    rw [loop_pieces hc he before hb rfl]
    have hstate : (if before = [] then ({} : LineState) else LineState.give {} (givenBy before)) =
        { occs := givenBy before } := by
      by_cases h : before = []
      · simp [h, givenBy]
      · simp [h, LineState.give, Phase.option]
    rw [hstate, loop_words hc he ws hw rfl, fold_paths h0 hm rfl, Option.bind_some, loop_pieces hc he after ha rfl]
    by_cases h : after = []
    · simp [h, Cmd.loop]
    · simp [h, Cmd.loop, LineState.give, Phase.option, givenBy]
  unfold Cmd.parse Cmd.checks
  rw [List.append_assoc]
  rw [List.append_nil] at h1
  rw [h1]
  by_cases h : after = [] <;> simp [h]

/-- Options and `--`, after which everything is a path. -/
theorem parse_dashes {cmd : Cmd} (hc : cmd.Ok) {env : PyEnv} (he : env.Ascii) (toInt : Str → Option Int)
    {before : List Piece} (hb : ∀ p ∈ before, p.Good cmd) {ws : List Str}
    (h0 : ws ≠ []) (hm : cmd.many = false → ws.length = 1) :
    cmd.parse env toInt (lineOf before ++ ['-', '-'] :: ws) = cmd.checks toInt (givenBy before) ws := by
  have h1 : cmd.loop env {} (lineOf before ++ ['-', '-'] :: ws) =
      some { phase := .taking, pending := none, occs := givenBy before, paths := ws } := by
    rw [loop_pieces hc he before hb rfl]
    have hstate : (if before = [] then ({} : LineState) else LineState.give {} (givenBy before)) =
        { occs := givenBy before } := by
      by_cases h : before = []
      · simp [h, givenBy]
      · simp [h, LineState.give, Phase.option]
    rw [hstate, Cmd.loop, if_pos rfl, if_neg (by simp), fold_paths h0 hm rfl]
  unfold Cmd.parse Cmd.checks
  rw [h1]
  simp

end Clever
