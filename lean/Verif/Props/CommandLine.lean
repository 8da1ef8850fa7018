import Verif.Proofs.CommandLineRecords

/-!
# C122: the command line is understood as written
-/

namespace Clever

instance (cmd : Cmd) : Decidable (cmd.Ok) :=
  decidable_of_iff (cmd.opts.Nodup ∧
    (∀ o ∈ cmd.opts, ∀ o' ∈ cmd.opts, o.short = o'.short → o.short ≠ none → o = o') ∧
    (∀ o ∈ cmd.opts, ∀ o' ∈ cmd.opts, o.long = o'.long → o = o') ∧
    (∀ o ∈ cmd.opts, ∀ c ∈ o.short.toList, c ≠ '-' ∧ c ≠ '=' ∧ isDig c = false) ∧
    (∀ o ∈ cmd.opts, o.long ≠ [] ∧ '=' ∉ o.long))
    ⟨fun ⟨h1, h2, h3, h4, h5⟩ => ⟨h1, h2, h3, fun o ho c hc => h4 o ho c (by simpa using hc), h5⟩,
     fun ⟨h1, h2, h3, h4, h5⟩ => ⟨h1, h2, h3, fun o ho c hc => h4 o ho c (by simpa using hc), h5⟩⟩

/-- In none of the five commands can two options be confused. -/
theorem C122_tables : detectTable.Ok ∧ viewTable.Ok ∧ codeTable.Ok ∧ stdTable.Ok := by
  refine ⟨?_, ?_, ?_, ?_⟩ <;> decide

/-- The detect command runs with the options that have been written. -/
theorem C122_detect (sys : Sys) (he : sys.env.Ascii) (pr : Printer) (toInt : Str → Option Int) (rt : Elapsed)
    {ts : List Str} {occs : List Occ} {p : Str} (h : Line detectTable ts occs [p])
    {enc : Option Str} {n : Option Int} {c s r : Bool} {fmt : DetectFormat}
    (h1 : LastIs occs optEncoding enc) (h2 : NumberIs toInt occs optNumChars n)
    (h3 : c = true ↔ Flagged occs optConsistency) (h4 : s = true ↔ Flagged occs optNoSkip)
    (h5 : fmt = .plain ↔ Flagged occs optPlain) (h6 : fmt = .json ↔ Flagged occs optJson)
    (h7 : r = true ↔ Flagged occs optAddRuntime) :
    detectMain sys pr toInt rt ts = detectCmdT sys pr p enc n c s fmt (if r then some rt else none) := by
  have hc := C122_tables.1
  have hx := line_opts h
  have e1 := lastValue_eq hc hx (o := optEncoding) (by decide) h1
  have e2 := numCharsOf_eq hc hx (by decide) h2
  have e2' := numbers_ok hc hx (by decide) h2
  have e3 := givenOpt_bool hc hx (o := optConsistency) (by decide) h3
  have e4 := givenOpt_bool hc hx (o := optNoSkip) (by decide) h4
  have e5 := givenOpt_iff hc hx (o := optPlain) (by decide)
  have e6 := givenOpt_iff hc hx (o := optJson) (by decide)
  have e7 := givenOpt_bool hc hx (o := optAddRuntime) (by decide) h7
  rw [← h5] at e5
  rw [← h6] at e6
  have hexc : (givenOpt occs optPlain.long && givenOpt occs optJson.long) = false := by
    cases fmt <;> simp_all
  have hpar : detectTable.parse sys.env toInt ts = some (occs, [p]) := by
    rw [parse_of_line hc he toInt h]
    have g1 : detectTable.exclusive.any (fun x => givenOpt occs x.1 && givenOpt occs x.2) = false := by
      simp only [detectTable, List.any_cons, List.any_nil, Bool.or_false]
      exact hexc
    have g2 : detectTable.ints.any (fun i => (allValues occs i).any fun v => (toInt v).isNone) = false := by
      simp only [detectTable, List.any_cons, List.any_nil, Bool.or_false]
      exact e2'
    unfold Cmd.checks
    rw [g1, g2]; rfl
  unfold detectMain
  rw [hpar]
  simp only
  have hfmt : (if givenOpt occs "plain".toList then DetectFormat.plain else if givenOpt occs "json".toList then .json
      else .default) = fmt := by
    rw [show "plain".toList = optPlain.long from rfl, show "json".toList = optJson.long from rfl]
    cases fmt with
    | plain => rw [if_pos (e5.mpr rfl)]
    | json => rw [if_neg (fun g => by simpa using e5.mp g), if_pos (e6.mpr rfl)]
    | default => rw [if_neg (fun g => by simpa using e5.mp g), if_neg (fun g => by simpa using e6.mp g)]
  rw [hfmt, e2]
  rw [show "encoding".toList = optEncoding.long from rfl, e1, show "consistency".toList = optConsistency.long from rfl, e3,
    show "no-skip".toList = optNoSkip.long from rfl, e4, show "add-runtime".toList = optAddRuntime.long from rfl, e7]

/-- The view command runs with the options that have been written. -/
theorem C122_view (sys : Sys) (he : sys.env.Ascii) (toInt : Str → Option Int)
    {ts : List Str} {occs : List Occ} {p : Str} (h : Line viewTable ts occs [p])
    {enc : Option Str} {n : Option Int} {t : Bool}
    (h1 : LastIs occs optEncoding enc) (h2 : NumberIs toInt occs optNumChars n)
    (h3 : t = true ↔ Flagged occs optTranspose) :
    viewMain sys toInt ts = viewCmd sys p enc n t := by
  have hc := C122_tables.2.1
  have hx := line_opts h
  have e1 := lastValue_eq hc hx (o := optEncoding) (by decide) h1
  have e2 := numCharsOf_eq hc hx (by decide) h2
  have e2' := numbers_ok hc hx (by decide) h2
  have e3 := givenOpt_bool hc hx (o := optTranspose) (by decide) h3
  have hpar : viewTable.parse sys.env toInt ts = some (occs, [p]) := by
    rw [parse_of_line hc he toInt h]
    have g2 : viewTable.ints.any (fun i => (allValues occs i).any fun v => (toInt v).isNone) = false := by
      simp only [viewTable, List.any_cons, List.any_nil, Bool.or_false]
      exact e2'
    unfold Cmd.checks
    rw [g2]; rfl
  unfold viewMain
  rw [hpar]
  simp only
  rw [show "encoding".toList = optEncoding.long from rfl, e1, e2, show "transpose".toList = optTranspose.long from rfl, e3]

theorem code_parse (sys : Sys) (he : sys.env.Ascii) (toInt : Str → Option Int)
    {ts : List Str} {occs : List Occ} {p : Str} (h : Line codeTable ts occs [p])
    {enc : Option Str} {n : Option Int} {t : Bool}
    (h1 : LastIs occs optEncoding enc) (h2 : NumberIs toInt occs optNumChars n)
    (h3 : t = true ↔ Flagged occs optPandas) :
    codeTable.parse sys.env toInt ts = some (occs, [p]) ∧ lastValue occs "encoding".toList = enc ∧
      numCharsOf toInt occs = n ∧ givenOpt occs "pandas".toList = t := by
  have hc := C122_tables.2.2.1
  have hx := line_opts h
  have e1 := lastValue_eq hc hx (o := optEncoding) (by decide) h1
  have e2 := numCharsOf_eq hc hx (by decide) h2
  have e2' := numbers_ok hc hx (by decide) h2
  have e3 := givenOpt_bool hc hx (o := optPandas) (by decide) h3
  refine ⟨?_, e1, e2, e3⟩
  rw [parse_of_line hc he toInt h]
  have g2 : codeTable.ints.any (fun i => (allValues occs i).any fun v => (toInt v).isNone) = false := by
    simp only [codeTable, List.any_cons, List.any_nil, Bool.or_false]
    exact e2'
  unfold Cmd.checks
  rw [g2]; rfl

/-- The code command runs with the options that have been written. -/
theorem C122_code (sys : Sys) (he : sys.env.Ascii) (pr : Printer) (toInt : Str → Option Int)
    {ts : List Str} {occs : List Occ} {p : Str} (h : Line codeTable ts occs [p])
    {enc : Option Str} {n : Option Int} {t : Bool}
    (h1 : LastIs occs optEncoding enc) (h2 : NumberIs toInt occs optNumChars n)
    (h3 : t = true ↔ Flagged occs optPandas) :
    codeMain sys pr toInt ts = codeCmd sys pr p enc n t := by
  obtain ⟨e0, e1, e2, e3⟩ := code_parse sys he toInt h h1 h2 h3
  unfold codeMain
  rw [e0]
  simp only
  rw [e1, e2, e3]

/-- The explore command runs with the options that have been written. -/
theorem C122_explore (sys : Sys) (he : sys.env.Ascii) (pr : Printer) (con : Console) (toInt : Str → Option Int)
    {ts : List Str} {occs : List Occ} {p : Str} (h : Line codeTable ts occs [p])
    {enc : Option Str} {n : Option Int} {t : Bool}
    (h1 : LastIs occs optEncoding enc) (h2 : NumberIs toInt occs optNumChars n)
    (h3 : t = true ↔ Flagged occs optPandas) :
    exploreMain sys pr con toInt ts = exploreCmd sys pr con p enc n t := by
  obtain ⟨e0, e1, e2, e3⟩ := code_parse sys he toInt h h1 h2 h3
  unfold exploreMain
  rw [e0]
  simp only
  rw [e1, e2, e3]

/-- The standardize command runs with the options that have been written. -/
theorem C122_standardize (sys : Sys) (he : sys.env.Ascii) (toInt : Str → Option Int)
    {ts : List Str} {occs : List Occ} {a : StdArgs} (h : Line stdTable ts occs a.paths)
    (h1 : AllAre occs optEncoding a.encodings) (h2 : AllAre occs optOutput a.outputs)
    (h3 : NumberIs toInt occs optNumChars a.numChars) (h4 : LastIs occs optTarget a.target)
    (h5 : a.inPlace = true ↔ Flagged occs optInPlace) (h6 : a.transpose = true ↔ Flagged occs optTranspose) :
    standardizeMain sys toInt ts = standardize sys a := by
  have hc := C122_tables.2.2.2
  have hx := line_opts h
  have e1 := allValues_eq hc hx (o := optEncoding) (by decide) h1
  have e2 := allValues_eq hc hx (o := optOutput) (by decide) h2
  have e3 := numCharsOf_eq hc hx (by decide) h3
  have e3' := numbers_ok hc hx (by decide) h3
  have e4 := lastValue_eq hc hx (o := optTarget) (by decide) h4
  have e5 := givenOpt_bool hc hx (o := optInPlace) (by decide) h5
  have e6 := givenOpt_bool hc hx (o := optTranspose) (by decide) h6
  have hpar : stdTable.parse sys.env toInt ts = some (occs, a.paths) := by
    rw [parse_of_line hc he toInt h]
    have g2 : stdTable.ints.any (fun i => (allValues occs i).any fun v => (toInt v).isNone) = false := by
      simp only [stdTable, List.any_cons, List.any_nil, Bool.or_false]
      exact e3'
    unfold Cmd.checks
    rw [g2]; rfl
  unfold standardizeMain
  rw [hpar]
  simp only
  rw [show "encoding".toList = optEncoding.long from rfl, e1, show "output".toList = optOutput.long from rfl, e2, e3,
    show "in-place".toList = optInPlace.long from rfl, e5, show "target-encoding".toList = optTarget.long from rfl, e4,
    show "transpose".toList = optTranspose.long from rfl, e6]

/-- Of the order of the options, only that of the values of the same option counts, and the spelling does not count. -/
theorem C122_order {cmd : Cmd} (hc : cmd.Ok) {env : PyEnv} (he : env.Ascii) (toInt : Str → Option Int)
    {ts ts' : List Str} {occs occs' : List Occ} {ws : List Str} (h : Line cmd ts occs ws) (h' : Line cmd ts' occs' ws)
    (hs : ∀ o ∈ cmd.opts, occs.filter (fun x => decide (x.opt = o)) = occs'.filter (fun x => decide (x.opt = o))) :
    (cmd.parse env toInt ts = none ∧ cmd.parse env toInt ts' = none) ∨
    (cmd.parse env toInt ts = some (occs, ws) ∧ cmd.parse env toInt ts' = some (occs', ws) ∧
      (∀ n, allValues occs n = allValues occs' n) ∧ ∀ n, givenOpt occs n = givenOpt occs' n) := by
  obtain ⟨g1, g2⟩ := same_values hc (line_opts h) (line_opts h') hs
  rw [parse_of_line hc he toInt h, parse_of_line hc he toInt h']
  unfold Cmd.checks
  simp only [g1, g2]
  by_cases c1 : (cmd.exclusive.any fun x => givenOpt occs' x.1 && givenOpt occs' x.2) = true
  · left; simp [c1]
  · by_cases c2 : (cmd.ints.any fun i => (allValues occs' i).any fun v => (toInt v).isNone) = true
    · left; simp [c2]
    · right
      rw [if_neg c1, if_neg c2, if_neg c1, if_neg c2]
      exact ⟨rfl, rfl, fun _ => trivial, fun _ => trivial⟩

/-- `--plain` and `--json` exclude each other: in any order and spelling, the exit code is 2 and nothing is done. -/
theorem C122_exclusive (sys : Sys) (he : sys.env.Ascii) (pr : Printer) (toInt : Str → Option Int) (rt : Elapsed)
    {ts : List Str} {occs : List Occ} {ws : List Str} (h : Line detectTable ts occs ws)
    (h1 : Flagged occs optPlain) (h2 : Flagged occs optJson) : detectMain sys pr toInt rt ts = pure 2 := by
  have hc := C122_tables.1
  have hx := line_opts h
  have e1 := (givenOpt_iff hc hx (o := optPlain) (by decide)).mpr h1
  have e2 := (givenOpt_iff hc hx (o := optJson) (by decide)).mpr h2
  have hpar : detectTable.parse sys.env toInt ts = none := by
    rw [parse_of_line hc he toInt h]
    have g : detectTable.exclusive.any (fun x => givenOpt occs x.1 && givenOpt occs x.2) = true := by
      simp only [detectTable, List.any_cons, List.any_nil, Bool.or_false]
      rw [show "plain".toList = optPlain.long from rfl, show "json".toList = optJson.long from rfl, e1, e2]; rfl
    unfold Cmd.checks
    rw [if_pos g]
  unfold detectMain
  rw [hpar]

/-- What a command does with a command line that is not understood: the exit code is 2 and nothing is done. -/
theorem C122_rejected (sys : Sys) (pr : Printer) (con : Console) (toInt : Str → Option Int) (rt : Elapsed) (ts : List Str) :
    (detectTable.parse sys.env toInt ts = none → detectMain sys pr toInt rt ts = pure 2) ∧
    (viewTable.parse sys.env toInt ts = none → viewMain sys toInt ts = pure (2, none)) ∧
    (codeTable.parse sys.env toInt ts = none → codeMain sys pr toInt ts = pure 2 ∧
      exploreMain sys pr con toInt ts = pure (2, none)) ∧
    (stdTable.parse sys.env toInt ts = none → standardizeMain sys toInt ts = pure 2) := by
  refine ⟨fun h => ?_, fun h => ?_, fun h => ⟨?_, ?_⟩, fun h => ?_⟩
  · unfold detectMain; rw [h]
  · unfold viewMain; rw [h]
  · unfold codeMain; rw [h]
  · unfold exploreMain; rw [h]
  · unfold standardizeMain; rw [h]

/-- A text for `--num-chars` that is not a number is not accepted. -/
theorem C122_not_a_number {cmd : Cmd} (hc : cmd.Ok) {env : PyEnv} (he : env.Ascii) (toInt : Str → Option Int)
    (ho : optNumChars ∈ cmd.opts) (hi : optNumChars.long ∈ cmd.ints) {ts : List Str} {occs : List Occ} {ws : List Str}
    (h : Line cmd ts occs ws) {v : Str} (hv : ⟨optNumChars, some v⟩ ∈ occs) (hn : toInt v = none) :
    cmd.parse env toInt ts = none := by
  rw [parse_of_line hc he toInt h]
  unfold Cmd.checks
  have g : cmd.ints.any (fun i => (allValues occs i).any fun v => (toInt v).isNone) = true := by
    rw [List.any_eq_true]
    refine ⟨_, hi, ?_⟩
    rw [List.any_eq_true]
    refine ⟨v, ?_, by simp [hn]⟩
    rw [allValues_filter hc (line_opts h) ho]
    exact List.mem_filterMap.mpr ⟨_, List.mem_filter.mpr ⟨hv, by simp⟩, rfl⟩
  rw [g]
  split <;> rfl

/-- Without a path, with an unknown or ambiguous option before `--`, or with paths that do not stand together, a command line is not
accepted; a second path is accepted by the standardize command only. -/
theorem C122_errors {cmd : Cmd} (hc : cmd.Ok) {env : PyEnv} (he : env.Ascii) (toInt : Str → Option Int) :
    (∀ ps : List Piece, (∀ p ∈ ps, p.Good cmd) → cmd.parse env toInt (lineOf ps) = none) ∧
    (∀ ts1 t ts2, UnknownWord cmd t → (∀ x ∈ ts1, x ≠ "--".toList) → cmd.parse env toInt (ts1 ++ t :: ts2) = none) ∧
    (∀ (before mid : List Piece) (w1 w2 : Str) (ts : List Str), (∀ p ∈ before, p.Good cmd) → (∀ p ∈ mid, p.Good cmd) →
      PlainWord w1 → PlainWord w2 → (cmd.many = false ∨ mid ≠ []) →
      cmd.parse env toInt (lineOf before ++ w1 :: (lineOf mid ++ w2 :: ts)) = none) :=
  ⟨fun _ h => parse_no_path hc he toInt h, fun _ _ _ h h1 => parse_unknown he toInt h h1,
    fun _ _ _ _ ts hb hm h1 h2 h => parse_split hc he toInt hb hm h1 h2 ts h⟩

/-- A piece that gives the option `o` by its full name. -/
def fullName (o : Opt) (v : Option Str) : Piece := .name o o.long (v.map (true, ·))

/-- All calls of the standardize command can be made from the command line, except with the text `--` as a value. -/
theorem C122_standardize_all (sys : Sys) (he : sys.env.Ascii) (toInt : Str → Option Int) (a : StdArgs) (hp : a.paths ≠ [])
    (h1 : ∀ v ∈ a.encodings, v ≠ "--".toList) (h2 : ∀ v ∈ a.outputs, v ≠ "--".toList)
    (h3 : ∀ v ∈ a.target, v ≠ "--".toList) (h4 : ∀ n ∈ a.numChars, ∃ v, toInt v = some n ∧ v ≠ "--".toList) :
    ∃ ts, standardizeMain sys toInt ts = standardize sys a := by
  have hnum : ∃ w : Option Str, w.bind toInt = a.numChars ∧ (∀ v ∈ w, v ≠ "--".toList) ∧
      ∀ v ∈ w, ∃ i, toInt v = some i := by
    cases hn : a.numChars with
    | none => exact ⟨none, rfl, by simp, by simp⟩
    | some n =>
      obtain ⟨v, hv, hv'⟩ := h4 n (by rw [hn]; rfl)
      exact ⟨some v, by simpa using hv, by simpa using hv', by simpa using ⟨n, hv⟩⟩
  obtain ⟨w, hw, hw', hw''⟩ := hnum
  let ps : List Piece := a.encodings.map (fun v => fullName optEncoding (some v)) ++
    a.outputs.map (fun v => fullName optOutput (some v)) ++ w.toList.map (fun v => fullName optNumChars (some v)) ++
    a.target.toList.map (fun v => fullName optTarget (some v)) ++
    (if a.inPlace then [fullName optInPlace none] else []) ++ (if a.transpose then [fullName optTranspose none] else [])
  have hgood : ∀ p ∈ ps, p.Good stdTable := by
    have full : ∀ (o : Opt) (v : Option Str), o ∈ stdTable.opts → o.long ≠ [] → o.takes = v.isSome →
        (∀ x ∈ v, x ≠ "--".toList) → (fullName o v).Good stdTable := by
      intro o v ho hl ht hv
      refine ⟨ho, hl, List.prefix_rfl, Or.inl rfl, ?_, ?_⟩
      · cases v <;> simpa using ht
      · cases v with
        | none => trivial
        | some x => exact hv x rfl
    intro p hp
    simp only [ps, List.mem_append, List.mem_map, Option.mem_toList] at hp
    rcases hp with ((((⟨v, hv, rfl⟩ | ⟨v, hv, rfl⟩) | ⟨v, hv, rfl⟩) | ⟨v, hv, rfl⟩) | hp) | hp
    · exact full _ _ (by decide) (by decide) rfl (fun x hx => by cases hx; exact h1 v hv)
    · exact full _ _ (by decide) (by decide) rfl (fun x hx => by cases hx; exact h2 v hv)
    · exact full _ _ (by decide) (by decide) rfl (fun x hx => by cases hx; exact hw' v hv)
    · exact full _ _ (by decide) (by decide) rfl (fun x hx => by cases hx; exact h3 v hv)
    · split at hp
      · rw [List.mem_singleton] at hp; subst hp
        exact full _ _ (by decide) (by decide) rfl (by simp)
      · simp at hp
    · split at hp
      · rw [List.mem_singleton] at hp; subst hp
        exact full _ _ (by decide) (by decide) rfl (by simp)
      · simp at hp
  have hocc : givenBy ps = a.encodings.map (fun v => ⟨optEncoding, some v⟩) ++
      a.outputs.map (fun v => ⟨optOutput, some v⟩) ++ w.toList.map (fun v => ⟨optNumChars, some v⟩) ++
      a.target.toList.map (fun v => ⟨optTarget, some v⟩) ++
      (if a.inPlace then [⟨optInPlace, none⟩] else []) ++ (if a.transpose then [⟨optTranspose, none⟩] else []) := by
    have hm : ∀ (o : Opt) (l : List Str), givenBy (l.map fun v => fullName o (some v)) = l.map fun v => ⟨o, some v⟩ := by
      intro o l
      induction l with
      | nil => rfl
      | cons v l ih =>
        have : givenBy ((v :: l).map fun v => fullName o (some v)) =
            ⟨o, some v⟩ :: givenBy (l.map fun v => fullName o (some v)) := by
          simp [givenBy, fullName, Piece.occs]
        rw [this, ih]; rfl
    have ha : ∀ x y : List Piece, givenBy (x ++ y) = givenBy x ++ givenBy y := fun x y => by simp [givenBy]
    simp only [ps, ha, hm]
    cases a.inPlace <;> cases a.transpose <;> rfl
  have hline := Line.dashes (cmd := stdTable) ps a.paths hgood hp (fun h => absurd h (by decide))
  refine ⟨_, C122_standardize sys he toInt hline ?_ ?_ ?_ ?_ ?_ ?_⟩
  all_goals rw [hocc]
  · simp only [AllAre, List.filter_append, List.filter_map, Function.comp_def]
    cases a.inPlace <;> cases a.transpose <;>
      simp [show optOutput ≠ optEncoding by decide, show optNumChars ≠ optEncoding by decide,
        show optTarget ≠ optEncoding by decide, show optInPlace ≠ optEncoding by decide,
        show optTranspose ≠ optEncoding by decide]
  · simp only [AllAre, List.filter_append, List.filter_map, Function.comp_def]
    cases a.inPlace <;> cases a.transpose <;>
      simp [show optEncoding ≠ optOutput by decide, show optNumChars ≠ optOutput by decide,
        show optTarget ≠ optOutput by decide, show optInPlace ≠ optOutput by decide,
        show optTranspose ≠ optOutput by decide]
  · refine ⟨?_, w, ?_, hw⟩
    · intro x hx hxo
      simp only [List.mem_append, List.mem_map, Option.mem_toList] at hx
      rcases hx with ((((⟨v, hv, rfl⟩ | ⟨v, hv, rfl⟩) | ⟨v, hv, rfl⟩) | ⟨v, hv, rfl⟩) | hx) | hx
      · exact absurd hxo (by dsimp only; decide)
      · exact absurd hxo (by dsimp only; decide)
      · obtain ⟨i, hi⟩ := hw'' v hv
        exact ⟨v, i, rfl, hi⟩
      · exact absurd hxo (by dsimp only; decide)
      · split at hx
        · rw [List.mem_singleton] at hx; subst hx; exact absurd hxo (by dsimp only; decide)
        · simp at hx
      · split at hx
        · rw [List.mem_singleton] at hx; subst hx; exact absurd hxo (by dsimp only; decide)
        · simp at hx
    · cases w with
      | none =>
        intro x hx hxo
        simp only [List.mem_append, List.mem_map, Option.mem_toList] at hx
        rcases hx with ((((⟨v, hv, rfl⟩ | ⟨v, hv, rfl⟩) | ⟨v, hv, rfl⟩) | ⟨v, hv, rfl⟩) | hx) | hx
        · exact absurd hxo (by dsimp only; decide)
        · exact absurd hxo (by dsimp only; decide)
        · simp at hv
        · exact absurd hxo (by dsimp only; decide)
        · split at hx
          · rw [List.mem_singleton] at hx; subst hx; exact absurd hxo (by dsimp only; decide)
          · simp at hx
        · split at hx
          · rw [List.mem_singleton] at hx; subst hx; exact absurd hxo (by dsimp only; decide)
          · simp at hx
      | some v =>
        refine ⟨a.encodings.map (fun v => ⟨optEncoding, some v⟩) ++ a.outputs.map (fun v => ⟨optOutput, some v⟩),
          a.target.toList.map (fun v => ⟨optTarget, some v⟩) ++ (if a.inPlace then [⟨optInPlace, none⟩] else []) ++
          (if a.transpose then [⟨optTranspose, none⟩] else []), by simp, ?_⟩
        intro x hx hxo
        simp only [List.mem_append, List.mem_map, Option.mem_toList] at hx
        rcases hx with (⟨v, hv, rfl⟩ | hx) | hx
        · exact absurd hxo (by dsimp only; decide)
        · split at hx
          · rw [List.mem_singleton] at hx; subst hx; exact absurd hxo (by dsimp only; decide)
          · simp at hx
        · split at hx
          · rw [List.mem_singleton] at hx; subst hx; exact absurd hxo (by dsimp only; decide)
          · simp at hx
  · cases ht : a.target with
    | none =>
      intro x hx hxo
      simp only [List.mem_append, List.mem_map, Option.mem_toList] at hx
      rcases hx with ((((⟨v, hv, rfl⟩ | ⟨v, hv, rfl⟩) | ⟨v, hv, rfl⟩) | ⟨v, hv, rfl⟩) | hx) | hx
      · exact absurd hxo (by dsimp only; decide)
      · exact absurd hxo (by dsimp only; decide)
      · exact absurd hxo (by dsimp only; decide)
      · simp at hv
      · split at hx
        · rw [List.mem_singleton] at hx; subst hx; exact absurd hxo (by dsimp only; decide)
        · simp at hx
      · split at hx
        · rw [List.mem_singleton] at hx; subst hx; exact absurd hxo (by dsimp only; decide)
        · simp at hx
    | some v =>
      refine ⟨a.encodings.map (fun v => ⟨optEncoding, some v⟩) ++ a.outputs.map (fun v => ⟨optOutput, some v⟩) ++
        w.toList.map (fun v => ⟨optNumChars, some v⟩),
        (if a.inPlace then [⟨optInPlace, none⟩] else []) ++ (if a.transpose then [⟨optTranspose, none⟩] else []),
        by simp, ?_⟩
      intro x hx hxo
      simp only [List.mem_append] at hx
      rcases hx with hx | hx
      · split at hx
        · rw [List.mem_singleton] at hx; subst hx; exact absurd hxo (by dsimp only; decide)
        · simp at hx
      · split at hx
        · rw [List.mem_singleton] at hx; subst hx; exact absurd hxo (by dsimp only; decide)
        · simp at hx
  · constructor
    · intro hi; exact ⟨⟨optInPlace, none⟩, by simp [hi], rfl⟩
    · rintro ⟨x, hx, hxo⟩
      simp only [List.mem_append, List.mem_map, Option.mem_toList] at hx
      rcases hx with ((((⟨v, hv, rfl⟩ | ⟨v, hv, rfl⟩) | ⟨v, hv, rfl⟩) | ⟨v, hv, rfl⟩) | hx) | hx
      · exact absurd hxo (by dsimp only; decide)
      · exact absurd hxo (by dsimp only; decide)
      · exact absurd hxo (by dsimp only; decide)
      · exact absurd hxo (by dsimp only; decide)
      · cases hi : a.inPlace with
        | true => rfl
        | false => simp [hi] at hx
      · split at hx
        · rw [List.mem_singleton] at hx; subst hx; exact absurd hxo (by dsimp only; decide)
        · simp at hx
  · constructor
    · intro hi; exact ⟨⟨optTranspose, none⟩, by simp [hi], rfl⟩
    · rintro ⟨x, hx, hxo⟩
      simp only [List.mem_append, List.mem_map, Option.mem_toList] at hx
      rcases hx with ((((⟨v, hv, rfl⟩ | ⟨v, hv, rfl⟩) | ⟨v, hv, rfl⟩) | ⟨v, hv, rfl⟩) | hx) | hx
      · exact absurd hxo (by dsimp only; decide)
      · exact absurd hxo (by dsimp only; decide)
      · exact absurd hxo (by dsimp only; decide)
      · exact absurd hxo (by dsimp only; decide)
      · split at hx
        · rw [List.mem_singleton] at hx; subst hx; exact absurd hxo (by dsimp only; decide)
        · simp at hx
      · cases hi : a.transpose with
        | true => rfl
        | false => simp [hi] at hx

/-! Examples: `standardize -tn5 --out=x.csv a.csv -e utf-8`, options between paths, a value that begins with a dash, and
ambiguous abbreviations. -/

/-- `int` on texts of ASCII digits. -/
def demoInt (s : Str) : Option Int :=
  if s ≠ [] ∧ s.all isDig then some (s.foldl (fun n c => 10 * n + (c.toNat - 48)) 0) else none

example : Line stdTable ["-tn5".toList, "--out=x.csv".toList, "a.csv".toList, "-e".toList, "utf-8".toList]
    [⟨optTranspose, none⟩, ⟨optNumChars, some ['5']⟩, ⟨optOutput, some "x.csv".toList⟩, ⟨optEncoding, some "utf-8".toList⟩]
    ["a.csv".toList] :=
  Line.mixed (cmd := stdTable) [.letters [optTranspose] optNumChars (some (true, ['5'])),
      .name optOutput "out".toList (some (true, "x.csv".toList))]
    [.letters [] optEncoding (some (false, "utf-8".toList))] ["a.csv".toList]
    (by
      intro p hp
      simp only [List.mem_cons, List.not_mem_nil, or_false] at hp
      rcases hp with rfl | rfl
      · exact ⟨by decide, by decide, by decide, rfl, by decide⟩
      · exact ⟨by decide, by decide, by decide, Or.inr (by decide), rfl, by decide⟩)
    (by
      intro p hp
      simp only [List.mem_cons, List.not_mem_nil, or_false] at hp
      subst hp
      exact ⟨by decide, by decide, by decide, rfl, Or.inl (by decide)⟩)
    (by decide) (by decide) (by intro w hw; simp only [List.mem_singleton] at hw; subst hw; exact Or.inl (by decide))

example : stdTable.parse asciiEnv demoInt
    ["-tn5".toList, "--out=x.csv".toList, "a.csv".toList, "-e".toList, "utf-8".toList] =
    some ([⟨optTranspose, none⟩, ⟨optNumChars, some ['5']⟩, ⟨optOutput, some "x.csv".toList⟩,
      ⟨optEncoding, some "utf-8".toList⟩], ["a.csv".toList]) := by decide

example : stdTable.parse asciiEnv demoInt ["a.csv".toList, "b.csv".toList, "-t".toList] =
      some ([⟨optTranspose, none⟩], ["a.csv".toList, "b.csv".toList]) ∧
    stdTable.parse asciiEnv demoInt ["a.csv".toList, "-t".toList, "b.csv".toList] = none := by decide

example : stdTable.parse asciiEnv demoInt ["-o".toList, "-x.csv".toList, "a.csv".toList] = none ∧
    stdTable.parse asciiEnv demoInt ["-o-x.csv".toList, "a.csv".toList] =
      some ([⟨optOutput, some "-x.csv".toList⟩], ["a.csv".toList]) := by decide

example : stdTable.parse asciiEnv demoInt ["--t".toList, "a.csv".toList] = none ∧
    stdTable.parse asciiEnv demoInt ["--tr".toList, "a.csv".toList] =
      some ([⟨optTranspose, none⟩], ["a.csv".toList]) := by decide

example : UnknownWord viewTable "--plain".toList :=
  UnknownWord.name "plain".toList [] (by decide) (by decide) (Or.inl rfl) (by decide) (by decide)

example : UnknownWord viewTable "-px".toList := UnknownWord.letter 'p' ['x'] (by decide) (by decide) (by decide)

example : UnknownWord stdTable "--t".toList :=
  UnknownWord.ambiguous "t".toList [] (by decide) (by decide) (Or.inl rfl) optTarget optTranspose (by decide) (by decide)
    (by decide) (by decide) (by decide) (by decide)

end Clever
