import Verif.Spec.Runtime
import Verif.Props.JsonText
import Verif.Props.Program
import Verif.Props.Verbose
import Verif.Props.DataFrame

/-!
# Properties C115 (`--add-runtime`) and C116 (the explore command)
-/

namespace Clever.Props

open Clever Spec

/-! ## C115 -/

/-- **C115**, without the option: nothing changes. -/
theorem C115_off (sys : Sys) (pr : Printer) (p : Path) (enc : Option Str) (n : Option Int) (consistency noSkip : Bool)
    (format : DetectFormat) :
    detectCmdT sys pr p enc n consistency noSkip format none = detectCmd sys pr p enc n consistency noSkip format := by
  have h : ∀ d, detectLinesT sys.env pr d none format = detectLines sys.env pr d format := by
    intro d
    cases format with
    | plain => simp [detectLinesT, detectLines, bind, Except.bind, pure, Except.pure]
    | json => simp [detectLinesT, detectLines]
    | default => simp [detectLinesT, detectLines, bind, Except.bind, pure, Except.pure]
  unfold detectCmdT detectCmd
  simp only [h]
  rfl

/-- The line that the option adds. -/
def runtimeLine (t : Elapsed) : DetectFormat → Str
  | .plain => "runtime = ".toList ++ t.repr
  | _ => "Runtime: ".toList ++ t.fixed ++ " seconds".toList

/-- **C115**, the other formats: the option adds a last line if a dialect is detected, and changes nothing else. -/
theorem C115_line (sys : Sys) (pr : Printer) (p : Path) (enc : Option Str) (n : Option Int) (consistency noSkip : Bool)
    (format : DetectFormat) (hf : format ≠ .json) (t : Elapsed) (w : World) :
    let r := detectCmd sys pr p enc n consistency noSkip format w
    detectCmdT sys pr p enc n consistency noSkip format (some t) w =
      (r.1, { r.2 with stdout := r.2.stdout ++ if r.1 = .ok 0 then runtimeLine t format ++ ['\n'] else [] }) := by
  unfold detectCmdT detectCmd
  simp only [act_bind]
  obtain ⟨r, w1, hd⟩ : ∃ r w1, detectDialect sys p n enc (if consistency then "consistency".toList else "auto".toList)
      (!noSkip) w = (r, w1) := ⟨_, _, rfl⟩
  simp only [hd]
  cases r with
  | error e => simp
  | ok r =>
    cases r with
    | none => simp
    | some d =>
      obtain ⟨L, h1, h2⟩ : ∃ L, detectLines sys.env pr d format = .ok L ∧
          detectLinesT sys.env pr d (some t) format = .ok (L ++ [runtimeLine t format]) := by
        cases format with
        | json => exact absurd rfl hf
        | plain => exact ⟨_, rfl, rfl⟩
        | default => exact ⟨_, rfl, rfl⟩
      simp only [h1, h2]
      simp [liftExcept, printText, act_bind]

theorem encodeStr_text (k : Str) : StringText k (encodeStr k) := by
  obtain ⟨r, h1, h2⟩ := decodeQuoted_iff.1 (decodeQuoted_encode k [])
  simp only [List.append_nil] at h2
  exact h2 ▸ h1

theorem encodeVal_text {lim d : Nat} {v : JVal} (h : v.flat = true) : ValueText lim d v (encodeVal v) := by
  cases v with
  | str s => exact encodeStr_text s
  | bool b => cases b <;> rfl
  | null => rfl
  | other t => cases h

/-- What `dumps` gives is a JSON text of the members. -/
theorem encodeItems_text {lim d : Nat} : ∀ {ps : List (Str × JVal)}, ps ≠ [] →
    (∀ p ∈ ps, ValueText lim d p.2 (encodeVal p.2)) → ∀ a, IsJsonSpace a → MembersText lim d ps (a ++ encodeItems ps)
  | [], h, _, _, _ => absurd rfl h
  | [(k, v)], _, h, a, ha => by
    refine .one ⟨a, encodeStr k, [], [' '], encodeVal v, [], ha, encodeStr_text k, noSpace, by simp [IsJsonSpace],
      h (k, v) (by simp), noSpace, ?_⟩
    simp [encodeItems]
  | (k, v) :: p :: ps, _, h, a, ha => by
    have ih := encodeItems_text (ps := p :: ps) (by simp) (fun q hq => h q (List.mem_cons_of_mem _ hq)) [' ']
      (by simp [IsJsonSpace])
    have := MembersText.more (p := (k, v)) (s := a ++ (encodeStr k ++ ([] ++ ':' :: ([' '] ++ (encodeVal v ++ [])))))
      ⟨a, encodeStr k, [], [' '], encodeVal v, [], ha, encodeStr_text k, noSpace, by simp [IsJsonSpace],
        h (k, v) (by simp), noSpace, rfl⟩ ih
    simpa [encodeItems] using this

theorem dumps_text {lim d : Nat} {ps : List (Str × JVal)} (h0 : ps ≠ [])
    (h : ∀ p ∈ ps, ValueText lim d p.2 (encodeVal p.2)) : ObjectText lim (d + 1) ps (dumps ps) :=
  ⟨d, [], encodeItems ps, [], rfl, noSpace, noSpace, Or.inr (by simpa using encodeItems_text h0 h [] noSpace), rfl⟩

/-- A number is no string and no word. -/
theorem number_other {lim d : Nat} {t : Str} (h : IsJsonNumber lim t) : ValueText lim d (.other t) t := by
  obtain ⟨c, x, hc, hcd⟩ : ∃ c x, t = c :: x ∧ (digit c = true ∨ c = '-') := by
    obtain ⟨g, n, f, e, hg, hw, -, -, -, rfl⟩ := h
    obtain ⟨c, x, rfl, hc⟩ := isWhole_head hw
    rcases hg with rfl | rfl
    · exact ⟨c, _, rfl, .inl hc⟩
    · exact ⟨'-', _, rfl, .inr rfl⟩
  refine ⟨rfl, .number h, ?_, ?_⟩
  · rintro u ⟨b, -, rfl⟩
    simp only [List.cons.injEq] at hc
    rw [← hc.1] at hcd
    revert hcd; decide
  · intro hw
    simp only [jsonWords, List.mem_cons, List.not_mem_nil, or_false] at hw
    rcases hw with rfl | rfl | rfl <;>
      (simp at hc; rw [← hc.1] at hcd; revert hcd; decide)

/-- **C115**, JSON: with the option the command prints one line, a JSON text of the four members of the dialect and of
the runtime; both this line and the one without the option are read as the detected dialect by `deserialize`. -/
theorem C115_json (sys : Sys) (hn : sys.env.jsonDepth ≠ 0) (pr : Printer) (p : Path) (enc : Option Str)
    (n : Option Int) (consistency noSkip : Bool) (t : Elapsed) (ht : FloatText t.repr) (w w' : World)
    (h : detectCmdT sys pr p enc n consistency noSkip .json (some t) w = (.ok 0, w')) :
    ∃ d line line0, w'.stdout = w.stdout ++ (line ++ ['\n']) ∧ deserialize sys.env line = .ok d ∧
      (∃ ps, ObjectText sys.env.maxStrDigits sys.env.jsonDepth ps line ∧ LastValue ps "runtime" (.other t.repr)) ∧
      detectCmd sys pr p enc n consistency noSkip .json w = (.ok 0, { w' with stdout := w.stdout ++ (line0 ++ ['\n']) }) ∧
      deserialize sys.env line0 = .ok d := by
  unfold detectCmdT at h
  obtain ⟨r, w1, h1, h⟩ := bind_inv h
  have hm : DetectionMethod.ofString (if consistency then "consistency".toList else "auto".toList) =
      .ok (if consistency then .consistency else .auto) := by
    cases consistency <;> rfl
  obtain ⟨text, -, g2, -, -, g5⟩ := detectDialect_method hm h1
  cases r with
  | none => simp at h
  | some d =>
    obtain ⟨line0, l1, l2⟩ := C71_json _ _ _ _ _ _ d pr hn g2
    obtain ⟨hv, -⟩ := C40_valid _ _ _ _ _ _ _ _ (by simp) g2
    have hdict : d.toDict = .ok [("delimiter".toList, jOpt d.delimiter), ("quotechar".toList, jOpt d.quotechar),
        ("escapechar".toList, jOpt d.escapechar), ("strict".toList, .bool d.strict)] := by
      simp only [SimpleDialect.toDict, hv, bind, Except.bind, pure, Except.pure]
    obtain ⟨lines, w3, h3, h5⟩ := bind_inv h
    obtain ⟨h3', rfl⟩ := liftExcept_inv h3
    obtain ⟨_, w4, h4, h6⟩ := bind_inv h5
    cases h4
    cases h6
    simp only [detectLinesT, hdict, bind, Except.bind, pure, Except.pure, Except.ok.injEq, Option.map_some,
      Option.toList_some, List.cons_append, List.nil_append] at h3'
    subst h3'
    have hf : ∀ x, (jOpt x).flat = true := by intro x; cases x <;> rfl
    have hc : ∀ x, IsComponent (jOpt x) x := by
      intro x
      cases x with
      | none => exact Or.inl ⟨rfl, rfl⟩
      | some t => exact Or.inr ⟨t, rfl, rfl⟩
    obtain ⟨depth, hdep⟩ : ∃ k, sys.env.jsonDepth = k + 1 := ⟨sys.env.jsonDepth - 1, by omega⟩
    have hobj : ObjectText sys.env.maxStrDigits sys.env.jsonDepth
        [("delimiter".toList, jOpt d.delimiter), ("quotechar".toList, jOpt d.quotechar),
          ("escapechar".toList, jOpt d.escapechar), ("strict".toList, .bool d.strict),
          ("runtime".toList, .other t.repr)] (dumps
        [("delimiter".toList, jOpt d.delimiter), ("quotechar".toList, jOpt d.quotechar),
          ("escapechar".toList, jOpt d.escapechar), ("strict".toList, .bool d.strict),
          ("runtime".toList, .other t.repr)]) := by
      rw [hdep]
      refine dumps_text (by simp) ?_
      intro q hq
      simp only [List.mem_cons, List.not_mem_nil, or_false] at hq
      rcases hq with rfl | rfl | rfl | rfl | rfl
      · exact encodeVal_text (hf _)
      · exact encodeVal_text (hf _)
      · exact encodeVal_text (hf _)
      · exact encodeVal_text rfl
      · exact number_other (ht _)
    refine ⟨d, _, line0, by simp [g5], C103_deserialize.2 ⟨_, jOpt d.delimiter, jOpt d.quotechar, jOpt d.escapechar, hobj,
      ⟨[], _, rfl, ?_⟩, ⟨[_], _, rfl, ?_⟩, ⟨[_, _], _, rfl, ?_⟩, ⟨[_, _, _], _, rfl, ?_⟩, hc _, hc _, hc _⟩,
      ⟨_, hobj, ⟨[_, _, _, _], [], rfl, by simp⟩⟩, ?_, l2⟩
    · simp
    · simp
    · simp
    · simp
    · unfold detectCmd
      rw [act_bind_ok h1]
      simp only
      simp only [l1]
      rw [act_bind_ok (show liftExcept (.ok [line0]) _ = (.ok [line0], _) from rfl)]
      simp [printText, act_bind, g5]

/-! ## C116 -/

theorem pushAll_done {more : Str → Bool} {b done : List Str} {rc : Bool} {l : Str} {ls : List Str}
    (h : more (joinLines (b ++ [l])) = false) :
    pushAll (pyConsole more) (b, done) rc (l :: ls) =
      pushAll (pyConsole more) ([], done ++ [joinLines (b ++ [l])]) false ls :=
  congrArg (fun x => pushAll (pyConsole more) x.1 x.2 ls)
    (show (pyConsole more).push (b, done) l = (([], done ++ [joinLines (b ++ [l])]), false) from
      if_neg (by rw [h]; decide))

theorem pushAll_more {more : Str → Bool} {b done : List Str} {rc : Bool} {l : Str} {ls : List Str}
    (h : more (joinLines (b ++ [l])) = true) :
    pushAll (pyConsole more) (b, done) rc (l :: ls) = pushAll (pyConsole more) (b ++ [l], done) true ls :=
  congrArg (fun x => pushAll (pyConsole more) x.1 x.2 ls)
    (show (pyConsole more).push (b, done) l = ((b ++ [l], done), true) from if_pos h)

/-- The console runs the lines in groups. -/
theorem pushAll_groups (more : Str → Bool) (lines : List Str) : ∀ (b : List Str) (rc : Bool) (done : List Str),
    (lines = [] → rc = !b.isEmpty) →
    ∃ groups rest, Groups (b ++ lines) (groups ++ if rest = [] then [] else [rest]) ∧
      (∀ g ∈ groups, more (joinLines g) = false) ∧
      pushAll (pyConsole more) (b, done) rc lines = ((rest, done ++ groups.map joinLines), !rest.isEmpty) := by
  induction lines with
  | nil =>
    intro b rc done h
    refine ⟨[], b, ?_, by simp, ?_⟩
    · split
      · rename_i hb; simp [Groups, hb]
      · rename_i hb; simpa [Groups] using hb
    · simp only [pushAll, h rfl, List.map_nil, List.append_nil]
      rfl
  | cons line lines ih =>
    intro b rc done _
    by_cases hm : more (joinLines (b ++ [line])) = true
    · obtain ⟨gs, rest, ⟨h1, h2⟩, hg, h3⟩ := ih (b ++ [line]) true done (by simp)
      exact ⟨gs, rest, ⟨by simpa using h1, h2⟩, hg, (pushAll_more hm).trans h3⟩
    · obtain ⟨gs, rest, ⟨h1, h2⟩, hg, h3⟩ := ih [] false (done ++ [joinLines (b ++ [line])]) (by simp)
      refine ⟨(b ++ [line]) :: gs, rest, ⟨?_, ?_⟩, ?_, ?_⟩
      · simp only [List.cons_append, List.flatten_cons, h1]; simp
      · intro g hg
        simp only [List.cons_append, List.mem_cons] at hg
        rcases hg with rfl | hg
        · simp
        · exact h2 g hg
      · intro g hg'
        rcases List.mem_cons.1 hg' with rfl | hg'
        · simpa using hm
        · exact hg g hg'
      · rw [pushAll_done (by simpa using hm), h3, List.map_cons, List.append_assoc]
        rfl

/-- **C116**: when the explore command starts a session, the console has run the lines that the code command prints, in
order and in groups, and nothing is left in its buffer. -/
theorem C116_sources_partial (sys : Sys) (pr : Printer) (more : Str → Bool) (p : Path) (enc : Option Str) (n : Option Int)
    (pandas : Bool) (w w' : World) (c : Nat) (s : List Str × List Str) (banner : Str)
    (h : exploreCmd sys pr (pyConsole more) p enc n pandas w = (.ok (c, some (s, banner)), w')) :
    s.1 = [] ∧ ∃ lines groups, Groups lines groups ∧ (∀ g ∈ groups, more (joinLines g) = false) ∧
      s.2 = groups.map joinLines ∧ (codeCmd sys pr p enc n pandas w).1 = .ok 0 ∧
      (codeCmd sys pr p enc n pandas w).2.stdout = w.stdout ++ joinLines lines ++ ['\n'] := by
  obtain ⟨-, -, h | ⟨lines, h1, h2, last, hlast, h3⟩⟩ := C90_explore sys pr (pyConsole more) p enc n pandas w w' c _ h
  · exact absurd h.2.1 (by simp)
  rcases h3 with ⟨-, -, h3, -⟩ | ⟨h3, -, b, h4⟩
  · exact absurd h3 (by simp)
  obtain ⟨k1, k2⟩ := pushAll_eq (pyConsole more) lines (pyConsole more).init false
  obtain ⟨gs, rest, hg, hm, hp⟩ := pushAll_groups more lines [] false [] (by simp)
  have k3 := k2 last (by rw [hlast]; rfl)
  rw [show pushAll (pyConsole more) (pyConsole more).init false lines = _ from hp] at k1 k3
  have hs : s = (rest, [] ++ gs.map joinLines) := (congrArg Prod.fst (Option.some.inj h4)).trans k1.symm
  have hr : rest = [] := by
    have : (!rest.isEmpty) = false := k3.trans h3
    simpa using this
  subst hr
  exact ⟨by rw [hs], lines, gs, by simpa using hg, hm, by rw [hs]; rfl, h1, h2⟩

theorem last_join : ∀ (ls : List Str) (l : Str), l ≠ [] → (joinLines (ls ++ [l])).getLast? = l.getLast?
  | [], l, _ => rfl
  | [x], l, h => by
    show (x ++ '\n' :: l).getLast? = _
    rw [List.getLast?_append, List.getLast?_cons]
    cases hl : l.getLast? with
    | none => exact absurd (List.getLast?_eq_none_iff.1 hl) h
    | some c => simp
  | x :: y :: ls, l, h => by
    have ih := last_join (y :: ls) l h
    show (x ++ '\n' :: joinLines (y :: ls ++ [l])).getLast? = _
    rw [List.getLast?_append, List.getLast?_cons, ih]
    cases hl : l.getLast? with
    | none => exact absurd (List.getLast?_eq_none_iff.1 hl) h
    | some c => simp

theorem suffix_join : ∀ (ls : List Str) {l : Str}, "\n".toList <:+ joinLines (l :: ls ++ [[]])
  | [], l => ⟨l, rfl⟩
  | m :: ls, l => by
    obtain ⟨t, ht⟩ := suffix_join ls (l := m)
    exact ⟨l ++ '\n' :: t, by rw [List.append_assoc, List.cons_append, ht]; rfl⟩

theorem codeArgs_last (pr : Printer) (d : SimpleDialect) (q : Str) : (codeArgs pr d q).getLast? = some ')' := by
  unfold codeArgs
  rw [show ")".toList = [')'] from rfl]
  exact List.getLast?_concat

/-- A `with` statement with a block of two lines. -/
theorem push_with {more : Str → Bool} (hc : WithNeedsMore more) {A B C t : Str} (hA : A = "with ".toList ++ t)
    (hA' : A.getLast? = some ':') (hB : B.getLast? = some ')') (hC : C.getLast? = some ')') (done : List Str) (rc : Bool) :
    pushAll (pyConsole more) ([], done) rc [A, B, C, []] = (([], done ++ [joinLines [A, B, C, []]]), false) := by
  have hyes : ∀ source c, "with ".toList <+: source → source.getLast? = some c → c ≠ '\n' → more source = true := by
    intro source c hs hl hne
    refine (hc _).2 ⟨hs, ?_⟩
    rintro ⟨u, hu⟩
    rw [← hu, List.getLast?_append] at hl
    exact hne (by simpa using hl.symm)
  have ne : ∀ {l : Str} {c : Char}, l.getLast? = some c → l ≠ [] := by
    rintro l c h rfl
    cases h
  have h1 : more (joinLines ([] ++ [A])) = true := hyes _ ':' ⟨t, hA.symm⟩ hA' (by decide)
  have h2 : more (joinLines ([] ++ [A] ++ [B])) = true := by
    refine hyes _ ')' ?_ ((last_join [A] B (ne hB)).trans hB) (by decide)
    exact ⟨t ++ '\n' :: B, by rw [← List.append_assoc, ← hA]; rfl⟩
  have h3 : more (joinLines ([] ++ [A] ++ [B] ++ [C])) = true := by
    refine hyes _ ')' ?_ ((last_join [A, B] C (ne hC)).trans hC) (by decide)
    exact ⟨t ++ '\n' :: (B ++ '\n' :: C), by rw [← List.append_assoc, ← hA]; rfl⟩
  have h4 : more (joinLines ([] ++ [A] ++ [B] ++ [C] ++ [[]])) = false := by
    cases hm : more (joinLines ([] ++ [A] ++ [B] ++ [C] ++ [[]])) with
    | false => rfl
    | true => exact absurd (suffix_join [B, C]) ((hc _).1 hm).2
  rw [pushAll_more h1, pushAll_more h2, pushAll_more h3, pushAll_done h4]
  rfl

/-- **C116**, for correct programs: if more lines are needed exactly after the beginning of a `with` statement, the explore
command starts a session whenever the code command succeeds.  The console has then run the lines one by one, except that
the `with` statement with its block is run as a whole. -/
theorem C116_session_partial (sys : Sys) (pr : Printer) (more : Str → Bool) (hc : WithNeedsMore more) (p : Path) (enc : Option Str)
    (n : Option Int) (pandas : Bool) (w : World) (h : (codeCmd sys pr p enc n pandas w).1 = .ok 0) :
    ∃ single block banner, (exploreCmd sys pr (pyConsole more) p enc n pandas w).1 =
        .ok (0, some (([], single ++ [joinLines block]), banner)) ∧
      (codeCmd sys pr p enc n pandas w).2.stdout = w.stdout ++ joinLines (single ++ block) ++ ['\n'] ∧
      block.length = if pandas then 1 else 4 := by
  have hno : ∀ source : Str, source.head? ≠ some 'w' → more source = false := by
    intro source hs
    cases hm : more source with
    | false => rfl
    | true =>
      obtain ⟨⟨t, rfl⟩, -⟩ := (hc source).1 hm
      exact absurd rfl hs
  have key : ∀ d e lines, generateCode pr p d e pandas = .ok lines → ∃ single block,
      pushAll (pyConsole more) (pyConsole more).init false lines = (([], single ++ [joinLines block]), false) ∧
      lines = single ++ block ∧ block.length = if pandas then 1 else 4 := by
    intro d e lines hl
    unfold generateCode at hl
    split at hl
    · cases hl
    rename_i q _
    have h0 : more (joinLines ([] ++ [[]])) = false := hno _ (by simp [joinLines])
    have h1 : more (joinLines ([] ++ ["# Code generated with CleverCSV version ".toList ++ pr.version])) = false :=
      hno _ (show some '#' ≠ some 'w' by decide)
    have h2 : more (joinLines ([] ++ ["import clevercsv".toList])) = false := hno _ (show some 'i' ≠ some 'w' by decide)
    split at hl
    · rename_i hp
      cases hl
      simp only [codeBase, List.cons_append, List.nil_append]
      rw [show (pyConsole more).init = ([], []) from rfl]
      have h3 : more (joinLines ([] ++ ["df = clevercsv.read_dataframe(\"".toList ++ p ++ "\", ".toList ++ codeArgs pr d q])) =
          false := hno _ (show some 'd' ≠ some 'w' by decide)
      rw [pushAll_done h0, pushAll_done h1, pushAll_done h0, pushAll_done h2, pushAll_done h0,
        pushAll_done h3, pushAll_done h0]
      exact ⟨[_, _, _, _, _, _], [[]], rfl, rfl, by rw [if_pos hp]; rfl⟩
    · rename_i hp
      obtain ⟨E, rfl⟩ : ∃ E, lines = codeBase pr ++ [[],
          "with open(\"".toList ++ p ++ "\", \"r\", newline=\"\", encoding=".toList ++ E ++ ") as fp:".toList,
          "    reader = clevercsv.reader(fp, ".toList ++ codeArgs pr d q, "    rows = list(reader)".toList, []] := by
        cases hl
        exact ⟨_, rfl⟩
      simp only [codeBase, List.cons_append, List.nil_append]
      rw [show (pyConsole more).init = ([], []) from rfl]
      rw [pushAll_done h0, pushAll_done h1, pushAll_done h0, pushAll_done h2, pushAll_done h0]
      have h3 := push_with hc (A := "with open(\"".toList ++ p ++ "\", \"r\", newline=\"\", encoding=".toList ++ E ++ ") as fp:".toList)
        (B := "    reader = clevercsv.reader(fp, ".toList ++ codeArgs pr d q) (C := "    rows = list(reader)".toList)
        (t := "open(\"".toList ++ (p ++ ("\", \"r\", newline=\"\", encoding=".toList ++ (E ++ ") as fp:".toList))))
        (by simp only [List.append_assoc]; rfl)
        (by rw [List.getLast?_append]; rfl) (by rw [List.getLast?_append, codeArgs_last]; rfl) rfl
      rw [h3]
      exact ⟨[_, _, _, _, _], [_, _, _, _], rfl, rfl, by rw [if_neg hp]; rfl⟩
  unfold codeCmd at h
  unfold exploreCmd codeCmd
  obtain ⟨e, w1, g1, gs1⟩ : ∃ e w1, encodingOr sys p enc w = (.ok e, w1) ∧ w1.stdout = w.stdout := by
    cases he : encodingOr sys p enc w with
    | mk r w1 =>
      cases r with
      | error x => simp only [act_bind, he] at h; cases h
      | ok e => exact ⟨e, w1, rfl, (stdChoose_inv (he : stdChoose sys p enc w = (.ok e, w1))).2.2.2⟩
  rw [act_bind_ok g1] at h ⊢
  rw [act_bind_ok g1]
  obtain ⟨r, w2, g2, gs2⟩ : ∃ r w2, detectDialect sys p n e "auto".toList true w1 = (.ok r, w2) ∧ w2.stdout = w1.stdout := by
    cases he : detectDialect sys p n e "auto".toList true w1 with
    | mk r w2 =>
      cases r with
      | error x => simp only [act_bind, he] at h; cases h
      | ok r =>
        obtain ⟨text, -, -, -, -, g5⟩ := detectDialect_inv he
        exact ⟨r, w2, rfl, g5⟩
  rw [act_bind_ok g2] at h ⊢
  rw [act_bind_ok g2]
  cases r with
  | none => cases h
  | some d =>
    simp only [act_bind, liftExcept] at h ⊢
    cases hg : generateCode pr p d e pandas with
    | error x => rw [hg] at h; cases h
    | ok lines =>
      obtain ⟨single, block, k1, k2, k3⟩ := key d e lines hg
      simp only [k1, Bool.false_eq_true, if_false, printText]
      refine ⟨single, block, _, rfl, ?_, k3⟩
      show w2.stdout ++ _ = _
      rw [gs2, gs1, k2, List.append_assoc]

instance (more : Str → Bool) : DecidableEq (pyConsole more).State := inferInstanceAs (DecidableEq (List Str × List Str))

/-- **C116** fails for the announcement: for a file with a quote in its name the program is not correct, so that no line
waits for further ones, and the explore command says nevertheless that the data has been loaded, and exits with 0. -/
theorem C116_announcement_violated :
    let w := demoWorld [("a\"b", "x,y\n1,2\n")]
    let r := exploreCmd demoSys demoPrinter (pyConsole fun _ => false) "a\"b".toList none none false w
    let c := codeCmd demoSys demoPrinter "a\"b".toList none none false w
    c.1 = .ok 0 ∧ runProgram demoSys c.2 c.2.stdout = none ∧
    ∃ s, r.1 = .ok (0, some (s, "CleverCSV has loaded the data into the variable: rows".toList)) := by
  exact ⟨by decide +kernel, by decide +kernel, (pushAll (pyConsole fun _ => false) ([], []) false
    (["", "# Code generated with CleverCSV version 0.8.3", "", "import clevercsv", "",
      "with open(\"a\"b\", \"r\", newline=\"\", encoding=\"ascii\") as fp:",
      "    reader = clevercsv.reader(fp, delimiter=\",\", quotechar=\"\", escapechar=\"\")",
      "    rows = list(reader)", ""].map String.toList)).1, by decide +kernel⟩

/-! Examples -/

/-- What Python does with the lines of a correct program. -/
def demoMore (s : Str) : Bool := "with ".toList.isPrefixOf s && !"\n".toList.isSuffixOf s

example : WithNeedsMore demoMore := by
  intro s
  simp only [demoMore, Bool.and_eq_true, Bool.not_eq_true', List.isPrefixOf_iff_prefix]
  rw [← List.isSuffixOf_iff_suffix, Bool.not_eq_true]

example : (exploreCmd demoSys demoPrinter (pyConsole demoMore) "f".toList none none false
      (demoWorld [("f", "x;y\n1;2\n")])).1 =
    .ok (0, some ((([], [[], "# Code generated with CleverCSV version 0.8.3".toList, [], "import clevercsv".toList, [],
      "with open(\"f\", \"r\", newline=\"\", encoding=\"ascii\") as fp:\n    reader = clevercsv.reader(fp, delimiter=\";\", quotechar=\"\", escapechar=\"\")\n    rows = list(reader)\n".toList]) : List Str × List Str),
      "CleverCSV has loaded the data into the variable: rows".toList)) := by decide +kernel

/-- 0.0625 seconds. -/
def demoElapsed : Elapsed := ⟨"0.0625".toList, "0.062500".toList⟩

example : FloatText demoElapsed.repr := fun lim =>
  ⟨[], ['0'], ".0625".toList, [], .inl rfl, .inl rfl, .inr ⟨"0625".toList, by decide, by unfold AllIn; decide, rfl⟩, .inl rfl,
    fun h => by simp at h, rfl⟩

example :
    let w := demoWorld [("f", "a;b\nc;d\n")]
    let out := fun fm => (detectCmdT demoSys demoPrinter "f".toList none none false false fm (some demoElapsed) w).2.stdout
    out .default = printed ["Detected: SimpleDialect(';', '', '')", "Runtime: 0.062500 seconds"] ∧
    out .plain = printed ["delimiter = ;", "quotechar =", "escapechar =", "runtime = 0.0625"] ∧
    out .json = printed
      ["{\"delimiter\": \";\", \"quotechar\": \"\", \"escapechar\": \"\", \"strict\": false, \"runtime\": 0.0625}"] := by
  decide +kernel

end Clever.Props
