import Verif.Proofs.VerboseTerminal
import Verif.Props.Terminal
import Verif.Props.Verbose

/-!
# C129: the option `verbose` and the encoding of standard output
-/

namespace Clever.Props

open Clever Spec

theorem unwritable_char {t : Terminal} {s : Screen} {x : Str} (h : Unwritable t s x) (ha : HasAscii t.codec) (hl : Ascii t.linesep) :
    ∃ c ∈ x, 128 ≤ c.toNat := by
  by_contra hne
  have hx : Ascii x := fun c hc => by
    by_contra h1
    exact hne ⟨c, hc, by omega⟩
  have : ∀ y ∈ x.flatMap (fun c => if c = '\n' then t.linesep else [c]), ∀ s, (t.codec.step s y).isSome := by
    intro y hy s
    rw [List.mem_flatMap] at hy
    obtain ⟨c, hc, hy⟩ := hy
    split at hy
    · exact ha s y (hl y hy)
    · simp only [List.mem_singleton] at hy
      subst hy
      exact ha s y (hx y hc)
  obtain ⟨r, hr⟩ := encodeFrom_isSome _ s.enc this
  unfold Unwritable at h
  rw [hr] at h
  cases h

theorem unwritable_all {t : Terminal} {s : Screen} {x : Str} (h : Unwritable t s x) : ¬ HasAll t.codec := by
  intro ha
  obtain ⟨r, hr⟩ := encodeFrom_isSome (x.flatMap fun c => if c = '\n' then t.linesep else [c]) s.enc fun y _ s => ha s y
  unfold Unwritable at h
  rw [hr] at h
  cases h

theorem line_false_char {t : Terminal} {x : Str} {s s' : Out} (h : t.line x s = (false, s')) (ha : HasAscii t.codec)
    (hl : Ascii t.linesep) : Unwritable t s'.screen x ∧ ∃ c ∈ x, 128 ≤ c.toNat := by
  obtain ⟨before, y, after, h1, -, h3, -⟩ := line_false h
  have hc := unwritable_char h3 ha hl
  rcases before with _ | ⟨b, before⟩
  · cases h1
    exact ⟨h3, hc⟩
  · have : y = ['\n'] := by
      rcases before with _ | ⟨b', before⟩
      · cases h1; rfl
      · have := congrArg List.length h1
        simp at this
    subst this
    obtain ⟨c, hc1, hc2⟩ := hc
    simp only [List.mem_singleton] at hc1
    subst hc1
    exact absurd hc2 (by decide)

theorem scoreLoopV_form (pr : Printer) {v : Bool} {pat : SimpleDialect → Except PyExc ℚ}
    {typ : TypeCache → SimpleDialect → Except PyExc ℚ × TypeCache} {skip : Bool} :
    ∀ (ds : List SimpleDialect) (inc : Option ℚ) (cache : TypeCache) (scores : List (SimpleDialect × ConsistencyScore)),
      ∀ l ∈ (scoreLoopV pr v pat typ skip ds inc cache scores).2, ∃ d ∈ ds, ∃ c, l = scoreLine pr d c
  | [], _, _, _, l, h => by cases h
  | d :: ds, inc, cache, scores, l, h => by
    rw [scoreLoopV] at h
    cases hp : pat d with
    | error e => rw [hp] at h; cases h
    | ok P =>
      rw [hp] at h
      simp only at h
      split at h
      · simp only [List.mem_append] at h
        rcases h with h | h
        · exact ⟨d, by simp, _, say_mem h⟩
        · obtain ⟨d', hd, c, hc⟩ := scoreLoopV_form pr ds _ _ _ l h
          exact ⟨d', by simp [hd], c, hc⟩
      · rcases ht : typ cache d with ⟨e | T, cache'⟩
        · rw [ht] at h; cases h
        · rw [ht] at h
          simp only [List.mem_append] at h
          rcases h with h | h
          · exact ⟨d, by simp, _, say_mem h⟩
          · obtain ⟨d', hd, c, hc⟩ := scoreLoopV_form pr ds _ _ _ l h
            exact ⟨d', by simp [hd], c, hc⟩

theorem ascii_append {x y : Str} (hx : Ascii x) (hy : Ascii y) : Ascii (x ++ y) := fun c hc =>
  (List.mem_append.1 hc).elim (hx c) (hy c)

theorem ascii_padLeft {x : Str} (n : Nat) (hx : Ascii x) : Ascii (padLeft n x) :=
  ascii_append (fun c hc => by rw [List.eq_of_mem_replicate hc]; decide) hx

theorem ascii_fixed6 (q : ℚ) : Ascii (fixed6 q) := by
  unfold fixed6
  dsimp only
  refine ascii_append (ascii_decDigits _) fun c hc => ?_
  rcases List.mem_cons.1 hc with rfl | hc
  · decide
  · exact ascii_append (fun c hc => by rw [List.eq_of_mem_replicate hc]; decide) (ascii_decDigits _) c hc

/-- Only the dialect in a line of scores can have characters that are not ASCII. -/
theorem scoreLine_char {pr : Printer} {d : SimpleDialect} {sc : ConsistencyScore} {c : Char} (h : c ∈ scoreLine pr d sc)
    (hc : 128 ≤ c.toNat) : c ∈ d.repr pr := by
  have hno : ∀ x, Ascii x → c ∉ x := fun x hx h => by
    have := hx c h
    omega
  have hlit : ∀ x : String, x = ":\tP = " ∨ x = "\tT = " ∨ x = "\tQ = " ∨ x = "\tskip." → Ascii x.toList := by
    rintro x (rfl | rfl | rfl | rfl) <;> (unfold Ascii; decide)
  unfold scoreLine at h
  rcases List.mem_append.1 h with h | h
  · rcases List.mem_append.1 h with h | h
    · rcases List.mem_append.1 h with h | h
      · rcases List.mem_append.1 h with h | h
        · rw [List.eq_of_mem_replicate h] at hc
          exact absurd hc (by decide)
        · exact h
      · exact absurd h (hno _ (hlit _ (.inl rfl)))
    · exact absurd h (hno _ (ascii_padLeft _ (ascii_fixed6 _)))
  · split at h
    · exact absurd h (hno _ (ascii_append (ascii_append (ascii_append (hlit _ (.inr (.inl rfl)))
        (ascii_padLeft _ (ascii_fixed6 _))) (hlit _ (.inr (.inr (.inl rfl))))) (ascii_padLeft _ (ascii_fixed6 _))))
    · exact absurd h (hno _ (hlit _ (.inr (.inr (.inr rfl)))))

/-- The messages are ASCII, or the scores of a potential dialect. -/
theorem messages_form (pr : Printer) (v : Bool) (env : PyEnv) (ord : SetOrder) (limit : Int) (sample : Str)
    (ds : Option (List Str)) (m : Str) (skip : Bool) :
    ∀ l ∈ (detectStrV pr v env ord limit sample ds m skip).2,
      Ascii l ∨ ∃ d ∈ getDialects env ord sample ds, ∃ c, l = scoreLine pr d c := by
  intro l hl
  have hcon : ∀ l ∈ (consistencyDetectV pr v env ord (some 100000) skip limit sample ds).2,
      ∃ d ∈ getDialects env ord sample ds, ∃ c, l = scoreLine pr d c := by
    intro l hl
    rw [consistencyDetectV_snd] at hl
    unfold computeConsistencyScoresV at hl
    obtain ⟨S, h1, h2, h3⟩ := sortDialects_spec (getDialects env ord sample ds) (fun x hx => getDialects_isStr hx)
      (getDialects_nodup ..)
    rw [h1] at hl
    obtain ⟨d, hd, c, hc⟩ := scoreLoopV_form pr _ _ _ _ l hl
    exact ⟨d, h2.mem_iff.1 hd, c, hc⟩
  have hrun1 : Ascii "Running data consistency measure ...".toList := by unfold Ascii; decide
  have hrun2 : Ascii "Running normal form detection ...".toList := by unfold Ascii; decide
  have hc2 : ∀ l ∈ say v "Running data consistency measure ...".toList ++
      (consistencyDetectV pr v env ord (some 100000) skip limit sample ds).2,
      Ascii l ∨ ∃ d ∈ getDialects env ord sample ds, ∃ c, l = scoreLine pr d c := by
    intro l hl
    rcases List.mem_append.1 hl with hl | hl
    · exact .inl (by rw [say_mem hl]; exact hrun1)
    · exact .inr (hcon l hl)
  have hn2 : ∀ l ∈ say v "Running normal form detection ...".toList ++ (detectDialectNormalV v env sample ds).2, Ascii l := by
    intro l hl
    rcases List.mem_append.1 hl with hl | hl
    · rw [say_mem hl]; exact hrun2
    · exact ascii_normalV v env sample ds l hl
  unfold detectStrV at hl
  split at hl
  · cases hl
  · unfold detectV at hl
    dsimp only at hl
    split at hl
    · split at hl
      · exact .inl (hn2 l hl)
      · rcases List.mem_append.1 hl with hl | hl
        · exact .inl (hn2 l hl)
        · exact hc2 l hl
    · exact hc2 l hl

/-- **C129**, detection without `verbose` writes nothing. -/
theorem C129_quiet (t : Terminal) (pr : Printer) (env : PyEnv) (ord : SetOrder) (limit : Int) (sample : Str)
    (ds : Option (List Str)) (m : Str) (skip : Bool) (s : Out) :
    detectStrE t pr false env ord limit sample ds m skip s = (detectStr env ord limit sample ds m skip, s) := by
  rcases detectStrE_cases t pr false env ord limit sample ds m skip s with ⟨s', h1, h2⟩ | ⟨s', meth, lim, h1, -, -⟩
  · rw [detectStrV_silent] at h1
    cases h1
    rw [h2, detectStrV_fst]
  · rw [detectStrV_silent] at h1
    cases h1

/-- **C129**, detection with `verbose`: if the encoding has all characters the result, the method and the field size limit are
those without it, and the messages are written. -/
theorem C129_complete (t : Terminal) (ht : HasAll t.codec) (pr : Printer) (v : Bool) (env : PyEnv) (ord : SetOrder) (limit : Int)
    (sample : Str) (ds : Option (List Str)) (m : Str) (skip : Bool) (s : Out) :
    (detectStrE t pr v env ord limit sample ds m skip s).1 = detectStr env ord limit sample ds m skip ∧
    Written t s.screen (lineTexts (detectStrV pr v env ord limit sample ds m skip).2)
      (detectStrE t pr v env ord limit sample ds m skip s).2.screen := by
  rcases detectStrE_cases t pr v env ord limit sample ds m skip s with ⟨s', h1, h2⟩ | ⟨s', meth, lim, h1, -, -⟩
  · rw [h2, detectStrV_fst]
    exact ⟨rfl, (lines_true h1).1⟩
  · obtain ⟨_, x, _, -, -, h3, -⟩ := lines_false h1
    exact absurd ht (unwritable_all h3)

/-- **C129** as far as it holds, with an encoding that has the ASCII characters: either all is as without `verbose` and the
messages are written, or the scores of a potential dialect cannot be written; then this raises `UnicodeEncodeError`, the
messages before have been written, and the field size limit keeps the temporary value. -/
theorem C129_outcome_partial (t : Terminal) (ha : HasAscii t.codec) (hl : Ascii t.linesep) (pr : Printer) (v : Bool) (env : PyEnv)
    (ord : SetOrder) (limit : Int) (sample : Str) (ds : Option (List Str)) (m : Str) (skip : Bool) (s : Out) :
    ((detectStrE t pr v env ord limit sample ds m skip s).1 = detectStr env ord limit sample ds m skip ∧
      Written t s.screen (lineTexts (detectStrV pr v env ord limit sample ds m skip).2)
        (detectStrE t pr v env ord limit sample ds m skip s).2.screen) ∨
    (v = true ∧ (detectStrE t pr v env ord limit sample ds m skip s).1 =
        ⟨.error .unicodeError, some .consistency, (sample.length : Int) + 1⟩ ∧
      ∃ before x after, lineTexts (detectStrV pr v env ord limit sample ds m skip).2 = before ++ x :: after ∧
        Written t s.screen before (detectStrE t pr v env ord limit sample ds m skip s).2.screen ∧
        Unwritable t (detectStrE t pr v env ord limit sample ds m skip s).2.screen x ∧
        ∃ d ∈ getDialects env ord sample ds, (∃ sc, x = scoreLine pr d sc) ∧ ∃ c ∈ d.repr pr, 128 ≤ c.toNat) := by
  rcases detectStrE_cases t pr v env ord limit sample ds m skip s with ⟨s', h1, h2⟩ | ⟨s', meth, lim, h1, h2, h3⟩
  · left
    rw [h2, detectStrV_fst]
    exact ⟨rfl, (lines_true h1).1⟩
  · right
    have hv : v = true := by
      cases v with
      | true => rfl
      | false => rw [detectStrV_silent] at h1; cases h1
    subst hv
    rcases h3 with ⟨l, h3, ⟨s1, h4⟩, -⟩ | ⟨⟨l, hl1, s1, h4⟩, rfl, rfl⟩
    · obtain ⟨-, c, hc, h5⟩ := line_false_char h4 ha hl
      have := h3 c hc
      omega
    · rw [h2]
      refine ⟨rfl, rfl, ?_⟩
      obtain ⟨before, x, after, h5, h6, h7, -⟩ := lines_false h1
      refine ⟨before, x, after, h5, h6, h7, ?_⟩
      obtain ⟨c, hc, hc2⟩ := unwritable_char h7 ha hl
      have hx : x ∈ lineTexts (detectStrV pr true env ord limit sample ds m skip).2 := by rw [h5]; simp
      unfold lineTexts at hx
      rw [List.mem_flatMap] at hx
      obtain ⟨l', hl', hx⟩ := hx
      simp only [List.mem_cons, List.not_mem_nil, or_false] at hx
      rcases hx with rfl | rfl
      · rcases messages_form pr true env ord limit sample ds m skip x hl' with h8 | ⟨d, hd, sc, h8⟩
        · have := h8 c hc
          omega
        · exact ⟨d, hd, ⟨sc, h8⟩, c, scoreLine_char (h8 ▸ hc) hc2, hc2⟩
      · simp only [List.mem_singleton] at hc
        subst hc
        exact absurd hc2 (by decide)

/-- **C129**, the commands with `verbose`: the texts are written as far as the encoding allows, and the first that cannot be
encoded ends the command with `UnicodeEncodeError`. -/
theorem C129_commands (sys : Sys) (t : Terminal) (pr : Printer) (v : Bool) (p : Path) (e : Option Str) (n : Option Int)
    (b b' : Bool) (f : DetectFormat) (a : StdArgs) (w : World) (s : Screen) :
    (∃ k, OnTerminal t k w s (detectCmdV sys pr v p e n b b' f w) (detectCmdVE sys t pr v p e n b b' f w s)) ∧
    (∃ k, OnTerminal t k w s (codeCmdV sys pr v p e n b w) (codeCmdVE sys t pr v p e n b w s)) ∧
    (∃ k, OnTerminal t k w s (standardizeV sys pr v a w) (standardizeVE sys t pr v a w s)) :=
  ⟨sims_detectCmd sys pr v p e n b b' f w s, sims_codeCmd sys pr v p e n b w s, sims_standardize sys pr v a w s⟩

theorem actE_assoc {α β : Type} (m : Act α) (f : α → Act β) :
    (silently m >>= fun a => silently (f a)) = silently (m >>= f) := by
  funext w s
  rw [actE_bind]
  unfold silently
  rw [act_bind]
  rcases m w with ⟨_ | a, w'⟩ <;> rfl

theorem detectDialectE_quiet (sys : Sys) (t : Terminal) (pr : Printer) (p : Path) (n : Option Int) (e : Option Str) (m : Str)
    (skip : Bool) : detectDialectE sys t pr false p n e m skip = silently (detectDialect sys p n e m skip) := by
  have hd : ∀ x, runDetectorE sys t pr false x m skip = silently (runDetector sys x m skip) := by
    intro x
    funext w s
    unfold runDetectorE
    rw [C129_quiet]
    rfl
  have h : detectDialect sys p n e m skip = (do
      let enc ← encodingOr sys p e
      let text ← openText sys p enc
      runDetector sys (readSome text n) m skip) := by
    unfold detectDialect encodingOr
    cases truthy e <;> rfl
  unfold detectDialectE
  simp only [hd]
  rw [h, ← actE_assoc]
  congr 1
  funext e2
  rw [actE_assoc]

/-- **C129**, the commands without `verbose` are those of C128. -/
theorem C129_commands_quiet (sys : Sys) (t : Terminal) (pr : Printer) (p : Path) (e : Option Str) (n : Option Int)
    (b b' : Bool) (f : DetectFormat) (a : StdArgs) :
    detectCmdVE sys t pr false p e n b b' f = detectCmdE sys t pr p e n b b' f ∧
    codeCmdVE sys t pr false p e n b = codeCmdE sys t pr p e n b ∧
    standardizeVE sys t pr false a = standardizeE sys t a := by
  have hp : ∀ p o e, handlePathVE sys t pr false a p o e = handlePathE sys t a p o e := by
    intro p o e
    unfold handlePathVE handlePathE
    simp only [detectDialectE_quiet]
    rfl
  have hl : ∀ jobs g, handleLoopVE sys t pr false a jobs g = handleLoopE sys t a jobs g := by
    intro jobs
    induction jobs with
    | nil => intro g; rfl
    | cons j rest ih =>
      intro g
      obtain ⟨p, o, e⟩ := j
      rw [handleLoopVE, handleLoopE, hp]
      simp only [ih]
  refine ⟨?_, ?_, ?_⟩
  · unfold detectCmdVE detectCmdE
    simp only [detectDialectE_quiet]
    rfl
  · unfold codeCmdVE codeCmdE
    simp only [detectDialectE_quiet]
    rfl
  · unfold standardizeVE standardizeE
    simp only [hl]
    rfl

/-! ## Violations and examples -/

/-- An environment in which `§` is a punctuation character. -/
def sectionEnv : PyEnv :=
  { asciiEnv with category := fun c => if c = '§' then "Po" else asciiEnv.category c,
                  letter := fun c => c ≠ '§' && asciiEnv.letter c }

/-- With standard output in ASCII detection succeeds, but with `verbose` it raises `UnicodeEncodeError` and the field size limit
is changed. -/
theorem C129_detect_violated :
    let x := "a§b§c\n1§2§3\n4§5§6\n".toList
    let r (v : Bool) := detectStrE asciiOut demoPrinter v sectionEnv demoSys.order 131072 x none "auto".toList true {}
    (r false).1.result = .ok (some ⟨some ['§'], some [], some [], false⟩) ∧ (r false).1.limit = 131072 ∧
    (r true).1.result = .error .unicodeError ∧ (r true).1.limit = 19 := by
  decide +kernel

/-- `clevercsv standardize -o g f` works with standard output in ASCII, but with `--verbose` it ends with `UnicodeEncodeError`
before anything is written. -/
theorem C129_standardize_violated :
    let w : World := { demoWorld [] with
      files := fun p => if p = "f".toList then some (utf8 "a§b§c\n1§2§3\n4§5§6\n".toList) else none }
    let a : StdArgs := { paths := ["f".toList], outputs := ["g".toList], encodings := ["utf-8".toList] }
    let r (v : Bool) := standardizeVE { utf8Sys with env := sectionEnv } asciiOut demoPrinter v a w {}
    (r false).1 = .ok 0 ∧ (r false).2.1.files "g".toList = some (utf8 "a,b,c\r\n1,2,3\r\n4,5,6\r\n".toList) ∧
    (r true).1 = .error .unicodeError ∧ (r true).2.1.files "g".toList = none ∧
    (r true).2.1.stdout = printed ["Running normal form detection ...", "Didn't match any normal forms.",
      "Running data consistency measure ...",
      "SimpleDialect('', '', ''):\tP =        0.003000\tT =        0.000000\tQ =        0.000000"] := by
  decide +kernel

/-- With a codec that has the character all is well. -/
example :
    let x := "a§b§c\n1§2§3\n4§5§6\n".toList
    let t : Terminal := { codec := utf8Codec }
    let r := detectStrE t demoPrinter true sectionEnv demoSys.order 131072 x none "auto".toList true {}
    HasAll t.codec ∧ r.1.result = .ok (some ⟨some ['§'], some [], some [], false⟩) ∧ r.1.limit = 131072 ∧
    r.2.screen.bytes = utf8 r.2.text ∧ r.2.text = printed ["Running normal form detection ...",
      "Didn't match any normal forms.", "Running data consistency measure ...",
      "SimpleDialect('', '', ''):\tP =        0.003000\tT =        0.000000\tQ =        0.000000",
      "SimpleDialect('§', '', ''):\tP =        2.000000\tT =        1.000000\tQ =        2.000000"] := by
  refine ⟨fun _ _ => rfl, ?_⟩
  decide +kernel

/-- The hypotheses of `C129_outcome_partial`; both cases occur (`C129_detect_violated`). -/
example : HasAscii asciiOut.codec ∧ Ascii asciiOut.linesep ∧ Ascii windowsOut.linesep ∧
    (detectStrE asciiOut demoPrinter true sectionEnv demoSys.order 131072 "a,b\nc,d\n".toList none "auto".toList true {}).1.result =
      .ok (some ⟨some [','], some [], some [], false⟩) := by
  refine ⟨fun s x h => by simp [asciiOut, asciiCodec, h], by unfold Ascii; decide, by unfold Ascii; decide, ?_⟩
  decide +kernel

end Clever.Props
