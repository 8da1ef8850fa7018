import Verif.Proofs.Verbose
import Verif.Props.Detection
import Verif.Props.Code

/-!
# C108: the option `verbose`

The option should add messages, and leave results, files and the data on the standard output as they are.  The messages
are printed on the standard output too, so that the output of `standardize` and of `detect --json` with this option is
neither a CSV text nor a JSON text.
-/

namespace Clever.Spec

/-- Two programs with the same results and effects, of which the second may print more: whatever each has on its
standard output before. -/
def SameButPrints {α : Type} (A B : Act α) : Prop := ∀ files ticks limit s s',
  let r := A ⟨files, ticks, limit, s⟩
  let r' := B ⟨files, ticks, limit, s'⟩
  r'.1 = r.1 ∧ r'.2.files = r.2.files ∧ r'.2.ticks = r.2.ticks ∧ r'.2.limit = r.2.limit ∧
  ∃ x y, r.2.stdout = s ++ x ∧ r'.2.stdout = s' ++ y ∧ x.Sublist y

/-- Lines on the standard output. -/
def printed (lines : List String) : Str := lines.flatMap fun l => l.toList ++ ['\n']

/-- `t` is `s` with spaces in front, as many as are needed for `n` characters. -/
def Justified (n : Nat) (s t : Str) : Prop := ∃ k, t = List.replicate k ' ' ++ s ∧ t.length = max n s.length

end Clever.Spec

namespace Clever.Props

open Clever Spec

theorem sameButPrints {α : Type} {A B : Act α} (h : Louder A B) : SameButPrints A B := by
  intro files ticks limit s s'
  obtain ⟨x, y, h1, h2, h3⟩ := h ⟨files, ticks, limit, s⟩ s'
  have h3' : B ⟨files, ticks, limit, s'⟩ = _ := h3
  refine ⟨by rw [h3'], by rw [h3']; rfl, by rw [h3']; rfl, by rw [h3']; rfl, x, y, h2, by rw [h3']; rfl, h1⟩

/-- **C108** fails: `clevercsv detect --json` prints a JSON text, and with `--verbose` something that is no JSON text. -/
theorem C108_json_violated :
    let w := demoWorld [("f", "a,b\nc,d\n")]
    (detectCmd demoSys demoPrinter "f".toList none none false false .json w).2.stdout =
      printed ["{\"delimiter\": \",\", \"quotechar\": \"\", \"escapechar\": \"\", \"strict\": false}"] ∧
    loads asciiEnv (detectCmd demoSys demoPrinter "f".toList none none false false .json w).2.stdout ≠ none ∧
    (detectCmdV demoSys demoPrinter true "f".toList none none false false .json w).2.stdout =
      printed ["Running normal form detection ...", "Matched normal form 2.",
        "{\"delimiter\": \",\", \"quotechar\": \"\", \"escapechar\": \"\", \"strict\": false}"] ∧
    loads asciiEnv (detectCmdV demoSys demoPrinter true "f".toList none none false false .json w).2.stdout = none := by
  decide +kernel

/-- **C108** fails: the output of `clevercsv standardize --verbose` has the messages in front of the rows. -/
theorem C108_standardize_violated :
    let w := demoWorld [("f", "a;b\nc;d\n")]
    (standardize demoSys { paths := ["f".toList] } w).2.stdout = "a,b\r\nc,d\r\n".toList ∧
    (standardizeV demoSys demoPrinter true { paths := ["f".toList] } w).2.stdout =
      printed ["Running normal form detection ...", "Matched normal form 2."] ++ "a,b\r\nc,d\r\n".toList := by
  decide +kernel

/-- **C108** as far as it holds, detection: `verbose` makes no difference to the result, the method and the field size
limit, and without it nothing is printed. -/
theorem C108_detect_partial (pr : Printer) (v : Bool) (env : PyEnv) (ord : SetOrder) (limit : Int) (data : Str)
    (ds : Option (List Str)) (m : Str) (skip : Bool) :
    (detectStrV pr v env ord limit data ds m skip).1 = detectStr env ord limit data ds m skip ∧
    (detectStrV pr false env ord limit data ds m skip).2 = [] :=
  ⟨detectStrV_fst .., detectStrV_silent ..⟩

/-- **C108** as far as it holds, wrappers: the same results, exceptions and field size limit. -/
theorem C108_wrappers_partial (sys : Sys) (pr : Printer) (v : Bool) (p : Path) (d : Option DialectArg) (e : Option Str)
    (n : Option Int) (m : Str) (skip : Bool) :
    SameButPrints (streamTable sys p d e n) (streamTableV sys pr v p d e n) ∧
    SameButPrints (readTable sys p d e n) (readTableV sys pr v p d e n) ∧
    SameButPrints (streamDicts sys p d e n) (streamDictsV sys pr v p d e n) ∧
    SameButPrints (readDicts sys p d e n) (readDictsV sys pr v p d e n) ∧
    SameButPrints (detectDialect sys p n e m skip) (detectDialectV sys pr v p n e m skip) :=
  ⟨sameButPrints (louder_streamTable sys pr v _ _ _ _), sameButPrints (louder_readTable sys pr v _ _ _ _), sameButPrints (louder_streamDicts sys pr v _ _ _ _), sameButPrints (louder_readDicts sys pr v _ _ _ _),
    sameButPrints (louder_detectDialect sys pr v _ _ _ _ _)⟩

/-- **C108** as far as it holds, commands: the same exit codes, exceptions and files, whatever operations fail; what is
printed without `verbose` is printed with it too. -/
theorem C108_commands_partial (sys : Sys) (pr : Printer) (v : Bool) (p : Path) (e : Option Str) (n : Option Int)
    (b b' : Bool) (f : DetectFormat) (con : Console) (a : StdArgs) :
    SameButPrints (detectCmd sys pr p e n b b' f) (detectCmdV sys pr v p e n b b' f) ∧
    SameButPrints (codeCmd sys pr p e n b) (codeCmdV sys pr v p e n b) ∧
    SameButPrints (viewCmd sys p e n b) (viewCmdV sys pr v p e n b) ∧
    SameButPrints (exploreCmd sys pr con p e n b) (exploreCmdV sys pr v con p e n b) ∧
    SameButPrints (standardize sys a) (standardizeV sys pr v a) :=
  ⟨sameButPrints (louder_detectCmd sys pr v _ _ _ _ _ _), sameButPrints (louder_codeCmd sys pr v _ _ _ _), sameButPrints (louder_viewCmd sys pr v _ _ _ _), sameButPrints (louder_exploreCmd sys pr v _ _ _ _ _),
    sameButPrints (louder_standardize sys pr v _)⟩

/-- **C108**, the messages about scores: one line for every candidate, in the order of dialects, with its scores. -/
theorem C108_scores_partial (pr : Printer) (env : PyEnv) (ord : SetOrder) (skip : Bool) (limit : Int) (data : Str)
    (ds : Option (List Str)) (scores : List (SimpleDialect × ConsistencyScore))
    (h : (computeConsistencyScores env (some 100000) skip [] (data.length + 1) data (getDialects env ord data ds)).1 =
      .ok scores) :
    (detectStrV pr true env ord limit data ds "consistency".toList skip).2 =
      "Running data consistency measure ...".toList :: scores.map fun p => scoreLine pr p.1 p.2 := by
  have hs : (computeConsistencyScoresV pr true env (some 100000) skip [] (data.length + 1) data
      (getDialects env ord data ds)).2 = scores.map fun p => scoreLine pr p.1 p.2 := by
    unfold computeConsistencyScores at h
    unfold computeConsistencyScoresV
    obtain ⟨S, h1, h2, h3⟩ := sortDialects_spec (getDialects env ord data ds) (fun x hx => getDialects_isStr hx)
      (getDialects_nodup ..)
    rw [h1] at h ⊢
    simp only at h ⊢
    obtain ⟨l, h4, h5⟩ := scoreLoopV_lines pr S _ _ [] scores (h2.nodup_iff.2 (getDialects_nodup ..)) (by simp) h
    rw [h5, h4]
    rfl
  have hm : DetectionMethod.ofString "consistency".toList = .ok .consistency := by decide +kernel
  simp only [detectStrV, hm, detectV, consistencyDetectV_snd, hs]
  rfl

/-- **C108**, the messages about normal forms: a form is named exactly if it is the one that the dialect was found
with. -/
theorem C108_normal_partial (env : PyEnv) (data : Str) (ds : Option (List Str)) :
    (detectDialectNormal env data ds = none ∧
      ((detectDialectNormalV true env data ds).2 = ["Not normal, has potential escapechar.".toList] ∨
        (detectDialectNormalV true env data ds).2 = ["Didn't match any normal forms.".toList] ∧
          ∀ t ∈ formTests (ds.getD nfDelims), t.holds (splitFile data) = false)) ∨
    ∃ t ∈ formTests (ds.getD nfDelims), t.holds (splitFile data) = true ∧
      detectDialectNormal env data ds = some t.dialect ∧
      (detectDialectNormalV true env data ds).2 =
        ["Matched normal form ".toList ++ Nat.toDigits 10 t.form ++ ['.']] := by
  unfold detectDialectNormal detectDialectNormalV
  simp only
  split
  · exact .inl ⟨rfl, .inl rfl⟩
  · cases hf : (formTests (ds.getD nfDelims)).find? fun t => t.holds (splitFile data) with
    | none =>
      refine .inl ⟨rfl, .inr ⟨rfl, ?_⟩⟩
      intro t ht
      simpa using List.find?_eq_none.1 hf t ht
    | some t =>
      exact .inr ⟨t, List.mem_of_find?_eq_some hf, by simpa using List.find?_some hf, rfl, rfl⟩

/-- **C108**, the numbers in the messages: six decimals, with the digits of the nearest number. -/
theorem C108_number_partial (q : ℚ) (hq : 0 ≤ q) :
    ∃ i f : Str, fixed6 q = i ++ '.' :: f ∧ f.length = 6 ∧ i ≠ [] ∧ (∀ c ∈ i ++ f, c.isDigit = true) ∧
      |(Nat.ofDigitChars 10 i 0 : ℚ) + (Nat.ofDigitChars 10 f 0 : ℚ) / 1000000 - q| ≤ 1 / 2000000 := by
  obtain ⟨n, hn⟩ : ∃ n, n = (roundEven (q * 1000000)).toNat := ⟨_, rfl⟩
  have hb := roundEven_bounds (q * 1000000)
  have hpos : 0 ≤ roundEven (q * 1000000) := by
    have := roundEven_mono (x := 0) (y := q * 1000000) (by positivity)
    rwa [show roundEven 0 = 0 from by exact_mod_cast roundEven_int 0] at this
  have hz : ((n : ℤ) : ℚ) = (roundEven (q * 1000000) : ℚ) := by
    rw [hn, Int.toNat_of_nonneg hpos]
  have hlen : (Nat.toDigits 10 (n % 1000000)).length ≤ 6 := by
    rw [Nat.length_toDigits_le_iff (by decide) (by decide)]
    exact Nat.mod_lt _ (by decide)
  refine ⟨Nat.toDigits 10 (n / 1000000),
    List.replicate (6 - (Nat.toDigits 10 (n % 1000000)).length) '0' ++ Nat.toDigits 10 (n % 1000000), ?_, ?_,
    Nat.toDigits_ne_nil, ?_, ?_⟩
  · simp only [fixed6, decDigits, hn]
  · simp only [List.length_append, List.length_replicate]
    omega
  · intro c hc
    simp only [List.mem_append, List.mem_replicate] at hc
    rcases hc with h | ⟨-, rfl⟩ | h
    · exact Nat.isDigit_of_mem_toDigits (by decide) (by decide) h
    · decide
    · exact Nat.isDigit_of_mem_toDigits (by decide) (by decide) h
  · have hv : Nat.ofDigitChars 10 (List.replicate (6 - (Nat.toDigits 10 (n % 1000000)).length) '0' ++
        Nat.toDigits 10 (n % 1000000)) 0 = n % 1000000 := by
      rw [Nat.ofDigitChars_append]
      simp
    rw [hv, Nat.ofDigitChars_ten_toDigits]
    have hdm : ((n / 1000000 : ℕ) : ℚ) * 1000000 + ((n % 1000000 : ℕ) : ℚ) = (n : ℚ) := by
      exact_mod_cast Nat.div_add_mod' n 1000000
    have hz' : (n : ℚ) = (roundEven (q * 1000000) : ℚ) := by rw [← hz]; norm_cast
    rw [abs_le]
    constructor <;> linarith [hb.1, hb.2]

theorem padLeft_justified (n : Nat) (s : Str) : Justified n s (padLeft n s) :=
  ⟨n - s.length, rfl, by simp [padLeft]; omega⟩

/-- **C108**, a line for scores: the dialect, `P`, and `T` and `Q` or `skip.`, each number to the right in fifteen columns. -/
theorem C108_line_partial (pr : Printer) (d : SimpleDialect) (P : ℚ) :
    ∃ d' p', Justified 15 (d.repr pr) d' ∧ Justified 15 (fixed6 P) p' ∧
      scoreLine pr d ⟨P, none, none⟩ = d' ++ ":\tP = ".toList ++ p' ++ "\tskip.".toList ∧
      ∀ T Q, ∃ t' q', Justified 15 (fixed6 T) t' ∧ Justified 15 (fixed6 Q) q' ∧
        scoreLine pr d ⟨P, some T, some Q⟩ =
          d' ++ ":\tP = ".toList ++ p' ++ "\tT = ".toList ++ t' ++ "\tQ = ".toList ++ q' := by
  refine ⟨_, _, padLeft_justified .., padLeft_justified .., rfl, fun T Q =>
    ⟨_, _, padLeft_justified .., padLeft_justified .., ?_⟩⟩
  simp only [scoreLine, List.append_assoc]

/-- **C108**, the order of the messages: first those about normal forms, if these are looked for, and then those about
scores if there is no normal form. -/
theorem C108_order_partial (pr : Printer) (env : PyEnv) (ord : SetOrder) (limit : Int) (data : Str)
    (ds : Option (List Str)) (skip : Bool) (m : String) (hm : m = "auto" ∨ m = "normal") :
    (detectStrV pr true env ord limit data ds m.toList skip).2 =
      "Running normal form detection ...".toList :: (detectDialectNormalV true env data ds).2 ++
        if (detectDialectNormal env data ds).isSome then []
        else (detectStrV pr true env ord limit data ds "consistency".toList skip).2 := by
  have h : (detectDialectNormalV true env data ds).1 = detectDialectNormal env data ds := by
    unfold detectDialectNormalV detectDialectNormal
    simp only
    split
    · rfl
    · split <;> simp_all
  have hc : (detectStrV pr true env ord limit data ds "consistency".toList skip) =
      detectV pr true env ord limit data ds .consistency skip := rfl
  have ha : (detectStrV pr true env ord limit data ds m.toList skip) =
      detectV pr true env ord limit data ds (if m = "auto" then .auto else .normal) skip := by
    rcases hm with rfl | rfl <;> rfl
  rw [hc, ha, ← h]
  have hk : ∀ k : DetectionMethod, k = .auto ∨ k = .normal → (detectV pr true env ord limit data ds k skip).2 =
      "Running normal form detection ...".toList :: (detectDialectNormalV true env data ds).2 ++
        if (detectDialectNormalV true env data ds).1.isSome then []
        else (detectV pr true env ord limit data ds .consistency skip).2 := by
    intro k hk
    have h1 : k = .normal ∨ k = .auto := hk.symm
    simp only [detectV, if_pos h1, reduceCtorEq, or_self, if_false]
    rcases detectDialectNormalV true env data ds with ⟨_ | d, l⟩ <;> simp [say]
  exact hk _ (by split <;> simp)

/-! Examples -/

/-- The messages for a text without normal form. -/
example : (detectStrV demoPrinter true asciiEnv .forward 131072 "a,b\nc,\"d\ne\"\n".toList none "auto".toList true).2 =
    ["Running normal form detection ...".toList, "Didn't match any normal forms.".toList,
      "Running data consistency measure ...".toList,
      "SimpleDialect(',', '', ''):\tP =        0.500500\tT =        0.600000\tQ =        0.300300".toList,
      "SimpleDialect(',', '\"', ''):\tP =        1.000000\tT =        0.750000\tQ =        0.750000".toList,
      "SimpleDialect('', '', ''):\tP =        0.003000\tskip.".toList,
      "SimpleDialect('', '\"', ''):\tP =        0.002000\tskip.".toList] := by
  decide +kernel

example : fixed6 (7 / 4) = "1.750000".toList ∧ fixed6 (1 / 1000) = "0.001000".toList ∧
    fixed6 (5 / 10000000) = "0.000000".toList ∧ fixed6 (15 / 10000000) = "0.000002".toList := by decide +kernel

end Clever.Props
